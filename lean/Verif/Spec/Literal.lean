import Verif.Model.Basic
/-!
# Number literals as documented (README "Expression evaluation engine")
-/
namespace Nd.Spec

/-- The value of a digit. -/
def digitVal (c : Char) : Option Nat := "0123456789abcdef".toList.idxOf? c <|> "0123456789ABCDEF".toList.idxOf? c

/-- The kinds of literals: a decimal number, an octal number with a leading 0, or a number with a prefix (in upper or lower case). -/
inductive Radix where
  | plain
  | zero
  | bin (c : Bool)
  | oct (c : Bool)
  | dec (c : Bool)
  | hex (c : Bool)
  deriving DecidableEq

def Radix.base : Radix → Nat
  | .plain | .dec _ => 10
  | .zero | .oct _ => 8
  | .bin _ => 2
  | .hex _ => 16

def Radix.text : Radix → List Char
  | .plain | .zero => []
  | .bin c => ['0', if c then 'B' else 'b']
  | .oct c => ['0', if c then 'O' else 'o']
  | .dec c => ['0', if c then 'D' else 'd']
  | .hex c => ['0', if c then 'X' else 'x']

/-- SI and binary suffixes: the letter (in upper or lower case) and whether `i` follows. -/
inductive Scale where
  | one
  | times (exponent : Nat) (upper : Bool) (binary : Bool)
  deriving DecidableEq

def Scale.letter (n : Nat) (upper : Bool) : Char :=
  match n, upper with
  | 1, false => 'k' | 1, true => 'K'
  | 2, false => 'm' | 2, true => 'M'
  | 3, false => 'g' | 3, true => 'G'
  | _, false => 't' | _, true => 'T'

def Scale.text : Scale → List Char
  | .one => []
  | .times n upper binary => Scale.letter n upper :: (if binary then ['i'] else [])

def Scale.factor : Scale → Nat
  | .one => 1
  | .times n _ binary => (if binary then 1024 else 1000) ^ n

/-- A literal: the digits are in groups separated by underscores. -/
structure Literal where
  radix : Radix
  groups : List (List Char)
  scale : Scale

def Literal.body (l : Literal) : List Char := ['_'].intercalate l.groups

/-- The characters of the literal. -/
def Literal.text (l : Literal) : List Char := l.radix.text ++ l.body ++ l.scale.text

/-- The value of a sequence of digits in a base. -/
def positional (base : Nat) (ds : List Nat) : Nat := ds.foldl (fun v d => v * base + d) 0

/-- The value of the literal. -/
def Literal.value (l : Literal) : Nat := positional l.radix.base (l.groups.flatten.filterMap digitVal) * l.scale.factor

/-- The literal is well-formed. -/
structure Literal.Ok (l : Literal) : Prop where
  nonempty : l.groups ≠ [] ∧ ∀ g ∈ l.groups, g ≠ []
  digits : ∀ c ∈ l.groups.flatten, ∃ d, digitVal c = some d ∧ d < l.radix.base
  plain : l.radix = .plain → ∀ c, l.body.head? = some c → c ≠ '0'
  zero : l.radix = .zero → l.body.head? = some '0'
  scale : ∀ n u b, l.scale = .times n u b → 1 ≤ n ∧ n ≤ 4

/-- What may follow the literal: nothing that could belong to it. -/
def Literal.Ends (l : Literal) (rest : List Char) : Prop :=
  match l.scale with
  | .one => ∀ c, rest.head? = some c → digitVal c = none ∧ c ∉ ['_', 'k', 'K', 'm', 'M', 'g', 'G', 't', 'T', 'o', 'O', 'x', 'X']
  | .times _ _ true => True
  | .times _ _ false => rest.head? ≠ some 'i'

end Nd.Spec
