import Verif.Spec.Literal
/-!
# Expressions as documented (README "Expression evaluation engine"): C operators with C precedences
-/
namespace Nd.Spec

/-- Unary operators; the complement is written `~` or `!`. -/
inductive UnOp where
  | plus
  | minus
  | tilde
  | bang
  deriving DecidableEq

def UnOp.text : UnOp → List Char
  | .plus => ['+']
  | .minus => ['-']
  | .tilde => ['~']
  | .bang => ['!']

inductive BinOp where
  | mul | div | rem | add | sub | shl | shr | lt | le | gt | ge | and | xor | or
  deriving DecidableEq

def BinOp.text : BinOp → List Char
  | .mul => ['*'] | .div => ['/'] | .rem => ['%']
  | .add => ['+'] | .sub => ['-']
  | .shl => ['<', '<'] | .shr => ['>', '>']
  | .lt => ['<'] | .le => ['<', '='] | .gt => ['>'] | .ge => ['>', '=']
  | .and => ['&'] | .xor => ['^'] | .or => ['|']

/-- The precedences of C. -/
def BinOp.prec : BinOp → Nat
  | .mul | .div | .rem => 7
  | .add | .sub => 6
  | .shl | .shr => 5
  | .lt | .le | .gt | .ge => 4
  | .and => 3
  | .xor => 2
  | .or => 1

/-- Expressions: literals, variables, elements of array variables, parentheses, operators. -/
inductive Expr where
  | num (l : Literal)
  | var (name : List Char)
  | idx (name : List Char) (e : Expr)
  | par (e : Expr)
  | un (u : UnOp) (e : Expr)
  | bin (o : BinOp) (l r : Expr)

namespace Expr

/-- How tightly the outermost construct binds. -/
def level : Expr → Nat
  | .num _ | .var _ | .idx _ _ | .par _ => 9
  | .un _ _ => 8
  | .bin o _ _ => o.prec

/-- A name: letters and digits, the first is a letter. -/
def IsName (n : List Char) : Prop := ∃ c cs, n = c :: cs ∧ c.isAlpha = true ∧ ∀ x ∈ cs, x.isAlphanum = true

/-- The expression is the one its text denotes according to the C grammar: operands bind more tightly than the operator, operators are left-associative. -/
def InC : Expr → Prop
  | .num l => l.Ok
  | .var n => IsName n
  | .idx n e => IsName n ∧ e.InC
  | .par e => e.InC
  | .un _ e => e.InC ∧ 8 ≤ e.level
  | .bin o l r => l.InC ∧ r.InC ∧ o.prec ≤ l.level ∧ o.prec < r.level

/-- The lexemes of the text. -/
def lexemes : Expr → List (List Char)
  | .num l => [l.text]
  | .var n => [n]
  | .idx n e => [n, ['[']] ++ e.lexemes ++ [[']']]
  | .par e => [['(']] ++ e.lexemes ++ [[')']]
  | .un u e => u.text :: e.lexemes
  | .bin o l r => l.lexemes ++ o.text :: r.lexemes

end Expr

/-- White space. -/
def IsSpace (c : Char) : Prop := c = ' ' ∨ c = '\t' ∨ c = '\n' ∨ c = '\r'

/-- The text consists of the lexemes with any white space between and around them. -/
def Spaced : List (List Char) → List Char → Prop
  | [], cs => ∀ c ∈ cs, IsSpace c
  | x :: xs, cs => ∃ w rest, (∀ c ∈ w, IsSpace c) ∧ cs = w ++ x ++ rest ∧ Spaced xs rest

/-- The result if it is in the range of 64-bit signed integers. -/
def fit (v : Int) : Option Int := if -2 ^ 63 ≤ v ∧ v < 2 ^ 63 then some v else none

def UnOp.apply : UnOp → Int → Option Int
  | .plus, x => some x
  | .minus, x => fit (-x)
  | .tilde, x | .bang, x => fit (-x - 1)

/-- The operators of C on 64-bit two's complement integers, where C defines them. -/
def BinOp.apply : BinOp → Int → Int → Option Int
  | .mul, x, y => fit (x * y)
  | .div, x, y => if y = 0 then none else fit (x.tdiv y)
  | .rem, x, y => if y = 0 then none else (fit (x.tdiv y)).map (fun _ => x.tmod y)
  | .add, x, y => fit (x + y)
  | .sub, x, y => fit (x - y)
  | .shl, x, y => if 0 ≤ y ∧ y < 64 then fit (x * 2 ^ y.toNat) else none
  | .shr, x, y => if 0 ≤ y ∧ y < 64 then some (x / 2 ^ y.toNat) else none
  | .lt, x, y => some (if x < y then 1 else 0)
  | .le, x, y => some (if x ≤ y then 1 else 0)
  | .gt, x, y => some (if x > y then 1 else 0)
  | .ge, x, y => some (if x ≥ y then 1 else 0)
  | .and, x, y => some (BitVec.ofInt 64 x &&& BitVec.ofInt 64 y).toInt
  | .xor, x, y => some (BitVec.ofInt 64 x ^^^ BitVec.ofInt 64 y).toInt
  | .or, x, y => some (BitVec.ofInt 64 x ||| BitVec.ofInt 64 y).toInt

/-- The values of the variables. -/
structure Env where
  plain : List Char → Option Int
  array : List Char → Int → Option Int

/-- No variables. -/
def Env.none : Env := ⟨fun _ => .none, fun _ _ => .none⟩

namespace Expr

/-- The value of an expression, if all intermediate results are in range. -/
def value (ρ : Env) : Expr → Option Int
  | .num l => fit l.value
  | .var n => ρ.plain n
  | .idx n e => (e.value ρ).bind (ρ.array n)
  | .par e => e.value ρ
  | .un u e => (e.value ρ).bind u.apply
  | .bin o l r => (l.value ρ).bind fun x => (r.value ρ).bind fun y => o.apply x y

/-! The rest of this file describes expressions that `nd` evaluates correctly; `Verif/Props/Expr.lean` shows what happens to others. -/

/-- Begins with a unary operator. -/
def signed : Expr → Bool
  | .un _ _ => true
  | .bin _ l _ => l.signed
  | _ => false

/-- The number of complements among the unary operators applied in a row (possibly with parentheses in between). -/
def complements : Expr → Nat
  | .par e => e.complements
  | .un u e => e.complements + if u = .tilde ∨ u = .bang then 1 else 0
  | _ => 0

/-- The syntax understood by `nd` in the same way as C: unary operators are applied to literals, variables or parentheses only, an index does not begin with a unary
operator, the right operand of a comparison or bitwise operator is at least a shift expression, and literals have at most 32 digits. -/
def Plain : Expr → Prop
  | .num l => l.groups.flatten.length ≤ 32
  | .var _ => True
  | .idx _ e => e.Plain ∧ e.signed = false
  | .par e => e.Plain
  | .un _ e => e.Plain ∧ e.level = 9
  | .bin o l r => l.Plain ∧ r.Plain ∧ (o.prec ≤ 4 → 5 ≤ r.level)

/-- No two complements in a row. -/
def Calm : Expr → Prop
  | .num _ | .var _ => True
  | .idx _ e | .par e => e.Calm
  | .un u e => e.Calm ∧ (Expr.un u e).complements ≤ 1
  | .bin _ l r => l.Calm ∧ r.Calm

def isCompare : BinOp → Bool
  | .lt | .le | .gt | .ge => true
  | _ => false

/-- The operands of comparisons differ by less than 2^63. -/
def Narrow (ρ : Env) : Expr → Prop
  | .num _ | .var _ => True
  | .idx _ e | .par e | .un _ e => e.Narrow ρ
  | .bin o l r => l.Narrow ρ ∧ r.Narrow ρ ∧
    (isCompare o = true → ∀ x y, l.value ρ = some x → r.value ρ = some y → -2 ^ 63 < x - y ∧ x - y < 2 ^ 63)

end Expr

end Nd.Spec
