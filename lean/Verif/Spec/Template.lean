import Verif.Spec.Expr
/-!
# File name templates as documented (README.md 394-410)
-/
namespace Nd.Spec
namespace Template

/-- What can be rendered: the offset `n`, the index `l`, or an expression of the two, given with its text. -/
inductive Value where
  | offset
  | index
  | expr (e : Expr) (text : List Char)

/-- How it is written. -/
def Value.source : Value → List Char
  | .offset => ['n']
  | .index => ['l']
  | .expr _ text => '(' :: text ++ [')']

/-- The variables. -/
def env (n l : Nat) : Env := ⟨fun x => if x = ['n'] then some (n : Int) else if x = ['l'] then some (l : Int) else none, fun _ _ => none⟩

/-- Its value for the slice with offset `n` and index `l`. -/
def Value.eval (n l : Nat) : Value → Option Int
  | .offset => some (n : Int)
  | .index => some (l : Int)
  | .expr e _ => e.value (env n l)

/-- A template consists of literal text and of values with an optional format. -/
inductive Piece where
  | text (cs : List Char)
  | value (v : Value) (format : Option (List Char))

/-- How it is written. -/
def Piece.source : Piece → List Char
  | .text cs => cs
  | .value v none => '{' :: v.source ++ ['}']
  | .value v (some f) => '{' :: v.source ++ ':' :: f ++ ['}']

/-- The text of a template. -/
def source (ps : List Piece) : List Char := ps.flatMap Piece.source

/-- What a piece is rendered to, where `fmt` formats an integer according to a format (the empty one is the default). -/
def Piece.name (fmt : List Char → Int → List Char) (n l : Nat) : Piece → Option (List Char)
  | .text cs => some cs
  | .value v f => (v.eval n l).map (fmt (f.getD []))

/-- The file name. -/
def name (fmt : List Char → Int → List Char) (n l : Nat) : List Piece → Option (List Char)
  | [] => some []
  | p :: ps => (p.name fmt n l).bind fun x => (name fmt n l ps).map (x ++ ·)

/-- A format or text that can be part of a template: braces are special, and a template is a single line. -/
def Inside (cs : List Char) : Prop := '}' ∉ cs ∧ '\n' ∉ cs

end Template
end Nd.Spec
