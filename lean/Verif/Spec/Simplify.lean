import Verif.Spec.Expr
/-!
# Expressions whose value the simplifier of `nd` is known to keep

`Verif/Props/Simplify.lean` shows what happens to others.
-/
namespace Nd.Spec
namespace Expr

/-- A literal or variable, possibly in parentheses. -/
def bare : Expr → Bool
  | .num _ | .var _ => true
  | .par e => e.bare
  | _ => false

/-- A literal, possibly in parentheses. -/
def lit : Expr → Option Nat
  | .num l => some l.value
  | .par e => e.lit
  | _ => none

/-- An element of an array, the index is a literal. -/
def isElement : Expr → Bool
  | .idx _ e => e.lit.isSome
  | .par e => e.isElement
  | _ => false

/-- The names that occur. -/
def names : Expr → List (List Char)
  | .num _ => []
  | .var n => [n]
  | .idx n e => n :: e.names
  | .par e | .un _ e => e.names
  | .bin _ l r => l.names ++ r.names

/-- No comparisons. -/
def plainArith : Expr → Bool
  | .num _ | .var _ => true
  | .idx _ e | .par e | .un _ e => e.plainArith
  | .bin o l r => !isCompare o && l.plainArith && r.plainArith

/-- Nothing but literals and variables is negated or subtracted (except in the operands of comparisons); elements of arrays may be subtracted. -/
def Soft : Expr → Prop
  | .num _ | .var _ | .idx _ _ => True
  | .par e => e.Soft
  | .un .plus e | .un .minus e => e.bare = true
  | .un _ e => e.Soft
  | .bin .sub l r => l.Soft ∧ r.Soft ∧ (r.bare || r.isElement) = true
  | .bin o l r => isCompare o = false → l.Soft ∧ r.Soft

/-- Additions, subtractions and comparisons. -/
def additive : BinOp → Bool
  | .add | .sub => true
  | o => isCompare o

/-- Products and bitwise operators. -/
def multiplicative : BinOp → Bool
  | .mul | .and | .or | .xor => true
  | _ => false

/-- No arrays; unary plus is applied to literals and variables only; the right operands of additions, subtractions and comparisons are `Soft`; the operands of
products and bitwise operators have no variable in common; the operands of comparisons contain no comparisons. -/
def Tame : Expr → Prop
  | .num _ | .var _ => True
  | .idx _ _ => False
  | .par e => e.Tame
  | .un u e => e.Tame ∧ (u = .plus → e.bare = true)
  | .bin o l r => l.Tame ∧ r.Tame ∧ (additive o = true → r.Soft) ∧ (multiplicative o = true → ∀ n ∈ l.names, n ∉ r.names) ∧
    (isCompare o = true → l.plainArith = true ∧ r.plainArith = true)

/-- The elements of arrays that occur, the indices are literals. -/
def elements : Expr → List (List Char × Nat)
  | .num _ | .var _ => []
  | .idx n e => [(n, e.lit.getD 0)]
  | .par e | .un _ e => e.elements
  | .bin _ l r => l.elements ++ r.elements

/-- An operand that changes the value. -/
def effective : BinOp → Nat → Bool
  | .add, v | .sub, v | .or, v => v ≠ 0
  | .div, v => v ≠ 1
  | .rem, _ | .shl, _ | .shr, _ | .and, _ | .xor, _ => true
  | _, _ => false

/-- A literal operand that changes the value. -/
def changes (o : BinOp) (e : Expr) : Prop := ∃ v, e.lit = some v ∧ v < 2 ^ 63 ∧ effective o v = true

/-- Operators other than products applied to an element of an array and literals. -/
def Firm : Expr → Prop
  | .par e => e.Firm
  | .bin o l r => ((l.isElement = true ∨ additive o = false ∧ l.Firm) ∧ r.changes o) ∨ ((r.isElement = true ∨ additive o = false ∧ r.Firm) ∧ l.changes o)
  | _ => False

/-- A literal that is not zero. -/
def positive (e : Expr) : Prop := ∃ v, e.lit = some v ∧ v < 2 ^ 63 ∧ v ≠ 0

/-- The operands of a product: neither contains an element of an array, or the element is multiplied by a literal, or operators have been applied to it. -/
def Scaled (l r : Expr) : Prop :=
  (l.elements = [] ∧ r.elements = []) ∨ (l.isElement = true ∧ r.positive) ∨ (r.isElement = true ∧ l.positive) ∨ (l.Firm ∧ r.elements = []) ∨ (l.elements = [] ∧ r.Firm)

/-- At most one element of an array, with a literal index, and no variables; unary plus is applied to literals only; the right operands of additions, subtractions and
comparisons are `Soft`; the operands of products are `Scaled`; the operands of comparisons contain no comparisons. -/
def Lone : Expr → Prop
  | .num _ => True
  | .var _ => False
  | .idx _ e => ∃ k, e.lit = some k ∧ k < 2 ^ 63
  | .par e => e.Lone
  | .un u e => e.Lone ∧ (u = .plus → e.bare = true)
  | .bin o l r => l.Lone ∧ r.Lone ∧ (l.elements = [] ∨ r.elements = []) ∧ (additive o = true → r.Soft) ∧ (o = .mul → l.Scaled r) ∧
    (isCompare o = true → l.plainArith = true ∧ r.plainArith = true)

end Expr
end Nd.Spec
