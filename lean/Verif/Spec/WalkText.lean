import Verif.Spec.Simplify
import Verif.Spec.Walk
import Mathlib.Data.List.Forall2
/-!
# The expressions of `--walk`
-/
namespace Nd.Spec

/-- The arrays `b`, `h`, `i` and `l` have elements of 1, 2, 4 and 8 bytes. -/
def elementSize (n : List Char) : Option Nat := [(['b'], 1), (['h'], 2), (['i'], 4), (['l'], 8)].lookup n

/-- The values of the arrays where `stream` remains. -/
def streamEnv (stream : Bytes) : Env where
  plain _ := none
  array n i := if 0 ≤ i then (elementSize n).map fun size => element size i.toNat stream else none

/-- The lengths are the positive values of the expressions; the operands of comparisons differ by less than 2^63. -/
def Lengths (es : List Expr) (stream : Bytes) (ls : List Nat) : Prop :=
  List.Forall₂ (fun e (l : Nat) => e.value (streamEnv stream) = some (l : Int) ∧ 0 < l ∧ e.Narrow (streamEnv stream)) es ls

/-- The elements looked at lie in the first `H` bytes. -/
def Expr.Reaches (H : Nat) (e : Expr) : Prop := ∀ n k, (n, k) ∈ e.elements → ∃ size, elementSize n = some size ∧ k * size + size ≤ H

/-- `exprs` consists of the texts of the expressions, separated by commas; there may be another comma at the end. -/
def Listed (es : List Expr) (exprs : List Char) : Prop :=
  ∃ texts, List.Forall₂ (fun (e : Expr) text => Spaced e.lexemes text) es texts ∧ (exprs = [','].intercalate texts ∨ exprs = [','].intercalate texts ++ [','])

end Nd.Spec
