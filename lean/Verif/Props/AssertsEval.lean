import Verif.Proof.AssertsEval
import Verif.Proof.Body
import Verif.Props.Expr
import Verif.Model.Format
import Verif.Conformance.Host
/-!
# C47: the assertions of the parsers and formatters in the debug build
-/
namespace Nd.Props
open Nd Eval Format

/-- **C47** (expressions): for every text without the operators `&`, `|`, `^` and `!`, the debug build parses what the release build parses, or fails with the same error.  Missing:
these operators, see the counterexample. -/
theorem C47_expression_partial (vars : Vars) (cs : List Char) (h : ∀ c ∈ cs, c ≠ '&' ∧ c ≠ '|' ∧ c ≠ '^' ∧ c ≠ '!') : parseAsserting vars cs = parse vars cs :=
  parseAsserting_eq vars cs fun c hc hs => by
    obtain ⟨h1, h2, h3, h4⟩ := h c hc
    simp [Strange, h1, h2, h3, h4] at hs

example : parseAsserting [] (chars! "(1+2)*3 << 4 > -5 >= 2") = parse [] (chars! "(1+2)*3 << 4 > -5 >= 2") ∧ (parse [] (chars! "(1+2)*3 << 4 > -5 >= 2")).toOption.isSome = true :=
  ⟨C47_expression_partial _ _ (by decide +kernel), by decide +kernel⟩

/-- Two bitwise operators in a row, or one next to a comparison, fail the assertion; the release build accepts them. -/
theorem C47_expression_counterexample :
    parseAsserting [] (chars! "1|2|4") = .error .panic ∧ parseInt (chars! "1|2|4") = .ok 7 ∧
    parseAsserting [] (chars! "1&3>0") = .error .panic ∧ parseInt (chars! "1&3>0") = .ok 1 := by
  decide +kernel

/-- **C47** (arrays of text): an array parser that is told to be behind the second bar parses nothing, in all three versions.  This is what `src/text/parser/mod.rs` 411, 424 and 431
assert. -/
theorem C47_body (I : Impl) (src : Bytes) (scanned parsed : Nat) (d : Bytes) (h : I.body true src = some ((scanned, parsed), d)) : parsed = 0 := by
  have hc : ∀ (find : Nat → Byte → Nat) (multi : Nat → Nat → Option Bytes) (n p s q : Nat) (e : Bytes) (r : (Nat × Nat) × Bytes),
      simdChunks find multi n p true s q e = some r → r.1.2 = q := by
    intro find multi n
    induction n with
    | zero => intro p s q e r h; cases h; rfl
    | succ n ih =>
      intro p s q e r h
      simp only [simdChunks, if_true] at h
      split at h
      · cases h; rfl
      · exact ih _ _ _ _ _ h
  cases I with
  | portable => cases h; rfl
  | avx2 => exact hc _ _ _ _ _ _ _ _ h
  | neon => exact hc _ _ _ _ _ _ _ _ h

example : Impl.avx2.body true (bytes! "6 7 | abc\n" ++ List.replicate 256 10) = some ((9, 0), []) ∧ Impl.portable.body true (bytes! "6 7 | abc\n" ++ List.replicate 256 10) = some ((9, 0), []) := by
  decide +kernel

/-- **C47** (formatting): the number of bytes printed for the length of a slice is what the formatters of numbers assert (`src/text/formatter/hex.rs` 25, 61), for slices shorter than
2^56 bytes; and the length has no more bytes than that. -/
theorem C47_active (len : Nat) (h : len < 2 ^ 56) : 1 ≤ activeBytes len ∧ activeBytes len < 8 ∧ len < 256 ^ activeBytes len := by
  have h0 : len ||| 0xffff ≠ 0 := by
    have : 0xffff ≤ len ||| 0xffff := Nat.right_le_or
    omega
  have h1 : len ||| 0xffff < 2 ^ 56 := Nat.or_lt_two_pow h (by decide)
  have h2 : Nat.log2 (len ||| 0xffff) < 56 := (Nat.log2_lt h0).2 h1
  have h3 : len ||| 0xffff < 2 ^ (Nat.log2 (len ||| 0xffff) + 1) := Nat.lt_log2_self
  have h4 : len ≤ len ||| 0xffff := Nat.left_le_or
  unfold activeBytes
  refine ⟨by omega, by omega, ?_⟩
  rw [show (256 : Nat) = 2 ^ 8 from rfl, ← Nat.pow_mul]
  exact Nat.lt_of_le_of_lt h4 (Nat.lt_of_lt_of_le h3 (Nat.pow_le_pow_right (by decide) (by omega)))

example : activeBytes 3 = 2 ∧ activeBytes 65536 = 3 ∧ activeBytes (2 ^ 56 - 1) = 7 ∧ activeBytes (2 ^ 56) = 8 := by decide +kernel

end Nd.Props
