import Verif.Proof.Fold
import Verif.Proof.Value
/-!
# C16: constant expressions evaluate to their value
-/
namespace Nd.Props
open Nd Nd.Spec Nd.Eval

theorem value_un {ρ : Env} {u : UnOp} {e : Expr} {v : Int} (h : (Expr.un u e).value ρ = some v) : ∃ x, e.value ρ = some x := by
  simp only [Expr.value] at h
  cases he : e.value ρ with
  | none => rw [he] at h; cases h
  | some x => exact ⟨x, rfl⟩

theorem value_bin {ρ : Env} {o : BinOp} {l r : Expr} {v : Int} (h : (Expr.bin o l r).value ρ = some v) : (∃ x, l.value ρ = some x) ∧ ∃ y, r.value ρ = some y := by
  simp only [Expr.value] at h
  cases hl : l.value ρ with
  | none => rw [hl] at h; cases h
  | some x =>
  cases hr : r.value ρ with
  | none => rw [hl, hr] at h; cases h
  | some y => exact ⟨⟨x, rfl⟩, y, rfl⟩

theorem known_const (e : Expr) (v : Int) (h : e.value Env.none = some v) : Known [] e := by
  induction e generalizing v with
  | num l => trivial
  | var n => cases h
  | idx n e ih =>
    simp only [Expr.value] at h
    cases he : e.value Env.none with
    | none => rw [he] at h; cases h
    | some x => rw [he] at h; cases h
  | par e ih => exact ih v h
  | un u e ih => obtain ⟨x, hx⟩ := value_un h; exact ih x hx
  | bin o l r ihl ihr => obtain ⟨⟨x, hx⟩, y, hy⟩ := value_bin h; exact ⟨ihl x hx, ihr y hy⟩

theorem fine_const (e : Expr) (hc : e.Calm) (v : Int) (h : e.value Env.none = some v) :
    (toTree [] e).Fine ∧ (toTree [] e).flipped = false ∧ (toTree [] e).nots = e.complements := by
  induction e generalizing v with
  | num l => exact ⟨trivial, rfl, rfl⟩
  | var n => cases h
  | idx n e ih =>
    simp only [Expr.value] at h
    cases he : e.value Env.none with
    | none => rw [he] at h; cases h
    | some x => rw [he] at h; cases h
  | par e ih => exact ih hc v h
  | un u e ih =>
    obtain ⟨x, hx⟩ := value_un h
    obtain ⟨h1, h2, h3⟩ := ih hc.1 x hx
    have h4 := hc.2
    refine ⟨⟨h1, ?_⟩, rfl, ?_⟩
    · cases u <;> simp only [Expr.complements, reduceCtorEq, or_true, true_or, or_self, if_true, if_false] at h4
      · exact Or.inl ⟨Or.inl rfl, h2, by rw [h3]; omega⟩
      · exact Or.inl ⟨Or.inr rfl, h2, by rw [h3]; omega⟩
      · exact Or.inr (Or.inl ⟨rfl, by rw [h3]; omega⟩)
      · exact Or.inr (Or.inl ⟨rfl, by rw [h3]; omega⟩)
    · cases u <;> simp [toTree, unMark, Tree.nots, Expr.complements, h3]
  | bin o l r ihl ihr =>
    obtain ⟨⟨x, hx⟩, y, hy⟩ := value_bin h
    have a := (ihl hc.1 x hx).1
    have b := (ihr hc.2 y hy).1
    cases o <;> simp [toTree, binTree, Tree.Fine, Tree.flipped, Tree.nots, Expr.complements, a, b, opToken]

/-- A constant expression evaluates to its value: for every expression tree over literals, unary and binary operators that the text denotes according to the
grammar of C (`InC`; any redundant parentheses), every choice of white space, if all intermediate results are in the range of 64-bit integers.

Partial: unary operators must be applied to literals or parenthesised expressions, the right operands of comparisons and bitwise operators must bind at least like
shifts (`Plain`, see `C16_precedence_counterexample`, `C16_stacked_counterexample`), complements are not applied in a row (`Calm`,
`C16_complement_counterexample`), and compared values differ by less than 2^63 (`Narrow`, `C16_compare_counterexample`).  `!` is the complement, not the negation
of C (`C16_bang_counterexample`). -/
theorem C16_value_partial (e : Expr) (hc : e.InC) (hp : e.Plain) (hcalm : e.Calm) (hn : e.Narrow Env.none) (v : Int) (hv : e.value Env.none = some v)
    (cs : List Char) (hs : Spaced e.lexemes cs) : ∃ w, parseInt cs = .ok w ∧ w.toInt = v := by
  obtain ⟨w, h1, h2⟩ := tree_value [] Env.none (fun _ _ => 0) ⟨(fun n v h => by cases h), (fun n i v h => by cases h)⟩ e hn v hv
  refine ⟨w, ?_, h2⟩
  unfold parseInt rpnNew
  rw [parse_expr [] e hc hp (known_const e v hv) cs hs, ok_bind, canonize_const _ _ (fine_const e hcalm v hv).1 w h1, ok_bind]
  rfl

/-- Arguments that must not be negative (`parse_usize`). -/
theorem C16_usize_partial (e : Expr) (hc : e.InC) (hp : e.Plain) (hcalm : e.Calm) (hn : e.Narrow Env.none) (v : Int) (hv : e.value Env.none = some v)
    (cs : List Char) (hs : Spaced e.lexemes cs) : parseUsize cs = if 0 ≤ v then .ok v.toNat else .error .parse := by
  obtain ⟨w, h1, h2⟩ := C16_value_partial e hc hp hcalm hn v hv cs hs
  unfold parseUsize
  rw [h1, ok_bind]
  simp only [zero_le_iff, h2]

/-- A literal as an argument (C15 for the whole argument). -/
theorem C16_literal_partial (l : Literal) (hl : l.Ok) (h32 : l.groups.flatten.length ≤ 32) (h63 : l.value < 2 ^ 63) (cs : List Char) (hs : Spaced [l.text] cs) :
    parseUsize cs = .ok l.value := by
  have hv : (Expr.num l).value Env.none = some (l.value : Int) := by
    simp only [Expr.value, fit]
    rw [if_pos ⟨by omega, by omega⟩]
  rw [C16_usize_partial (.num l) hl h32 trivial trivial _ hv cs hs, if_pos (by omega)]
  rfl

/-- `- ( 1 + 2 * 3 ) << (5 - 2) > ~ 7 & 0x1F`, the bitwise operator in parentheses -/
def sampleExpr : Expr :=
  let n (s : String) : Expr := .num ⟨.plain, [s.toList], .one⟩
  .bin .gt (.bin .shl (.un .minus (.par (.bin .add (n "1") (.bin .mul (n "2") (n "3"))))) (.par (.bin .sub (n "5") (n "2"))))
    (.un .tilde (.par (.bin .and (n "7") (.num ⟨.hex false, ["1F".toList], .one⟩))))

theorem plain_ok (s : String) (hne : s.toList ≠ []) (h : ∀ c ∈ s.toList, ∃ d, digitVal c = some d ∧ d < 10) (h0 : s.toList.head? ≠ some '0') :
    (⟨.plain, [s.toList], .one⟩ : Literal).Ok :=
  ⟨⟨by simp, by simpa using hne⟩, by simpa [Radix.base] using h, by
    intro _ c hc hc0
    subst hc0
    simp only [Literal.body, List.intercalate, List.intersperse, List.flatten_cons, List.flatten_nil, List.append_nil] at hc
    exact h0 hc, by simp, by simp⟩

theorem digitVal_ok (c : Char) (b : Nat) (h : (digitVal c).any (· < b) = true) : ∃ d, digitVal c = some d ∧ d < b := by
  cases hd : digitVal c with
  | none => rw [hd] at h; cases h
  | some d => rw [hd] at h; exact ⟨d, rfl, by simpa using h⟩

example : sampleExpr.InC ∧ sampleExpr.Plain ∧ sampleExpr.Calm ∧ sampleExpr.Narrow Env.none ∧ sampleExpr.value Env.none = some 0 ∧
    Spaced sampleExpr.lexemes "- ( 1+2*3 )<<(5 - 2)>~(7&0x1F)".toList := by
  have p : ∀ s ∈ ["1", "2", "3", "5", "7"], (⟨.plain, [s.toList], .one⟩ : Literal).Ok := by
    intro s hs
    refine plain_ok s ?_ ?_ ?_
    · revert s; decide
    · intro c hc; apply digitVal_ok; revert c; revert s; decide
    · revert s; decide
  have x : (⟨.hex false, ["1F".toList], .one⟩ : Literal).Ok := by
    refine ⟨⟨by simp, by decide⟩, ?_, by simp, by simp, by simp⟩
    intro c hc; apply digitVal_ok; revert c; decide
  refine ⟨⟨⟨⟨⟨p _ (by simp), ⟨p _ (by simp), p _ (by simp), by decide, by decide⟩, by decide, by decide⟩, by decide⟩, ⟨p _ (by simp), p _ (by simp), by decide, by decide⟩, by decide, by decide⟩,
    ⟨⟨p _ (by simp), x, by decide, by decide⟩, by decide⟩, by decide, by decide⟩, ?_, ?_, ?_, by decide +kernel, ?_⟩
  · simp [sampleExpr, Expr.Plain, Expr.level, BinOp.prec]
  · simp [sampleExpr, Expr.Calm, Expr.complements]
  · simp only [sampleExpr, Expr.Narrow, Expr.isCompare, true_and, Bool.false_eq_true, false_implies, and_self, true_implies]
    intro a b ha hb
    have h1 : a = -56 := Option.some.inj (ha.symm.trans (by decide +kernel))
    have h2 : b = -8 := Option.some.inj (hb.symm.trans (by decide +kernel))
    omega
  · refine ⟨[], _, by simp, rfl, [' '], _, by simp [IsSpace], rfl, [' '], _, by simp [IsSpace], rfl, [], _, by simp, rfl, [], _, by simp, rfl, [], _, by simp, rfl, [], _, by simp, rfl,
      [' '], _, by simp [IsSpace], rfl, [], _, by simp, rfl, [], _, by simp, rfl, [], _, by simp, rfl, [' '], _, by simp [IsSpace], rfl, [' '], _, by simp [IsSpace], rfl, [], _, by simp, rfl,
      [], _, by simp, rfl, [], _, by simp, rfl, [], _, by simp, rfl, [], _, by simp, rfl, [], _, by simp, rfl, [], _, by simp, rfl, [], _, by simp, rfl, fun _ h => by cases h⟩

deriving instance DecidableEq for Except

/-- Comparison, `&`, `^` and `|` have the same precedence and associate to the left: `4 & 4 > 0` is `(4 & 4) > 0` (in C it is `4 & (4 > 0)`, that is 0), and
`1 | 2 & 4` is `(1 | 2) & 4` (in C it is 1). -/
theorem C16_precedence_counterexample : parseInt "4 & 4 > 0".toList = .ok 1 ∧ parseInt "1 | 2 & 4".toList = .ok 0 := by decide +kernel

/-- Comparisons look at the sign of the difference, which overflows. -/
theorem C16_compare_counterexample : parseInt "0x7fffffffffffffff > 0-2".toList = .ok 0 := by decide +kernel

/-- Two complements around a negated sum lose the sign: the value of this expression is 2. -/
theorem C16_complement_counterexample : parseInt "!(+(!(!(-(1+2)))))".toList = .ok (-4) := by decide +kernel

/-- `!` is the complement (in C, `!5` is 0). -/
theorem C16_bang_counterexample : parseInt "!5".toList = .ok (-6) := by decide +kernel

/-- Unary operators cannot be stacked, and division by zero aborts the program. -/
theorem C16_stacked_counterexample : parseInt "- -5".toList = .error .parse ∧ parseInt "-~5".toList = .error .parse ∧ parseInt "5 % 0".toList = .error .panic := by
  decide +kernel

end Nd.Props
