import Verif.Spec.Program
import Verif.Model.Program
import Verif.Proof.Cut
import Verif.Props.Anchored
import Verif.Props.WalkText
/-!
# The texts of the options
-/
namespace Nd.Props
open Nd Nd.Spec Nd.Eval Nd.WalkSlicer

theorem numeral_parse {t : List Char} {n : Nat} (h : Numeral t n) : parseUsize t = .ok n ∧ (∃ w, parseInt t = .ok w ∧ w.toInt = n) ∧ ',' ∉ t ∧ t ≠ [] := by
  obtain ⟨e, h1, h2, h3, h4, h5, h6⟩ := h
  refine ⟨?_, C16_value_partial e h1 h2 h3 h4 n h5 t h6, comma_spaced (comma_lexemes e h1) h6, spaced_ne h1 h6⟩
  rw [C16_usize_partial e h1 h2 h3 h4 n h5 t h6, if_pos (by omega), Int.toNat_natCast]

theorem side_comma {d x : End} {cs : List Char} {k : Int} (h : Side d cs x k) : ',' ∉ cs := by
  cases h with
  | empty => simp
  | const e _ _ _ hc _ _ _ hs => exact comma_spaced (comma_lexemes e hc) hs
  | linear e _ _ _ _ hc _ _ _ hs => exact comma_spaced (comma_lexemes e hc) hs

/-- The ends of a mapper are named `s` and `e`. -/
def Anchors (m : SegmentMapper) : Prop := m.start.anchor ≤ 1 ∧ m.stop.anchor ≤ 1

theorem range_parse {t : List Char} {r : RangeEnd × RangeEnd} (h : RangeText t r) :
    ∃ m, SegmentMapper.fromStr t = .ok m ∧ m.toSpec = r ∧ Anchors m ∧ t ≠ [] ∧ ',' ∉ t := by
  obtain @⟨l, r, x, y, j, k, hl, hr⟩ := h
  obtain ⟨h1, h2⟩ := side_parse hl
  obtain ⟨h3, h4⟩ := side_parse hr
  refine ⟨⟨⟨End.index x, j⟩, ⟨End.index y, k⟩⟩, ?_, ?_, ?_, by simp, ?_⟩
  · unfold SegmentMapper.fromStr
    rw [splitDots_two l r h2 h4]
    simp only [parseParts, Nat.zero_add, if_true, show ¬ (0 : Nat) = 1 by decide, if_false]
    rw [show ['s'] = End.name .first from rfl, show ['e'] = End.name .last from rfl, h1, ok_bind, h3]
    rfl
  · cases x <;> cases y <;> rfl
  · cases x <;> cases y <;> simp [Anchors, End.index]
  · have := side_comma hl
    have := side_comma hr
    simp [*]

theorem mapM_ok {α β : Type} {f : α → Except Err β} : ∀ {ts : List α} {xs : List β}, List.Forall₂ (fun t x => f t = .ok x) ts xs → ts.mapM f = .ok xs
  | _, _, .nil => rfl
  | _, _, .cons h hs => by
    rw [List.mapM_cons, h, ok_bind, mapM_ok hs]
    rfl

theorem ranges_parse {t : List Char} {rs : List (RangeEnd × RangeEnd)} (h : RangesText t rs) :
    ∃ ms : List SegmentMapper, parseRanges t = .ok (ms.map RangeMapper.ofMapper) ∧ ms.map SegmentMapper.toSpec = rs ∧ (∀ m ∈ ms, Anchors m) ∧ parseMappers t = .ok ms := by
  obtain ⟨texts, hne, hf, ht⟩ := h
  have key : ∀ {texts : List (List Char)} {rs : List (RangeEnd × RangeEnd)}, List.Forall₂ RangeText texts rs → ∃ ms : List SegmentMapper,
      List.Forall₂ (fun t x => RangeMapper.fromStr t = .ok x) texts (ms.map RangeMapper.ofMapper) ∧ ms.map SegmentMapper.toSpec = rs ∧ (∀ m ∈ ms, Anchors m) ∧
      (∀ t ∈ texts, t ≠ [] ∧ ',' ∉ t) ∧ List.Forall₂ (fun t x => SegmentMapper.fromStr t = .ok x) texts ms ∧ ∀ t ∈ texts, '.' ∈ t := by
    intro texts rs hf
    induction hf with
    | nil => exact ⟨[], .nil, rfl, by simp, by simp, .nil, by simp⟩
    | cons h _ ih =>
      obtain ⟨m, h1, h2, h3, h4, h5⟩ := range_parse h
      obtain ⟨ms, g1, g2, g3, g4, g5, g6⟩ := ih
      refine ⟨m :: ms, .cons (by unfold RangeMapper.fromStr; rw [h1]; rfl) g1, by rw [List.map_cons, h2, g2], ?_, ?_, .cons h1 g5, ?_⟩
      · simpa using ⟨h3, g3⟩
      · simpa using ⟨⟨h4, h5⟩, g4⟩
      · cases h
        simpa using g6
  obtain ⟨ms, h1, h2, h3, h4, h5, h6⟩ := key hf
  have hdot : '.' ∈ t := by
    cases texts with
    | nil => exact absurd rfl hne
    | cons x xs =>
      have hx := h6 x (by simp)
      have : '.' ∈ [','].intercalate (x :: xs) := by cases xs <;> simp [List.intercalate, hx]
      rcases ht with ht | ht <;> rw [ht] <;> simp [this]
  have hnil : t ≠ [] := by
    rintro rfl
    simp at hdot
  refine ⟨ms, ?_, h2, h3, ?_⟩
  · unfold parseRanges parseList
    rw [if_neg hnil, stripComma_join h4 ht, splitComma_join hne fun t ht => (h4 t ht).2]
    exact mapM_ok h1
  · unfold parseMappers parseList
    rw [if_neg (fun h => absurd (List.all_eq_true.1 h _ hdot) (by decide)), stripComma_join h4 ht, splitComma_join hne fun t ht => (h4 t ht).2]
    exact mapM_ok h5

theorem pair_parse {t : List Char} {p : Nat × Nat} (h : PairText t p) : Args.parseUsizePair t = .ok p := by
  cases h with
  | one h =>
    obtain ⟨_, ⟨w, h1, h2⟩, h3, h4⟩ := numeral_parse h
    unfold Args.parseUsizePair Args.parseDelimited
    rw [splitComma_none h3, mapM_ok (xs := [some w]) (.cons (by rw [if_neg h4, h1]; rfl) .nil), ok_bind]
    simp [h4, zero_le_iff, h2]
  | @two t u n m ha hb =>
    obtain ⟨_, ⟨v, h1, h2⟩, h3, h4⟩ := numeral_parse ha
    obtain ⟨_, ⟨w, g1, g2⟩, g3, g4⟩ := numeral_parse hb
    unfold Args.parseUsizePair Args.parseDelimited
    rw [splitComma_append _ h3, splitComma_none g3, mapM_ok (xs := [some v, some w]) (.cons (by rw [if_neg h4, h1]; rfl) (.cons (by rw [if_neg g4, g1]; rfl) .nil)), ok_bind]
    simp [zero_le_iff, h2, g2]

theorem evaluate_spec {m : SegmentMapper} (h : Anchors m) (n : Nat) : m.evaluate (0, n) (0, n) = (m.toSpec.1.at n, m.toSpec.2.at n) := by
  obtain ⟨⟨a, x⟩, ⟨b, y⟩⟩ := m
  obtain ⟨h1, h2⟩ := h
  simp only at h1 h2
  have ha : a = 0 ∨ a = 1 := by omega
  have hb : b = 0 ∨ b = 1 := by omega
  rcases ha with rfl | rfl <;> rcases hb with rfl | rfl <;> simp [SegmentMapper.evaluate, SegmentMapperAnchor.evaluate, SegmentMapper.toSpec, RangeEnd.at]

theorem width_parse {t : List Char} {n : Nat} {r : RangeEnd × RangeEnd} (h : WidthText t n r) :
    ∃ m, (∀ fuel, Args.parseConstSlicerParams fuel t = ConstSlicerParams.fromRaw fuel n m) ∧ m.evaluate (0, n) (0, n) = (r.1.at n, r.2.at n) := by
  cases h with
  | plain h =>
    obtain ⟨h1, _, h3, _⟩ := numeral_parse h
    refine ⟨⟨⟨0, 0⟩, ⟨1, 0⟩⟩, fun fuel => ?_, by simp [SegmentMapper.evaluate, SegmentMapperAnchor.evaluate, RangeEnd.at]⟩
    unfold Args.parseConstSlicerParams
    rw [splitComma_none h3]
    simp only [List.length_cons, List.length_nil, Nat.zero_add, gt_iff_lt, show ¬ 2 < 1 by decide, if_false, List.getD_cons_zero, List.getD_cons_succ, List.getD_nil]
    rw [h1, ok_bind, show SegmentMapper.fromStr "s..e".toList = .ok ⟨⟨0, 0⟩, ⟨1, 0⟩⟩ by decide +kernel, ok_bind]
  | @range t u n r ha hb =>
    obtain ⟨h1, _, h3, _⟩ := numeral_parse ha
    obtain ⟨m, g1, g2, g3, g4, g5⟩ := range_parse hb
    refine ⟨m, fun fuel => ?_, by rw [evaluate_spec g3, g2]⟩
    unfold Args.parseConstSlicerParams
    rw [splitComma_append _ h3, splitComma_none g5]
    simp only [List.length_cons, List.length_nil, Nat.zero_add, gt_iff_lt, show ¬ 2 < 1 + 1 by decide, if_false, List.getD_cons_zero, List.getD_cons_succ]
    rw [h1, ok_bind, g1, ok_bind]

end Nd.Props
