import Verif.Model.Filter
import Verif.Proof.Cut
import Verif.Proof.SegOrder
import Verif.Proof.SegTools
import Verif.Proof.SegKeeps
/-!
# `FilterStream` keeps the slices with the right indices
-/
namespace Nd
open Spec

namespace Spec

theorem keep_map {α : Type u} {β : Type v} (f : α → β) (P : Nat → Bool) : ∀ (l : List α) (i : Nat), keep P i (l.map f) = (keep P i l).map f
  | [], _ => rfl
  | b :: l, i => by
    simp only [List.map_cons, keep, keep_map f P l (i + 1)]
    split <;> simp

theorem keep_sublist {α : Type u} (P : Nat → Bool) : ∀ (l : List α) (i : Nat), (keep P i l).Sublist l
  | [], _ => List.Sublist.refl _
  | b :: l, i => by
    simp only [keep]
    split
    · exact (keep_sublist P l (i + 1)).cons_cons b
    · exact (keep_sublist P l (i + 1)).cons b

end Spec

/-! ## Sorting what is sorted -/

theorem Seg.keyLe_of_lt {a b : Seg} (h : a.Lt b) : Seg.keyLe a b = true := by
  unfold Seg.Lt Seg.tail at h
  simp only [Seg.keyLe, decide_eq_true_eq]
  omega

theorem dedupRuns_of_strict : ∀ l : List Seg, l.Pairwise Seg.Lt → dedupRuns l = l
  | [], _ => rfl
  | [x], _ => rfl
  | x :: y :: l, h => by
    have h' := List.pairwise_cons.1 h
    have hne : x ≠ y := fun e => Seg.Lt.irrefl (e ▸ h'.1 y (by simp))
    rw [dedupRuns, if_neg hne, dedupRuns_of_strict (y :: l) h'.2]

theorem sort_of_strict (l : List Seg) (h : l.Pairwise Seg.Lt) : dedupRuns (stableSort Seg.keyLe l) = l := by
  rw [stableSort_of_pairwise (h.imp Seg.keyLe_of_lt), dedupRuns_of_strict l h]

/-- Cutting a list whose two parts lie before and behind `k`. -/
theorem cutSegs_split (k : Nat) (a b : List Seg) (ha : ∀ x ∈ a, x.pos < k) (hb : ∀ x ∈ b, k ≤ x.pos) :
    cutSegs k (a ++ b) = .ok (a.length, b.map (Seg.shift k)) := by
  have h1 : ((a ++ b).takeWhile fun x => decide (x.pos < k)) = a := by
    rw [List.takeWhile_append_of_pos (by simpa using ha)]
    cases b with
    | nil => simp
    | cons y b =>
      have := hb y (by simp)
      rw [List.takeWhile_cons_of_neg (by simp; omega), List.append_nil]
  simp only [cutSegs, h1, List.drop_left, unwindAll_eq k b hb]

/-! ## The scan -/

namespace Cutter

theorem scan_last {α : Type u} (off : Nat) (eof : Bool) (upto : Nat) (stream : List α) (last : Nat) (h : upto ≤ last) :
    ∀ (fs : List RangeMapper), scan off eof upto stream last fs = scan off eof upto stream upto fs
  | [] => rfl
  | f :: fs => by
    have h1 : min (max (f.toRange off).1 last) upto = min (max (f.toRange off).1 upto) upto := by omega
    have h2 : min (max (f.toRange off).2 last) upto = min (max (f.toRange off).2 upto) upto := by omega
    simp only [scan, h1, h2]

theorem scan_eof {α : Type u} (off upto : Nat) (stream : List α) : ∀ (fs : List RangeMapper) (last : Nat), (scan off true upto stream last fs).2 = []
  | [], _ => rfl
  | f :: fs, last => by simp [scan, scan_eof off upto stream fs]

theorem isEmpty_cover {c : Cutter} (h : c.isEmpty = true) (total i : Nat) : c.cover total i = false := by
  unfold isEmpty at h
  simp only [Bool.and_eq_true, List.isEmpty_iff] at h
  simp [cover, coverAny, h.1, h.2]

/-- What one call of `accumulate` achieves: the slices with index in `P` among the scanned ones have been collected, and
the remaining ranges cover the same indices behind them as `P` does. -/
theorem lines_spec {c : Cutter} (h : c.Inv) {P : Nat → Bool} {scanned off : Nat} {eof : Bool} {count : Nat} {lent segs v : List Seg}
    (hlent : lent = segs.take count) (hc : count ≤ segs.length) (he : eof = true → count = segs.length) (hs : scanned ≤ segs.length)
    (hcov : ∀ i, off + scanned ≤ i → i < off + segs.length → c.cover (off + segs.length) i = P i)
    (hv : v = keep P off (segs.take scanned)) (hst : segs.Pairwise Seg.Lt) {n : Nat} {v' : List Seg} {c' : Cutter}
    (hr : c.accumulateLines scanned off eof count lent v = (n, v', c')) :
    scanned ≤ n ∧ n ≤ segs.length ∧ (n ≤ count ∨ n = scanned) ∧ c'.Inv ∧
    (∀ i, off + n ≤ i → i < off + segs.length → c'.cover (off + segs.length) i = P i) ∧
    v' = keep P off (segs.take n) ∧ (eof = true → n = segs.length ∧ c'.isEmpty = true) ∧ (eof = false → c'.tailFilters = c.tailFilters) ∧
    (c.isEmpty = true → c'.isEmpty = true) := by
  have hll : lent.length = count := by rw [hlent, List.length_take]; omega
  -- the kept slices in a longer window
  have hkeep : ∀ upto, upto ≤ count → ∀ Q : Nat → Bool, (∀ i, off + scanned ≤ i → i < off + upto → Q i = P i) →
      v ++ keep Q (off + min scanned upto) ((lent.take upto).drop (min scanned upto)) = keep P off (segs.take (max upto scanned)) := by
    intro upto hu Q hQ
    rcases Nat.le_total scanned upto with h1 | h1
    · rw [Nat.min_eq_left h1, Nat.max_eq_left h1, hv]
      have e1 : segs.take upto = segs.take scanned ++ (lent.take upto).drop scanned := by
        rw [hlent, List.take_take, Nat.min_eq_left hu]
        have : segs.take scanned = (segs.take upto).take scanned := by rw [List.take_take, Nat.min_eq_left h1]
        rw [this, List.take_append_drop]
      rw [e1, keep_append]
      congr 1
      have e2 : (segs.take scanned).length = scanned := by rw [List.length_take]; omega
      rw [e2]
      refine keep_congr _ _ fun j h2 h3 => hQ j h2 ?_
      rw [List.length_drop, List.length_take] at h3
      omega
    · rw [Nat.min_eq_right h1, Nat.max_eq_right h1]
      have : (lent.take upto).drop upto = [] := List.drop_eq_nil_of_le (by rw [List.length_take]; omega)
      rw [this, hv]
      simp [keep]
  have hscan : ∀ upto, upto ≤ count → ∀ fs, Stack fs →
      (scan off eof upto lent scanned fs).1 = keep (coverAny (off + segs.length) fs) (off + min scanned upto) ((lent.take upto).drop (min scanned upto)) ∧
      Stack (scan off eof upto lent scanned fs).2 ∧
      (eof = false → ∀ i, off + upto ≤ i → coverAny (off + segs.length) (scan off eof upto lent scanned fs).2 i = coverAny (off + segs.length) fs i) := by
    intro upto hu fs hfs
    rcases Nat.le_total scanned upto with h1 | h1
    · rw [Nat.min_eq_left h1]
      exact scan_spec (off + segs.length) off eof upto lent (by omega) fs scanned hfs h1
    · rw [Nat.min_eq_right h1, scan_last off eof upto lent scanned h1]
      exact scan_spec (off + segs.length) off eof upto lent (by omega) fs upto hfs (Nat.le_refl _)
  cases eof with
  | true =>
    have hce := he rfl
    obtain ⟨c1, hc1, h1, h2, h3⟩ : ∃ c1, (if (true && !c.tailFilters.isEmpty) = true then
      { c with
        filters := sortFilters (c.filters ++ c.tailFilters.map fun f => f.toLeftAnchored (off + count))
        tailFilters := [] }
      else c) = c1 ∧ c1.tailFilters = [] ∧ Stack c1.filters ∧ ∀ i, coverAny (off + segs.length) c1.filters i = c.cover (off + segs.length) i := by
      refine ⟨_, rfl, ?_⟩
      by_cases ht : c.tailFilters = []
      · simp only [ht, List.isEmpty_nil, Bool.not_true, Bool.and_false]
        exact ⟨ht, h.stack, fun i => by simp [cover, ht]⟩
      · have : (true && !c.tailFilters.isEmpty) = true := by simp [ht]
        rw [if_pos this]
        refine ⟨rfl, sortFilters_stack ?_, fun i => ?_⟩
        · intro f hf
          rcases List.mem_append.1 hf with hf | hf
          · exact h.stack.1 f hf
          · obtain ⟨g, _, rfl⟩ := List.mem_map.1 hf
            exact g.toLeft_left _
        · rw [sortFilters_cover, cover, coverAny, coverAny, List.any_append, List.any_append, List.any_map]
          congr 1
          congr 1
          funext f
          simp only [Function.comp]
          rw [f.toLeft_covers, hce]
    unfold accumulateLines at hr
    simp only [hc1] at hr
    simp only [if_true, Prod.mk.injEq] at hr
    obtain ⟨rfl, rfl, rfl⟩ := hr
    obtain ⟨g1, g2, -⟩ := hscan count (Nat.le_refl _) c1.filters h2
    have g3 := scan_eof off count lent c1.filters scanned
    have hmax : max count scanned = segs.length := by omega
    rw [hmax]
    refine ⟨hs, Nat.le_refl _, Or.inl (by omega), ⟨g2, by simp [h1], by simp [h1], by simp [h1]⟩, fun i _ _ => by omega, ?_, fun _ => ⟨rfl, ?_⟩, by simp, fun _ => ?_⟩
    · have := hkeep count (Nat.le_refl _) (coverAny (off + segs.length) c1.filters) (fun i h4 h5 => by rw [h3, hcov i h4 (by omega)])
      rw [g1, this, hmax, List.take_length]
      exact sort_of_strict _ (hst.sublist (keep_sublist _ _ _))
    · simp [isEmpty, h1, g3]
    · simp [isEmpty, h1, g3]
  | false =>
    unfold accumulateLines at hr
    simp only [Bool.false_and, Bool.false_eq_true, if_false, Prod.mk.injEq] at hr
    generalize hu : min (count - c.tailMargin) (c.transOffset - off) = upto at hr
    obtain ⟨rfl, rfl, rfl⟩ := hr
    have hup : upto ≤ count := by omega
    obtain ⟨g1, g2, g3⟩ := hscan upto hup c.filters h.stack
    have htail : ∀ j, off ≤ j → j < off + upto → coverAny (off + segs.length) c.tailFilters j = false := by
      intro j hoj hj
      rw [coverAny, List.any_eq_false]
      intro f hf
      have hm := h.margin f hf
      have hr := h.right f hf
      have htr := h.trans f hf
      rcases f with ⟨x | x, y | y⟩
      · simp [RangeMapper.hasRightAnchor] at hr
      · have := htr x y rfl
        rw [RangeMapper.covers_iff]; simp only [Anchor.at]; omega
      · simp only [RangeMapper.tailMargin] at hm
        rw [RangeMapper.covers_iff]; simp only [Anchor.at]; omega
      · simp only [RangeMapper.tailMargin] at hm
        rw [RangeMapper.covers_iff]; simp only [Anchor.at]; omega
    refine ⟨Nat.le_max_right _ _, by omega, by omega, ⟨g2, h.trans, h.right, h.margin⟩, ?_, ?_, by simp, fun _ => rfl, fun hem => ?_⟩
    · intro i h1 h2
      rw [← hcov i (by omega) h2]
      simp only [cover, coverAny, List.any_append]
      have := g3 rfl i (by omega)
      unfold coverAny at this
      rw [this]
    · rw [g1]
      refine hkeep upto hup _ fun i h1 h2 => ?_
      rw [← hcov i h1 (by omega), cover, coverAny, coverAny, List.any_append]
      have := htail i (by omega) h2
      rw [coverAny] at this
      rw [this, Bool.or_false]
    · simp only [isEmpty, Bool.and_eq_true, List.isEmpty_iff] at hem ⊢
      rw [hem.2]
      exact ⟨hem.1, rfl⟩

end Cutter

/-! ## The stream -/

/-- The next fill lends all that is pending, unless the end is reported; once the end has been reported it is reported again. -/
def SegHeld (S : SegSrc σ) (s : σ) (pending : List Seg) (e : Bool) : Prop :=
  ∀ b cnt m s', S.fill s = .ok ((false, b, cnt, m), s') → e = false ∧ ∀ x ∈ pending, x.tail ≤ b

/-- The same for the fill after the next consume. -/
def SegFut (S : SegSrc σ) (s : σ) (e : Bool) (b : Nat) : Prop :=
  ∀ k k' c s2 b' cnt m s3, S.consume s k = .ok ((k', c), s2) → k' ≤ b → S.fill s2 = .ok ((false, b', cnt, m), s3) → e = false ∧ b ≤ k' + b'

theorem SegFaithful.fill_or_rest {S : SegSrc σ} {K F R} (h : SegFaithful S K F R) (hk : SegKeeps S R) (hh : K.honest = true) {s : σ} {w rem segs}
    (hs : (∃ lb, R s (.idle lb) w rem segs) ∨ (R s .done w rem segs ∧ rem = []))
    (hz : K.strict = false := by first | rfl | assumption) :
    (∃ e, F e ∧ S.fill s = .error e) ∨ ∃ eof bytes count cap w' s', S.fill s = .ok ((eof, bytes, count, cap), s') ∧
      R s' (.lent eof count cap) w' rem segs ∧ SegLent rem segs (S.slices s') bytes count ∧ cap ≤ bytes ∧
      (eof = true → count = segs.length ∧ cap = bytes ∧ (K.full = true → bytes = rem.length)) ∧ w' ≤ w ∧ (eof = false → w' < w) ∧
      SegFut S s' eof bytes ∧ (eof = false → ∀ x ∈ segs.take count, x.tail ≤ bytes) := by
  rcases hs with ⟨lb, hR⟩ | ⟨hR, rfl⟩
  · rcases h.fill _ _ _ _ _ hR with hh | ⟨eof, bytes, count, maxc, cap, w', s', heq, hR', hl, hcb, hdrop, hmax, heof, hearly, hw, hw', hsteady, hmov⟩
    · exact Or.inl hh
    · right
      rcases hmax with rfl | hmax
      · refine ⟨eof, bytes, count, maxc, w', s', heq, hR', hl, hcb, heof, hw, hw', ?_, ?_⟩
        · intro k k' c s2 b' cnt m s3 h1 h2 h3
          have := hk.keep _ _ _ _ _ _ _ _ _ _ _ _ _ _ _ _ _ _ _ hR heq h1 h2 h3
          cases eof with
          | false => exact ⟨rfl, this.2 rfl⟩
          | true => exact absurd (this.1 rfl) (by simp)
        · rintro rfl
          exact hk.within _ _ _ _ _ _ _ _ _ hR heq
      · rw [hh] at hmax; exact absurd hmax.2.2.1 (by simp)
  · rcases h.rest _ _ _ _ hR with hh | ⟨w', s', heq, hR', hl, hw⟩
    · exact Or.inl hh
    · right
      refine ⟨true, 0, segs.length, 0, w', s', heq, hR', hl, Nat.le_refl _, fun _ => ⟨rfl, rfl, fun _ => rfl⟩, hw, by simp, ?_, by simp⟩
      intro k k' c s2 b' cnt m s3 h1 h2 h3
      obtain ⟨k2, c2, w2, s4, heq2, c1, c2', c3, c4, c5, hR2, -⟩ := h.consume _ _ _ _ _ _ _ k hR' (Or.inl ⟨rfl, hz⟩)
      rw [h1] at heq2
      cases heq2
      rw [if_pos ⟨rfl, by omega⟩] at hR2
      rcases h.rest _ _ _ _ hR2 with ⟨e, _, heq3⟩ | ⟨w', s', heq3, _⟩
      · rw [h3] at heq3; cases heq3
      · rw [h3] at heq3; cases heq3

namespace FilterStream

/-- What is always true of a filter over a source that still has to deliver `segs`; `P` tells the indices to be kept. -/
structure Common (P : Nat → Bool) (total : Nat) (st : FilterStream σ) (segs : List Seg) : Prop where
  cut : st.cutter.Inv
  total_eq : st.srcConsumed + segs.length = total
  scanned_le : st.srcScanned ≤ segs.length
  cover : ∀ i, st.srcConsumed + st.srcScanned ≤ i → i < total → st.cutter.cover total i = P i
  v_eq : st.segments = keep P st.srcConsumed (segs.take st.srcScanned)
  strict : segs.Pairwise Seg.Lt

theorem Common.split {P : Nat → Bool} {total} {st : FilterStream σ} {segs} (h : Common P total st segs) :
    keep P st.srcConsumed segs = st.segments ++ keep P (st.srcConsumed + st.srcScanned) (segs.drop st.srcScanned) := by
  have h1 := h.scanned_le
  have := keep_append P (segs.take st.srcScanned) (segs.drop st.srcScanned) st.srcConsumed
  rw [List.take_append_drop, List.length_take, Nat.min_eq_left h1] at this
  rw [this, h.v_eq]

theorem Common.prefix {P : Nat → Bool} {total} {st : FilterStream σ} {segs} (h : Common P total st segs) :
    st.segments = (keep P st.srcConsumed segs).take st.segments.length := by
  rw [h.split, List.take_left]

theorem Common.mem {P : Nat → Bool} {total} {st : FilterStream σ} {segs} (h : Common P total st segs) {x : Seg} (hx : x ∈ st.segments) :
    x ∈ segs.take st.srcScanned := by
  rw [h.v_eq] at hx
  exact (keep_sublist _ _ _).subset hx

/-- When no range is left, everything is collected. -/
theorem Common.all {P : Nat → Bool} {total} {st : FilterStream σ} {segs} (h : Common P total st segs) (he : st.cutter.isEmpty = true) :
    keep P st.srcConsumed segs = st.segments := by
  rw [h.split]
  have : keep P (st.srcConsumed + st.srcScanned) (segs.drop st.srcScanned) = [] := by
    rw [keep_congr (Q := fun _ => false), keep_false]
    intro j h1 h2
    rw [List.length_drop] at h2
    have := h.total_eq
    have := h.scanned_le
    rw [← h.cover j h1 (by omega), Cutter.isEmpty_cover he]
  rw [this, List.append_nil]

/-- A fill, given what the source's fill says. -/
theorem Common.fill {S : SegSrc σ} {P : Nat → Bool} {total} {st : FilterStream σ} {segs rem} (h : Common P total st segs)
    {eof : Bool} {bytes count cap : Nat} {s' : σ} (heq : S.fill st.src = .ok ((eof, bytes, count, cap), s'))
    (hl : SegLent rem segs (S.slices s') bytes count) (heof : eof = true → count = segs.length) :
    ∃ st', FilterStream.fill S st = .ok ((st'.cutter.isEmpty, (if st'.cutter.isEmpty then (st'.segments.getLast?.map Seg.tail).getD st.maxConsume else bytes),
        st'.segments.length, st'.maxConsume), st') ∧ Common P total st' segs ∧ st'.src = s' ∧ st'.srcConsumed = st.srcConsumed ∧
      (st'.maxConsume = if st'.cutter.isEmpty then (st'.segments.getLast?.map Seg.tail).getD st.maxConsume else limit (segs.take count) st'.srcScanned cap) ∧
      (st'.srcScanned ≤ count ∨ (st'.srcScanned = st.srcScanned ∧ st'.segments = st.segments)) ∧
      (eof = true → st'.cutter.isEmpty = true ∧ st'.srcScanned = segs.length) ∧
      (eof = false → st'.cutter.tailFilters = st.cutter.tailFilters) ∧ (st.cutter.isEmpty = true → st'.cutter.isEmpty = true) ∧ st.srcScanned ≤ st'.srcScanned := by
  obtain ⟨n, v, c, hr⟩ : ∃ n v c, st.cutter.accumulateLines st.srcScanned st.srcConsumed eof count (S.slices s').2 st.segments = (n, v, c) := ⟨_, _, _, rfl⟩
  have hcov := h.cover
  have hte := h.total_eq
  rw [← hte] at hcov
  obtain ⟨a1, a2, a3, a4, a5, a6, a7, a8, a9⟩ := Cutter.lines_spec h.cut hl.segs_eq hl.count_le heof h.scanned_le hcov h.v_eq h.strict hr
  have hlen : ¬ (S.slices s').2.length < count := by
    rw [hl.segs_eq, List.length_take]; have := hl.count_le; omega
  have heor : (c.isEmpty || eof) = c.isEmpty := by
    cases eof with
    | false => simp
    | true => rw [(a7 rfl).2]; rfl
  refine ⟨{ src := s', srcScanned := n, srcConsumed := st.srcConsumed, segments := v, cutter := c,
            maxConsume := if c.isEmpty then (v.getLast?.map Seg.tail).getD st.maxConsume else limit (segs.take count) n cap },
    ?_, ⟨a4, hte, a2, ?_, a6, h.strict⟩, rfl, rfl, rfl, ?_, fun he => ⟨(a7 he).2, (a7 he).1⟩, a8, a9, a1⟩
  · simp only [FilterStream.fill, heq, hr, if_neg hlen, heor]
    rw [← hl.segs_eq]
    cases c.isEmpty <;> rfl
  · rw [← hte]; exact a5
  · rcases a3 with a3 | a3
    · exact Or.inl a3
    · refine Or.inr ⟨a3, ?_⟩
      simp only
      rw [a6, a3, ← h.v_eq]

/-- A consume, given what the source's consume says. -/
theorem Common.consume {S : SegSrc σ} {P : Nat → Bool} {total} {st : FilterStream σ} {segs} (h : Common P total st segs) {k k' c : Nat} {s' : σ}
    (heq : S.consume st.src (min k st.maxConsume) = .ok ((k', c), s')) (hk : k' ≤ min k st.maxConsume) (hc : c ≤ st.srcScanned)
    (h1 : ∀ x ∈ segs.take c, x.pos < k') (h2 : ∀ x ∈ segs.drop c, k' ≤ x.pos) :
    ∃ n st', FilterStream.consume S st k = .ok ((k', n), st') ∧ Common P total st' ((segs.drop c).map (Seg.shift k')) ∧ st'.src = s' ∧
      n ≤ st.segments.length ∧ st'.segments = (st.segments.drop n).map (Seg.shift k') ∧ st'.maxConsume = st.maxConsume - k' ∧ st'.cutter = st.cutter ∧
      (∀ x ∈ (keep P st.srcConsumed segs).take n, x.pos < k') ∧ (∀ x ∈ (keep P st.srcConsumed segs).drop n, k' ≤ x.pos) ∧
      keep P st'.srcConsumed ((segs.drop c).map (Seg.shift k')) = ((keep P st.srcConsumed segs).drop n).map (Seg.shift k') := by
  have hsl := h.scanned_le
  have hte := h.total_eq
  have hcl : (segs.take c).length = c := by rw [List.length_take]; omega
  have e1 : st.segments = keep P st.srcConsumed (segs.take c) ++ keep P (st.srcConsumed + c) ((segs.drop c).take (st.srcScanned - c)) := by
    have : segs.take st.srcScanned = segs.take c ++ (segs.drop c).take (st.srcScanned - c) := by
      rw [← List.drop_take]
      have : segs.take c = (segs.take st.srcScanned).take c := by rw [List.take_take, Nat.min_eq_left hc]
      rw [this, List.take_append_drop]
    rw [h.v_eq, this, keep_append, hcl]
  have e2 : keep P st.srcConsumed segs = keep P st.srcConsumed (segs.take c) ++ keep P (st.srcConsumed + c) (segs.drop c) := by
    have := keep_append P (segs.take c) (segs.drop c) st.srcConsumed
    rw [List.take_append_drop, hcl] at this
    exact this
  have b1 : ∀ x ∈ keep P st.srcConsumed (segs.take c), x.pos < k' := fun x hx => h1 x ((keep_sublist _ _ _).subset hx)
  have b2 : ∀ x ∈ keep P (st.srcConsumed + c) (segs.drop c), k' ≤ x.pos := fun x hx => h2 x ((keep_sublist _ _ _).subset hx)
  have b3 : ∀ x ∈ keep P (st.srcConsumed + c) ((segs.drop c).take (st.srcScanned - c)), k' ≤ x.pos :=
    fun x hx => h2 x (List.mem_of_mem_take ((keep_sublist _ _ _).subset hx))
  have hcut := cutSegs_split k' _ _ b1 b3
  rw [← e1] at hcut
  refine ⟨(keep P st.srcConsumed (segs.take c)).length, { st with src := s', srcScanned := st.srcScanned - c, srcConsumed := st.srcConsumed + c, maxConsume := st.maxConsume - k', segments := (keep P (st.srcConsumed + c) ((segs.drop c).take (st.srcScanned - c))).map (Seg.shift k') },
    ?_, ⟨h.cut, ?_, ?_, ?_, ?_, ?_⟩, rfl, ?_, ?_, rfl, rfl, ?_, ?_, ?_⟩
  · simp only [FilterStream.consume, heq, if_neg (Nat.not_lt.2 hc), hcut]
    rw [if_neg (by omega)]
  · simp only [List.length_map, List.length_drop]; omega
  · simp only [List.length_map, List.length_drop]; omega
  · intro i hi1 hi2
    exact h.cover i (by simp only at hi1; omega) hi2
  · simp only
    rw [← List.map_take, keep_map]
  · rw [List.pairwise_map]
    refine (h.strict.sublist (List.drop_sublist _ _)).imp_of_mem ?_
    intro a b ha hb hab
    exact hab.shift (h2 a ha) (h2 b hb)
  · rw [e1]; simp
  · simp only
    conv => rhs; rw [e1]
    rw [List.drop_left]
  · rw [e2, List.take_left]; exact b1
  · rw [e2, List.drop_left]; exact b2
  · simp only
    rw [keep_map, e2, List.drop_left]

end FilterStream

end Nd
