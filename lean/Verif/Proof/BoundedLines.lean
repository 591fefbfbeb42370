import Verif.Model.Filter
import Verif.Proof.BoundedRange
import Verif.Proof.BoundedRegex
/-!
# The sizes of the buffers between a slicer and the slices printed by `--lines`
-/
namespace Nd

theorem scan_mem (offset : Nat) (isEof : Bool) (upto : Nat) (stream : List α) : ∀ (last : Nat) (fs : List RangeMapper), ∀ x ∈ (Cutter.scan offset isEof upto stream last fs).1, x ∈ stream
  | _, [] => by simp [Cutter.scan]
  | last, f :: fs => by
    have ih := scan_mem offset isEof upto stream (min (max (f.toRange offset).2 last) upto) fs
    intro x hx
    unfold Cutter.scan at hx
    simp only at hx
    split at hx
    · exact List.mem_of_mem_take (List.mem_of_mem_drop hx)
    · rcases List.mem_append.1 hx with hx | hx
      · exact List.mem_of_mem_take (List.mem_of_mem_drop hx)
      · exact ih x hx

namespace FilterStream

/-- The stream between two rounds: every slice has been passed on.  Ranges are counted from the start, and there are at most `T` slices in all. -/
structure AtRest (R : σ → SegPhase → Nat → Bytes → List Seg → Prop) (P : σ → Prop) (T : Nat) (st : FilterStream σ) : Prop where
  src : P st.src
  segments : st.segments = []
  tails : st.cutter.tailFilters = []
  margin : st.cutter.tailMargin = 0
  trans : st.cutter.transOffset = usizeMax
  idle : ∃ lb w rem segs, R st.src (.idle lb) w rem segs ∧ st.srcConsumed + segs.length ≤ T

theorem spares {S : SegSrc σ} {K F R} (h : SegFaithful S K F R) (hho : K.honest = true) (hex : K.exact = true) {P Q : σ → Prop} {C W T : Nat} (hT : T ≤ usizeMax) (hsp : S.Spares P Q C W) :
    (segSrc S).Spares (AtRest R P T) (fun _ => True) C W := by
  rintro ⟨src, sc, consumed, mc, segs0, ⟨fs, ts, trans, margin⟩⟩ st1 st2 eof bytes count cap ⟨k, c⟩ ⟨hP, hs0, ht, hm, htr, lb, w, rem, segs, hR, hlen⟩ hfill hcons
  simp only at hP hs0 ht hm htr hR hlen
  subst hs0 ht hm htr
  simp only [segSrc, fill] at hfill
  rcases h.fill _ _ _ _ _ hR with ⟨e, _, heq⟩ | ⟨eof', bytes', count', maxc, cap', w', s', heq, hR', hl, hcb, hdrop, hmax, heof, _, hw, hw', _⟩
  · rw [heq] at hfill
    cases hfill
  obtain rfl : maxc = cap' := by
    rcases hmax with hmax | hmax
    · exact hmax
    · rw [hho] at hmax
      exact absurd hmax.2.2.1 (by simp)
  obtain ⟨k', c', w2, s2, hc, _, _, _, hbef, _, hR2, _, _, hall, _⟩ := h.consume _ _ _ _ _ _ _ maxc hR' (Or.inr (Or.inl rfl))
  obtain rfl := hall hex (Nat.le_refl _)
  obtain ⟨q1, q2, q3, q4⟩ := hsp _ _ _ _ _ _ _ _ hP heq hc
  rw [heq] at hfill
  simp only at hfill
  have hcl := hl.count_le
  rw [hl.segs_eq] at hfill q4
  rw [if_neg (by rw [List.length_take]; omega)] at hfill
  simp only [Except.ok.injEq, Prod.mk.injEq] at hfill
  obtain ⟨⟨he, hb, hcnt, hcap⟩, hst⟩ := hfill
  have hacc : ∀ x ∈ (Cutter.accumulateLines ⟨fs, [], usizeMax, 0⟩ sc consumed eof' c' (segs.take c') []).2.1, x ∈ segs.take c' := by
    intro x hx
    simp only [Cutter.accumulateLines, List.nil_append] at hx
    split at hx
    · rw [mem_dedupRuns, (stableSort_perm _ _).mem_iff] at hx
      exact scan_mem _ _ _ _ _ _ x hx
    · exact scan_mem _ _ _ _ _ _ x hx
  have hfew : (Cutter.accumulateLines ⟨fs, [], usizeMax, 0⟩ sc consumed eof' c' (segs.take c') []).2.1.length ≤ c' := by
    have hscan := fun upto fs' => CutStream.scan_length consumed eof' upto (segs.take c') sc fs'
    simp only [Cutter.accumulateLines, List.nil_append]
    split
    · refine Nat.le_trans (dedupRuns_length _) ?_
      rw [(stableSort_perm _ _).length_eq]
      refine Nat.le_trans (hscan _ _) ?_
      omega
    · refine Nat.le_trans (hscan _ _) ?_
      omega
  have hsegs : st1.segments = (Cutter.accumulateLines ⟨fs, [], usizeMax, 0⟩ sc consumed eof' c' (segs.take c') []).2.1 := by rw [← hst]
  refine ⟨trivial, fun hne => ?_, by omega, fun x hx => ?_⟩
  · rw [hne] at he
    simp only [Bool.or_eq_false_iff] at he
    obtain ⟨hem, rfl⟩ := he
    have hupto : (Cutter.accumulateLines ⟨fs, [], usizeMax, 0⟩ sc consumed false c' (segs.take c') []).1 = max c' sc := by
      simp only [Cutter.accumulateLines, List.isEmpty_nil, Bool.not_true, Bool.and_false, Bool.false_eq_true, if_false]
      omega
    rw [hem, hupto] at hcap
    have hlim : limit (segs.take c') (max c' sc) maxc = maxc := by
      unfold limit
      rw [List.getElem?_eq_none (by rw [List.length_take]; omega)]
    simp only [Bool.or_self, Bool.false_eq_true, if_false] at hcap
    rw [hlim] at hcap
    subst hcap
    have hcut := cutSegs_split k' st1.segments [] (fun x hx => hbef x (hacc x (hsegs ▸ hx))) (by simp)
    rw [List.append_nil] at hcut
    have hsrc : st1.src = s' := by rw [← hst]
    have hmc : st1.maxConsume = maxc := by
      rw [← hst]
      simp only [hem, hupto, Bool.or_self, Bool.false_eq_true, if_false, hlim]
    have hcon1 : st1.srcConsumed = consumed := by rw [← hst]
    have hcut1 : st1.cutter.tailFilters = [] ∧ st1.cutter.tailMargin = 0 ∧ st1.cutter.transOffset = usizeMax := by
      rw [← hst]
      simp [Cutter.accumulateLines]
    simp only [segSrc, consume, hsrc, hmc, Nat.min_self, hc] at hcons
    split at hcons
    · cases hcons
    rw [hcut] at hcons
    simp only at hcons
    split at hcons
    · cases hcons
    cases hcons
    rw [if_neg (by simp)] at hR2
    refine ⟨q2 rfl, rfl, hcut1.1, hcut1.2.1, hcut1.2.2, _, _, _, _, hR2, ?_⟩
    rw [List.length_map, List.length_drop]
    simp only
    omega
  · exact q4 x (hacc x (hsegs ▸ hx))

end FilterStream
end Nd
