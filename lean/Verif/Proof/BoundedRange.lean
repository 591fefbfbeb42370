import Verif.Model.Range
import Verif.Proof.BoundedCut
import Verif.Proof.BoundedFind
import Verif.Proof.SegOrder
import Verif.Proof.Shot
/-!
# The sizes of the buffers between a stream and the slices printed by `--slice`
-/
namespace Nd

theorem dedupRuns_length : ∀ l : List Seg, (dedupRuns l).length ≤ l.length
  | [] => Nat.le_refl _
  | [x] => Nat.le_refl _
  | x :: y :: rest => by
    have := dedupRuns_length (y :: rest)
    rw [dedupRuns]
    split <;> simp only [List.length_cons] at this ⊢ <;> omega

theorem unwindAll_lens {k D : Nat} : ∀ {segs rest : List Seg}, unwindAll k segs = .ok rest → (∀ x ∈ segs, x.len ≤ D) → ∀ x ∈ rest, x.len ≤ D
  | [], _, h, _ => by
    cases h
    simp
  | s :: segs, rest, h, hs => by
    unfold unwindAll at h
    split at h
    · cases h
    · split at h
      · cases h
      · rename_i rest' hr
        cases h
        have ih := unwindAll_lens hr fun x hx => hs x (List.mem_cons_of_mem _ hx)
        intro x hx
        rcases List.mem_cons.1 hx with rfl | hx
        · exact hs s List.mem_cons_self
        · exact ih x hx

theorem cutSegs_lens {k c D : Nat} {segs rest : List Seg} (h : cutSegs k segs = .ok (c, rest)) (hs : ∀ x ∈ segs, x.len ≤ D) : ∀ x ∈ rest, x.len ≤ D := by
  unfold cutSegs at h
  simp only at h
  split at h
  · cases h
  · rename_i hu
    cases h
    exact unwindAll_lens hu fun x hx => hs x (List.mem_of_mem_drop hx)

namespace RangeSlicer

/-- A range of at most `D` bytes, counted from the start. -/
def Brief (D : Nat) (f : RangeMapper) : Prop := ∃ x y, f = ⟨.fromStart x, .fromStart y⟩ ∧ y ≤ x + D

/-- A range of at most `D` bytes, counted from the end. -/
def Late (D : Nat) (f : RangeMapper) : Prop := ∃ x y, f = ⟨.fromEnd x, .fromEnd y⟩ ∧ x ≤ y + D

theorem Late.brief {D tail : Nat} {f : RangeMapper} (h : Late D f) : Brief D (f.toLeftAnchored tail) := by
  obtain ⟨x, y, rfl, h⟩ := h
  exact ⟨tail - x, tail - y, rfl, by omega⟩

theorem collect_bounds (offset clamp tail D : Nat) : ∀ (fs : List RangeMapper) (mc : Nat), (∀ f ∈ fs, Brief D f) →
    (Cutter.collect offset clamp tail mc fs).1.length + (Cutter.collect offset clamp tail mc fs).2.1.length ≤ fs.length ∧
    (∀ x ∈ (Cutter.collect offset clamp tail mc fs).1, x.len ≤ D) ∧ (∀ f ∈ (Cutter.collect offset clamp tail mc fs).2.1, f ∈ fs) ∧
    (Cutter.collect offset clamp tail mc fs).2.2 ≤ mc ∧ (tail ≤ mc + D → tail ≤ (Cutter.collect offset clamp tail mc fs).2.2 + D)
  | [], mc, _ => by simp [Cutter.collect]
  | f :: fs, mc, h => by
    obtain ⟨x, y, rfl, hxy⟩ := h f List.mem_cons_self
    obtain ⟨i1, i2, i3, i4, i5⟩ := collect_bounds offset clamp tail D fs mc fun g hg => h g (List.mem_cons_of_mem _ hg)
    by_cases hb : min (x - offset) clamp ≥ mc ∨ min (max (x - offset) (y - offset)) clamp > tail
    · have e : Cutter.collect offset clamp tail mc (⟨.fromStart x, .fromStart y⟩ :: fs) = ([], ⟨.fromStart x, .fromStart y⟩ :: fs, min mc (min (x - offset) clamp)) := by
        unfold Cutter.collect
        exact if_pos hb
      rw [e]
      refine ⟨by simp, by simp, by simp, Nat.min_le_left _ _, fun ht => ?_⟩
      simp only
      omega
    · by_cases hs : min (x - offset) clamp ≥ min (max (x - offset) (y - offset)) clamp
      · have e : Cutter.collect offset clamp tail mc (⟨.fromStart x, .fromStart y⟩ :: fs) = Cutter.collect offset clamp tail mc fs := by
          conv => lhs; unfold Cutter.collect
          exact (if_neg hb).trans (if_pos hs)
        rw [e, List.length_cons]
        exact ⟨by omega, i2, fun g hg => List.mem_cons_of_mem _ (i3 g hg), i4, i5⟩
      · have e : Cutter.collect offset clamp tail mc (⟨.fromStart x, .fromStart y⟩ :: fs) =
            ({ pos := min (x - offset) clamp, len := min (max (x - offset) (y - offset)) clamp - min (x - offset) clamp } :: (Cutter.collect offset clamp tail mc fs).1,
              (Cutter.collect offset clamp tail mc fs).2) := by
          conv => lhs; unfold Cutter.collect
          exact (if_neg hb).trans (if_neg hs)
        rw [e]
        simp only [List.length_cons]
        refine ⟨by omega, ?_, fun g hg => List.mem_cons_of_mem _ (i3 g hg), i4, i5⟩
        intro z hz
        rcases List.mem_cons.1 hz with rfl | hz
        · simp only
          omega
        · exact i2 z hz

/-- The slicer between two rounds, before the end. -/
structure AtRest (S : ByteSrc σ) (R : σ → Phase → Nat → Bytes → Prop) (B total D C : Nat) (s₀ : σ) (st : RangeSlicer σ) : Prop where
  src : Visited S B D s₀ st.src
  room : ∃ ph w rem, R st.src ph w rem ∧ st.srcConsumed + rem.length ≤ total
  trans : st.cutter.transOffset = usizeMax
  margin : st.cutter.tailMargin ≤ D
  few : st.segments.length + st.cutter.filters.length + st.cutter.tailFilters.length ≤ C
  slim : ∀ x ∈ st.segments, x.len ≤ D
  heads : ∀ f ∈ st.cutter.filters, Brief D f
  tails : ∀ f ∈ st.cutter.tailFilters, Late D f

theorem spares {S : ByteSrc σ} {F : Err → Prop} {M : Bytes → Prop} {R : σ → Phase → Nat → Bytes → Prop} (h : Serves S F M R) {B total D C : Nat} {s₀ : σ} (hfit : total ≤ usizeMax) :
    (segSrc S B).Spares (AtRest S R B total D C s₀) (fun _ => True) C D := by
  rintro st st1 st2 eof bytes count cap ⟨k, c⟩ ⟨h1, ⟨ph, w, rem, hR, hroom⟩, h3, h4, h5, h6, h7, h8⟩ hf hc
  simp only [segSrc, fill] at hf
  split at hf
  · cases hf
  rename_i e n src hsf
  have hlent : LentTo S B D s₀ src n e := ⟨_, _, h1, Nat.le_refl _, hsf⟩
  rcases h.fill _ _ _ _ B hR with ⟨_, _, he⟩ | ⟨_, _, w', _, he, hR', hn, -⟩
  · rw [hsf] at he
    cases he
  rw [hsf] at he
  cases he
  cases e with
  | true =>
    have hall : ∀ f ∈ (if st.cutter.tailFilters.isEmpty then st.cutter.filters else Cutter.sortFilters (st.cutter.filters ++ st.cutter.tailFilters.map fun f => f.toLeftAnchored (st.srcConsumed + n))), Brief D f := by
      intro f hf
      split at hf
      · exact h7 f hf
      · unfold Cutter.sortFilters at hf
        rw [(stableSort_perm _ _).mem_iff] at hf
        rcases List.mem_append.1 hf with hf | hf
        · exact h7 f hf
        · obtain ⟨g, hg, rfl⟩ := List.mem_map.1 hf
          exact (h8 g hg).brief
    have hlen : (if st.cutter.tailFilters.isEmpty then st.cutter.filters else Cutter.sortFilters (st.cutter.filters ++ st.cutter.tailFilters.map fun f => f.toLeftAnchored (st.srcConsumed + n))).length + st.segments.length ≤ C := by
      split
      · omega
      · unfold Cutter.sortFilters
        rw [(stableSort_perm _ _).length_eq, List.length_append, List.length_map]
        omega
    have hacc : (st.cutter.accumulateSegs st.srcConsumed true n st.segments).2.1.length ≤ C ∧ ∀ x ∈ (st.cutter.accumulateSegs st.srcConsumed true n st.segments).2.1, x.len ≤ D := by
      have hfil : (if st.cutter.tailFilters.isEmpty then st.cutter.filters else Cutter.sortFilters (st.cutter.filters ++ st.cutter.tailFilters.map fun f => f.toLeftAnchored (st.srcConsumed + n))) =
          (if (true && !st.cutter.tailFilters.isEmpty) = true then
            { st.cutter with filters := Cutter.sortFilters (st.cutter.filters ++ st.cutter.tailFilters.map fun f => f.toLeftAnchored (st.srcConsumed + n)), tailFilters := [] }
          else st.cutter).filters := by
        cases st.cutter.tailFilters.isEmpty <;> rfl
      simp only [Cutter.accumulateSegs, if_true]
      rw [← hfil]
      obtain ⟨b1, b2, b3, b4, b5⟩ := collect_bounds st.srcConsumed n usizeMax D _ n hall
      refine ⟨Nat.le_trans (dedupRuns_length _) (by rw [List.length_append]; omega), fun x hx => ?_⟩
      rw [mem_dedupRuns] at hx
      rcases List.mem_append.1 hx with hx | hx
      · exact h6 x hx
      · exact b2 x hx
    split at hf
    · cases hf
      exact ⟨trivial, by simp, hacc.1, hacc.2⟩
    · cases hf
      exact ⟨trivial, by simp, hacc.1, hacc.2⟩
  | false =>
    have hup : min (n - st.cutter.tailMargin) (st.cutter.transOffset - st.srcConsumed) = n - st.cutter.tailMargin := by
      rw [h3]
      omega
    obtain ⟨b1, b2, b3, b4, b5⟩ := collect_bounds st.srcConsumed usizeMax n D st.cutter.filters (n - st.cutter.tailMargin) h7
    have hacc : st.cutter.accumulateSegs st.srcConsumed false n st.segments = ((Cutter.collect st.srcConsumed usizeMax n (n - st.cutter.tailMargin) st.cutter.filters).2.2,
        dedupRuns (st.segments ++ (Cutter.collect st.srcConsumed usizeMax n (n - st.cutter.tailMargin) st.cutter.filters).1),
        { st.cutter with filters := (Cutter.collect st.srcConsumed usizeMax n (n - st.cutter.tailMargin) st.cutter.filters).2.1 }) := by
      simp only [Cutter.accumulateSegs, Bool.false_and, Bool.false_eq_true, if_false, hup]
    rw [hacc] at hf
    have b5 := b5 (by omega)
    generalize Cutter.collect st.srcConsumed usizeMax n (n - st.cutter.tailMargin) st.cutter.filters = r at *
    have hcount : (dedupRuns (st.segments ++ r.1)).length ≤ st.segments.length + r.1.length := by
      have := dedupRuns_length (st.segments ++ r.1)
      rwa [List.length_append] at this
    have hslim : ∀ x ∈ dedupRuns (st.segments ++ r.1), x.len ≤ D := by
      intro x hx
      rw [mem_dedupRuns] at hx
      rcases List.mem_append.1 hx with hx | hx
      · exact h6 x hx
      · exact b2 x hx
    simp only at hf
    split at hf
    · cases hf
      exact ⟨trivial, by simp, by omega, hslim⟩
    · cases hf
      refine ⟨trivial, fun _ => ?_, by omega, hslim⟩
      simp only [segSrc, Nat.min_self] at hc
      split at hc
      · cases hc
      rename_i src2 hsc
      split at hc
      · cases hc
      rename_i c' rest hcut
      cases hc
      obtain ⟨s'', w'', g1, g2, _⟩ := h.consume _ _ _ _ r.2.2 hR' (by omega)
      rw [hsc] at g1
      cases g1
      have hlen2 := (cutSegs_rest hcut).1
      refine ⟨hlent.consume (by omega) (fun _ => by omega) hsc, ⟨_, _, _, g2, ?_⟩, h3, h4, ?_, cutSegs_lens hcut hslim, fun f hf => h7 f (b3 f hf), h8⟩
      · rw [List.length_drop]
        simp only
        omega
      · simp only
        omega

end RangeSlicer
end Nd
