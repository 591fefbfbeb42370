import Verif.Model.Segment
import Verif.Spec.Merge
import Verif.Proof.Segment
/-!
# Tools for the segment streams
-/
namespace Nd
open Spec

theorem unwindAll_eq (k : Nat) : ∀ (segs : List Seg), (∀ x ∈ segs, k ≤ x.pos) → unwindAll k segs = .ok (segs.map (Seg.shift k))
  | [], _ => rfl
  | s :: rest, h => by
    have h1 := h s (by simp)
    have := unwindAll_eq k rest fun x hx => h x (by simp [hx])
    simp only [unwindAll, this]
    rw [if_neg (by omega)]
    rfl

theorem takeWhile_split (k : Nat) : ∀ (segs : List Seg), Sorted segs →
    (∀ x ∈ segs.take (segs.takeWhile fun x => decide (x.pos < k)).length, x.pos < k) ∧
    (∀ x ∈ segs.drop (segs.takeWhile fun x => decide (x.pos < k)).length, k ≤ x.pos)
  | [], _ => by simp
  | s :: rest, h => by
    have ⟨h1, h2⟩ := List.pairwise_cons.1 h
    by_cases hs : s.pos < k
    · have := takeWhile_split k rest h2
      simp only [List.takeWhile_cons, hs, decide_true, if_true, List.length_cons, List.take_succ_cons, List.drop_succ_cons, List.mem_cons]
      exact ⟨fun x hx => hx.elim (fun h => h ▸ hs) (this.1 x), this.2⟩
    · simp only [List.takeWhile_cons, hs, decide_false, Bool.false_eq_true, if_false, List.length_nil, List.take_zero, List.drop_zero]
      refine ⟨by simp, ?_⟩
      rintro x hx
      rcases List.mem_cons.1 hx with rfl | hx
      · omega
      · have := h1 x hx; omega

theorem cutSegs_spec (k : Nat) (segs : List Seg) (h : Sorted segs) :
    ∃ c, cutSegs k segs = .ok (c, (segs.drop c).map (Seg.shift k)) ∧ c ≤ segs.length ∧
      (∀ x ∈ segs.take c, x.pos < k) ∧ (∀ x ∈ segs.drop c, k ≤ x.pos) := by
  obtain ⟨h1, h2⟩ := takeWhile_split k segs h
  refine ⟨_, ?_, ?_, h1, h2⟩
  · simp only [cutSegs, unwindAll_eq k _ h2]
  · exact (List.takeWhile_prefix _).length_le

theorem Spec.Sorted.shift {segs : List Seg} (h : Sorted segs) (c k : Nat) : Sorted ((segs.drop c).map (Seg.shift k)) := by
  unfold Sorted
  rw [List.pairwise_map]
  refine (List.Pairwise.sublist (List.drop_sublist _ _) h).imp ?_
  intro a b hab
  simp only [Seg.shift]
  omega

theorem Spec.Sorted.split {segs : List Seg} (h : Sorted segs) (c : Nat) : ∀ x ∈ segs.take c, ∀ y ∈ segs.drop c, x.pos ≤ y.pos := by
  have h' := h
  unfold Sorted at h'
  rw [← List.take_append_drop c segs, List.pairwise_append] at h'
  exact h'.2.2

/-- A segment not before `k` survives dropping the segments before `k`. -/
theorem mem_take_drop {segs : List Seg} {m c k : Nat} (h : ∀ y ∈ segs.take c, y.pos < k) {x : Seg} (hx : x ∈ segs.take m) (hk : k ≤ x.pos) :
    x ∈ (segs.take m).drop c := by
  obtain ⟨i, hi, rfl⟩ := List.mem_take_iff_getElem.1 hx
  rw [List.mem_drop_iff_getElem]
  by_cases hic : i < c
  · have := h segs[i] (by rw [List.mem_take_iff_getElem]; exact ⟨i, by omega, rfl⟩)
    omega
  · refine ⟨i - c, by simp; omega, ?_⟩
    simp only [List.getElem_take]
    congr 1
    omega

/-- The cut of a sorted list at `c` is where the positions reach `k`, so `c` is the full length if all are before. -/
theorem cut_all {segs : List Seg} {c k : Nat} (h2 : ∀ x ∈ segs.drop c, k ≤ x.pos) (hc : c ≤ segs.length) (h : ∀ x ∈ segs, x.pos < k) :
    c = segs.length := by
  rcases Nat.lt_or_ge c segs.length with hlt | hge
  · have hm : segs[c] ∈ segs.drop c := by
      rw [List.mem_drop_iff_getElem]
      exact ⟨0, by omega, by simp⟩
    have := h2 _ hm
    have := h segs[c] (List.getElem_mem _)
    omega
  · omega

theorem Seg.shift_tail (x : Seg) (k : Nat) (h : k ≤ x.pos) : (x.shift k).tail = x.tail - k := by
  simp only [Seg.shift, Seg.tail]; omega

end Nd
