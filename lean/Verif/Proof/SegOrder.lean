import Verif.Model.Range
import Verif.Spec.Range
import Verif.Proof.SegTools
import Verif.Proof.Cut
/-!
# Segments sorted by start and end
-/
namespace Nd
open Spec

/-- Ordered by start, then by end. -/
def Seg.Le (a b : Seg) : Prop := a.pos < b.pos ∨ (a.pos = b.pos ∧ a.tail ≤ b.tail)

def Seg.Lt (a b : Seg) : Prop := a.pos < b.pos ∨ (a.pos = b.pos ∧ a.tail < b.tail)

theorem Seg.Le.lt_or_eq {a b : Seg} (h : a.Le b) : a.Lt b ∨ a = b := by
  unfold Seg.Le Seg.tail at h
  unfold Seg.Lt Seg.tail
  rcases h with h | ⟨h1, h2⟩
  · exact Or.inl (Or.inl h)
  · by_cases h3 : a.len = b.len
    · right
      cases a; cases b
      simp_all
    · left; right; omega

theorem Seg.Lt.le {a b : Seg} (h : a.Lt b) : a.Le b := by unfold Seg.Lt at h; unfold Seg.Le; omega

theorem Seg.Lt.irrefl {a : Seg} (h : a.Lt a) : False := by unfold Seg.Lt at h; omega

theorem Seg.Lt.asymm {a b : Seg} (h : a.Lt b) (h' : b.Lt a) : False := by unfold Seg.Lt at h h'; omega

theorem Seg.Lt.trans {a b c : Seg} (h : a.Lt b) (h' : b.Lt c) : a.Lt c := by unfold Seg.Lt at h h' ⊢; omega

theorem Seg.Lt.of_le {a b c : Seg} (h : a.Lt b) (h' : b.Le c) : a.Lt c := by unfold Seg.Lt Seg.Le at *; omega

theorem Seg.Le.trans {a b c : Seg} (h : a.Le b) (h' : b.Le c) : a.Le c := by unfold Seg.Le at *; omega

theorem Seg.Lt.shift {a b : Seg} (h : a.Lt b) {k : Nat} (ha : k ≤ a.pos) (hb : k ≤ b.pos) : (a.shift k).Lt (b.shift k) := by
  unfold Seg.Lt at *
  rw [Seg.shift_tail a k ha, Seg.shift_tail b k hb]
  simp only [Seg.shift]
  unfold Seg.tail at *
  omega

theorem Seg.shift_inj {a b : Seg} {k : Nat} (ha : k ≤ a.pos) (hb : k ≤ b.pos) (h : a.shift k = b.shift k) : a = b := by
  cases a; cases b
  simp only [Seg.shift, Seg.mk.injEq] at h ⊢
  simp only at ha hb
  omega

theorem mem_dedupRuns {x : Seg} : ∀ l : List Seg, x ∈ dedupRuns l ↔ x ∈ l
  | [] => by simp [dedupRuns]
  | [y] => by simp [dedupRuns]
  | y :: z :: l => by
    rw [dedupRuns]
    split
    · rename_i h
      rw [mem_dedupRuns (z :: l), h]; simp
    · rw [List.mem_cons, mem_dedupRuns (z :: l), List.mem_cons (a := x) (b := y)]

theorem dedupRuns_head (x : Seg) (l : List Seg) : ∃ t, dedupRuns (x :: l) = x :: t := by
  induction l generalizing x with
  | nil => exact ⟨[], rfl⟩
  | cons y l ih =>
    rw [dedupRuns]
    split
    · rename_i h; subst h; exact ih x
    · exact ⟨_, rfl⟩

theorem dedupRuns_strict : ∀ l : List Seg, l.Pairwise Seg.Le → (dedupRuns l).Pairwise Seg.Lt
  | [], _ => by simp [dedupRuns]
  | [y], _ => by simp [dedupRuns]
  | y :: z :: l, h => by
    rw [dedupRuns]
    obtain ⟨h1, h2⟩ := List.pairwise_cons.1 h
    have ih := dedupRuns_strict (z :: l) h2
    split
    · exact ih
    · rename_i hne
      refine List.pairwise_cons.2 ⟨fun w hw => ?_, ih⟩
      rw [mem_dedupRuns] at hw
      have hz : y.Lt z := by
        rcases (h1 z (by simp)).lt_or_eq with h | h
        · exact h
        · exact absurd h hne
      rcases List.mem_cons.1 hw with rfl | hw
      · exact hz
      · exact hz.of_le ((List.pairwise_cons.1 h2).1 w hw)

theorem dedupRuns_prefix : ∀ (a b : List Seg), a.Pairwise Seg.Lt → ∃ t, dedupRuns (a ++ b) = a ++ t
  | [], b, _ => ⟨_, rfl⟩
  | [x], b, _ => dedupRuns_head x b
  | x :: y :: a, b, h => by
    obtain ⟨h1, h2⟩ := List.pairwise_cons.1 h
    obtain ⟨t, ht⟩ := dedupRuns_prefix (y :: a) b h2
    refine ⟨t, ?_⟩
    have hne : x ≠ y := by
      rintro rfl
      exact (h1 x (by simp)).irrefl
    show dedupRuns (x :: y :: (a ++ b)) = _
    rw [dedupRuns, if_neg hne]
    show x :: dedupRuns (y :: a ++ b) = _
    rw [ht]; rfl

/-- The smallest elements of a strictly sorted list are its prefix. -/
theorem strict_prefix : ∀ (a l : List Seg), a.Pairwise Seg.Lt → l.Pairwise Seg.Lt → (∀ x ∈ a, x ∈ l) →
    (∀ z ∈ l, z ∉ a → ∀ x ∈ a, x.Lt z) → a = l.take a.length
  | [], l, _, _, _, _ => by simp
  | x :: a, [], _, _, h, _ => by have := h x (by simp); simp at this
  | x :: a, z :: l, ha, hl, hsub, hmin => by
    obtain ⟨a1, a2⟩ := List.pairwise_cons.1 ha
    obtain ⟨l1, l2⟩ := List.pairwise_cons.1 hl
    have hxz : x = z := by
      rcases List.mem_cons.1 (hsub x (by simp)) with h | h
      · exact h
      · exfalso
        have hzx := l1 x h
        by_cases hz : z ∈ x :: a
        · rcases List.mem_cons.1 hz with hz | hz
          · subst hz; exact hzx.irrefl
          · exact hzx.asymm (a1 z hz)
        · exact hzx.asymm (hmin z (by simp) hz x (by simp))
    subst hxz
    rw [List.length_cons, List.take_succ_cons]
    congr 1
    refine strict_prefix a l a2 l2 (fun y hy => ?_) (fun y hy hya w hw => ?_)
    · rcases List.mem_cons.1 (hsub y (by simp [hy])) with h | h
      · subst h; exact absurd (a1 y hy) fun h => h.irrefl
      · exact h
    · refine hmin y (by simp [hy]) ?_ w (by simp [hw])
      intro hm
      rcases List.mem_cons.1 hm with h | h
      · subst h; exact (l1 y hy).irrefl
      · exact hya h

theorem Spec.StrictlySorted.sorted {l : List Seg} (h : StrictlySorted l) : Sorted l :=
  List.Pairwise.imp (fun {a b} h => by omega) h

/-- A strictly sorted list is determined by its elements. -/
theorem strict_unique {a l : List Seg} (ha : StrictlySorted a) (hl : StrictlySorted l) (h : ∀ x, x ∈ a ↔ x ∈ l) : a = l := by
  have h1 := strict_prefix a l ha hl (fun x hx => (h x).1 hx) (fun z hz hn => absurd ((h z).2 hz) hn)
  have h2 := strict_prefix l a hl ha (fun x hx => (h x).2 hx) (fun z hz hn => absurd ((h z).1 hz) hn)
  have h3 := congrArg List.length h1
  have h4 := congrArg List.length h2
  rw [List.length_take] at h3 h4
  rw [h1, List.take_of_length_le (by omega)]

end Nd
