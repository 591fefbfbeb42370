/-!
# Sorting
-/
namespace Nd

/-- Insertion in front of the first element that is not smaller. -/
def insertSorted (le : α → α → Bool) (x : α) : List α → List α
  | [] => [x]
  | y :: ys => if le x y then x :: y :: ys else y :: insertSorted le x ys

/-- The stable sorts of the standard library (`sort_by_key`, `sort`).  All stable sorts return the same list; this one is computed by the kernel. -/
def stableSort (le : α → α → Bool) : List α → List α
  | [] => []
  | x :: xs => insertSorted le x (stableSort le xs)

theorem insertSorted_perm (le : α → α → Bool) (x : α) : ∀ ys, (insertSorted le x ys).Perm (x :: ys)
  | [] => .refl _
  | y :: ys => by
    unfold insertSorted
    split
    · exact .refl _
    · exact ((insertSorted_perm le x ys).cons y).trans (.swap _ _ _)

theorem stableSort_perm (le : α → α → Bool) : ∀ l, (stableSort le l).Perm l
  | [] => .refl _
  | x :: xs => (insertSorted_perm le x _).trans ((stableSort_perm le xs).cons x)

theorem insertSorted_pairwise {le : α → α → Bool} (trans : ∀ a b c, le a b = true → le b c = true → le a c = true) (total : ∀ a b, (le a b || le b a) = true) (x : α) :
    ∀ ys : List α, ys.Pairwise (fun a b => le a b = true) → (insertSorted le x ys).Pairwise (fun a b => le a b = true)
  | [], _ => by simp [insertSorted]
  | y :: ys, h => by
    obtain ⟨h1, h2⟩ := List.pairwise_cons.1 h
    unfold insertSorted
    split
    · rename_i hc
      refine List.pairwise_cons.2 ⟨fun z hz => ?_, h⟩
      rcases List.mem_cons.1 hz with rfl | hz
      · exact hc
      · exact trans _ _ _ hc (h1 z hz)
    · rename_i hc
      refine List.pairwise_cons.2 ⟨fun z hz => ?_, insertSorted_pairwise trans total x ys h2⟩
      rcases List.mem_cons.1 ((insertSorted_perm le x ys).mem_iff.1 hz) with rfl | hz
      · have := total z y
        simp only [Bool.or_eq_true] at this
        exact this.resolve_left hc
      · exact h1 z hz

theorem stableSort_pairwise {le : α → α → Bool} (trans : ∀ a b c, le a b = true → le b c = true → le a c = true) (total : ∀ a b, (le a b || le b a) = true) :
    ∀ l : List α, (stableSort le l).Pairwise (fun a b => le a b = true)
  | [] => .nil
  | x :: xs => insertSorted_pairwise trans total x _ (stableSort_pairwise trans total xs)

theorem stableSort_of_pairwise {le : α → α → Bool} : ∀ {l : List α}, l.Pairwise (fun a b => le a b = true) → stableSort le l = l
  | [], _ => rfl
  | [x], _ => rfl
  | x :: y :: l, h => by
    obtain ⟨h1, h2⟩ := List.pairwise_cons.1 h
    unfold stableSort
    rw [stableSort_of_pairwise h2]
    unfold insertSorted
    rw [if_pos (h1 y (by simp))]

end Nd
