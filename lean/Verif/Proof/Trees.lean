import Verif.Proof.Yard
/-!
# Rewriting trees: the parts of the simplifier that the proofs share
-/
namespace Nd.Eval
open Nd Nd.Spec

theorem get_at (a b : List Tok) (x : Tok) (i : Nat) (h : i = a.length) : get (a ++ x :: b) i = .ok x := by
  subst h
  simp [get]

theorem sub_ok {a b : Nat} (h : b ≤ a) : sub a b = .ok (a - b) := by simp [sub, h]

theorem put_at (a b : List Tok) (x y : Tok) (i : Nat) (h : i = a.length) : put (a ++ x :: b) i y = .ok (a ++ y :: b) := by
  subst h
  simp [put]

theorem ok_bind {α β : Type} (x : α) (f : α → Except Err β) : (Except.ok x >>= f) = f x := rfl

theorem err_bind {α β : Type} (e : Err) (f : α → Except Err β) : ((Except.error e : Except Err α) >>= f) = .error e := rfl

theorem pure_ok {α : Type} (x : α) : (pure x : Except Err α) = .ok x := rfl

namespace Tree

/-- The value of a tree. -/
def eval (ρ : Nat → Int64 → Int64) : Tree → Option Int64
  | val v => some v
  | var id c => some (c * ρ id 0)
  | idx id c t => (t.eval ρ).map (fun x => c * ρ id x)
  | arr id t => (t.eval ρ).map (fun x => ρ id x)
  | pre c t => (t.eval ρ).bind fun x => (applyPrefix c x).toOption
  | op c l r => (l.eval ρ).bind fun x => (r.eval ρ).bind fun y => (applyOp c x y).toOption

/-- The node with the sign of a right leaf absorbed (`save_and_flip`). -/
def mk (c : Char) (l r : Tree) : Tree :=
  if c = '-' then
    match r with
    | val x => op '+' l (val (-x))
    | var id k => op '+' l (var id (-k))
    | idx id k t => op '+' l (idx id (-k) t)
    | r => op c l r
  else if c = '~' then
    match r with
    | val x => op '#' l (val (-x))
    | var id k => op '#' l (var id (-k))
    | idx id k t => op '#' l (idx id (-k) t)
    | r => op c l r
  else op c l r

theorem neg_sub_eq (x y : Int64) : x + -y = x - y := by grind

theorem eval_mk (ρ : Nat → Int64 → Int64) (c : Char) (l r : Tree) : (mk c l r).eval ρ = (op c l r).eval ρ := by
  unfold mk
  have n1 : ∀ k y : Int64, -k * y = -(k * y) := by intro k y; grind
  split
  · rename_i h; subst h
    split <;> try rfl
    · simp [eval, applyOp, neg_sub_eq]
    · simp [eval, applyOp, n1, neg_sub_eq]
    · rename_i id k t
      simp only [eval]
      cases t.eval ρ <;> simp [applyOp, n1, neg_sub_eq]
  · split
    · rename_i h; subst h
      split <;> try rfl
      · simp [eval, applyOp, neg_sub_eq]
      · simp [eval, applyOp, n1, neg_sub_eq]
      · rename_i id k t
        simp only [eval]
        cases t.eval ρ <;> simp [applyOp, n1, neg_sub_eq]
    · rfl

theorem length_mk (c : Char) (l r : Tree) : (mk c l r).flat.length = l.flat.length + r.flat.length + 1 := by
  unfold mk
  split
  · split <;> simp [flat, Nat.add_assoc]
  · split
    · split <;> simp [flat, Nat.add_assoc]
    · simp [flat, Nat.add_assoc]

end Tree

/-- The characters of binary operators in the notation. -/
def addsubs : List Char := ['+', '-', '#', '~']

theorem isAddsub_iff (c : Char) : isAddsub c = true ↔ c = '+' ∨ c = '-' ∨ c = '#' ∨ c = '~' := by
  simp [isAddsub, or_assoc]

/-- `save_and_flip` at the root of a node. -/
theorem saveAndFlip_node (c : Char) (l r : Tree) (q : Tok) (rest : List Tok) (slot lhs : Nat) (hs : slot = l.flat.length + r.flat.length) (hl : lhs = r.flat.length + 1) :
    saveAndFlip (l.flat ++ r.flat ++ q :: rest) slot (.op c) lhs = .ok ((Tree.mk c l r).flat ++ rest) := by
  subst hs hl
  have hrp := r.flat_pos
  have h0 : ∀ (a : List Tok), l.flat ++ r.flat ++ a = (l.flat ++ r.stem) ++ r.root :: a := by
    intro a; rw [r.flat_eq]; simp
  have h1 : l.flat.length + r.flat.length - 1 = (l.flat ++ r.stem).length := by
    rw [r.flat_eq]; simp
  have h2 : l.flat.length + r.flat.length = (l.flat ++ r.flat).length := by simp
  have hget : get (l.flat ++ r.flat ++ q :: rest) (l.flat.length + r.flat.length - 1) = .ok r.root := by
    rw [h0]; exact get_at _ _ _ _ h1
  have hput : put (l.flat ++ r.flat ++ q :: rest) (l.flat.length + r.flat.length) (.op c, r.flat.length + 1) = .ok ((Tree.op c l r).flat ++ rest) := by
    rw [put_at _ _ _ _ _ h2]; simp [Tree.flat]
  have hput2 : ∀ (t : Tok) (c' : Char), (put (l.flat ++ r.flat ++ q :: rest) (l.flat.length + r.flat.length - 1) t >>= fun ts =>
      put ts (l.flat.length + r.flat.length) (.op c', r.flat.length + 1)) = .ok (l.flat ++ (r.stem ++ [t]) ++ (.op c', r.flat.length + 1) :: rest) := by
    intro t c'
    rw [h0, put_at _ _ _ _ _ h1, ok_bind]
    have h3 : l.flat ++ r.stem ++ t :: q :: rest = (l.flat ++ r.stem ++ [t]) ++ q :: rest := by simp
    rw [h3, put_at _ _ _ _ _ (by rw [r.flat_eq]; simp)]
    simp
  unfold saveAndFlip
  rw [sub_ok (by omega), ok_bind, hget, ok_bind]
  by_cases ha : isAddsub c = true
  · rcases (isAddsub_iff c).1 ha with rfl | rfl | rfl | rfl <;> cases r <;>
      simp only [Tree.root, ha, if_true, peelRhsSign, ok_bind, applyPrefix, show ¬ '-' = '+' by decide, if_false] <;>
      first
      | exact hput
      | (rw [hput2]; simp [Tree.mk, Tree.flat, Tree.stem])
  · have hm : Tree.mk c l r = .op c l r := by
      unfold Tree.mk
      rw [if_neg (by rintro rfl; exact ha rfl), if_neg (by rintro rfl; exact ha rfl)]
    rw [hm, ← hput]
    cases r <;> simp only [Tree.root, ha, Bool.false_eq_true, if_false]

end Nd.Eval
