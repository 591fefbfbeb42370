import Verif.Proof.MirrorSimp
/-!
# Sums of constants and one variable
-/
namespace Nd.Eval
open Nd Nd.Spec

/-- Sums and differences. -/
def lin (o : Char) (a b : Int64) : Int64 := if o = '+' then a + b else if o = '-' then a - b else if o = '#' then -(a + b) else -(a - b)

theorem applyOp_lin {o : Char} (h : isAddsub o = true) (a b : Int64) : applyOp o a b = .ok (lin o a b) := by
  rcases (isAddsub_iff o).1 h with rfl | rfl | rfl | rfl <;> rfl

/-- The variable `id` with coefficient `k` plus constants with sum `c`. -/
inductive Sole (id : Nat) (ρ : Nat → Int64 → Int64) : Int64 → Int64 → Tree → Prop
  | var (k : Int64) : k ≠ 0 → Sole id ρ k 0 (.var id k)
  | pos {k c t} : Sole id ρ k c t → t.flipped = false → Sole id ρ k c (.pre '+' t)
  | neg {k c k' c' t} : Sole id ρ k c t → k' = -k → c' = -c → Sole id ρ k' c' (.pre '-' t)
  | left {o k c k' c' l r x} : isAddsub o = true → Sole id ρ k c l → r.Fine → r.eval ρ = some x → k' = lin o k 0 → c' = lin o c x → Sole id ρ k' c' (.op o l r)
  | right {o k c k' c' l r x} : isAddsub o = true → Sole id ρ k c r → l.Fine → l.eval ρ = some x → k' = lin o 0 k → c' = lin o x c → Sole id ρ k' c' (.op o l r)

/-- What such trees become. -/
def Form (id : Nat) (k c : Int64) (t : Tree) : Prop :=
  (c = 0 ∧ t = .var id k) ∨ (c ≠ 0 ∧ t = .op '+' (.var id k) (.val c)) ∨ (c ≠ 0 ∧ t = .op '#' (.var id (-k)) (.val (-c)))

theorem rank_var (id : Nat) (h : id ≤ 1) (k x : Int64) : ¬ sortRank (.var id k) > sortRank (.val x) := by
  have hr : sortRank (.val x) = 0xffffffff := rfl
  have hv : sortRank (.var id k) = (id + 1) <<< 8 := rfl
  rw [hr, hv, Nat.shiftLeft_eq]; omega

theorem rank_val (id : Nat) (h : id ≤ 1) (k x : Int64) : sortRank (.val x) > sortRank (.var id k) := by
  have hr : sortRank (.val x) = 0xffffffff := rfl
  have hv : sortRank (.var id k) = (id + 1) <<< 8 := rfl
  rw [hr, hv, Nat.shiftLeft_eq]; omega

theorem rank_vals (x y : Int64) : ¬ sortRank (.val x) > sortRank (.val y) := by
  have hr : ∀ x, sortRank (.val x) = 0xffffffff := fun _ => rfl
  rw [hr, hr]; omega

/-- The end of `sort_and_squash_tokens`. -/
def tailT (rec : Tree → Except Err Tree) (t : Tree) : Except Err Tree := do
  let r ← sortT t
  let t ← if r.1 then resortT rec r.2 else .ok r.2
  idT (← foldT t)

theorem squash_flat (n : Nat) (o : Char) (l r : Tree) (h : ∀ o' y z, r ≠ .op o' y z) : squashT (n + 1) (.op o l r) = tailT (squashT n) (.op o l r) := by
  have hp := l.flat_pos
  have hlen := length_op o l r
  rw [squashT, if_neg (by omega)]
  have h1 : rotT (Tree.op o l r).flat.length (.op o l r) = .ok (false, .op o l r) := by
    rw [hlen]
    cases r with
    | op o' y z => exact absurd rfl (h o' y z)
    | _ => rfl
  rw [h1]; rfl

theorem ne_op_val (x : Int64) : ∀ o' y z, Tree.val x ≠ .op o' y z := by simp
theorem ne_op_var (id : Nat) (x : Int64) : ∀ o' y z, Tree.var id x ≠ .op o' y z := by simp

/-- A variable and a constant. -/
theorem tail_var (rec : Tree → Except Err Tree) (id : Nat) (hid : id ≤ 1) (p : Char) (hp : p = '+' ∨ p = '#') (k x : Int64) (hk : k ≠ 0) :
    ∃ t, tailT rec (.op p (.var id k) (.val x)) = .ok t ∧ Form id (lin p k 0) (lin p 0 x) t := by
  have h1 : sortT (.op p (.var id k) (.val x)) = .ok (false, .op p (.var id k) (.val x)) := by
    rcases hp with rfl | rfl <;>
    · simp only [sortT, sortPlainT, Tree.root]
      simp only [rank_var id hid k x, if_false]
      rfl
  unfold tailT
  rw [h1, ok_bind]
  have h2 : foldT (.op p (.var id k) (.val x)) = .ok (.op p (.var id k) (.val x)) := by
    rcases hp with rfl | rfl <;> rfl
  simp only [Bool.false_eq_true, if_false, h2, ok_bind]
  by_cases hx : x = 0
  · subst hx
    rcases hp with rfl | rfl
    · exact ⟨.var id k, rfl, Or.inl ⟨by simp [lin], by simp [lin]⟩⟩
    · exact ⟨.var id (-k), rfl, Or.inl ⟨by simp [lin], by simp [lin]⟩⟩
  · rcases hp with rfl | rfl
    · refine ⟨.op '+' (.var id k) (.val x), ?_, Or.inr (Or.inl ⟨by simp [lin, hx], by simp [lin]⟩)⟩
      simp [idT, isIdArm, isId, Tree.root, hx, hk]
    · refine ⟨.op '#' (.var id k) (.val x), ?_, Or.inr (Or.inr ⟨by simp [lin, hx], by simp [lin]⟩)⟩
      simp [idT, isIdArm, isId, Tree.root, hx, hk]

/-- A variable, a constant and a constant. -/
theorem tail_sum (rec : Tree → Except Err Tree) (id : Nat) (p q : Char) (hp : p = '+' ∨ p = '#') (hq : q = '+' ∨ q = '#') (k c x : Int64) (hk : k ≠ 0) :
    ∃ t, tailT rec (.op p (.op q (.var id k) (.val c)) (.val x)) = .ok t ∧ Form id (lin p (lin q k 0) 0) (lin p (lin q 0 c) x) t := by
  have h1 : sortT (.op p (.op q (.var id k) (.val c)) (.val x)) = .ok (false, .op p (.op q (.var id k) (.val c)) (.val x)) := by
    rcases hp with rfl | rfl <;> rcases hq with rfl | rfl <;>
    · simp only [sortT]
      rw [if_pos (by rfl)]
      simp only [sortChainedT, peelSign, ok_bind, fuseSign2Op, fuseSign2, fuseSignOp, Tree.root]
      simp only [rank_vals, if_false]
  unfold tailT
  rw [h1, ok_bind]
  simp only [Bool.false_eq_true, if_false]
  have key : ∀ (a : Char) (y : Int64), a = '+' ∨ a = '#' → ∃ t, idT (.op a (.var id k) (.val y)) = .ok t ∧ Form id (lin a k 0) (lin a 0 y) t := by
    intro a y ha
    by_cases hy : y = 0
    · subst hy
      rcases ha with rfl | rfl
      · exact ⟨.var id k, rfl, Or.inl ⟨by simp [lin], by simp [lin]⟩⟩
      · exact ⟨.var id (-k), rfl, Or.inl ⟨by simp [lin], by simp [lin]⟩⟩
    · rcases ha with rfl | rfl
      · exact ⟨.op '+' (.var id k) (.val y), by simp [idT, isIdArm, isId, Tree.root, hy, hk], Or.inr (Or.inl ⟨by simp [lin, hy], by simp [lin]⟩)⟩
      · exact ⟨.op '#' (.var id k) (.val y), by simp [idT, isIdArm, isId, Tree.root, hy, hk], Or.inr (Or.inr ⟨by simp [lin, hy], by simp [lin]⟩)⟩
  have h2 : ∃ a y, foldT (.op p (.op q (.var id k) (.val c)) (.val x)) = .ok (.op a (.var id k) (.val y)) ∧ (a = '+' ∨ a = '#') ∧ lin a k 0 = lin p (lin q k 0) 0 ∧
      lin a 0 y = lin p (lin q 0 c) x := by
    rcases hp with rfl | rfl <;> rcases hq with rfl | rfl
    · exact ⟨'+', c + x, rfl, Or.inl rfl, by simp [lin], by simp [lin]⟩
    · exact ⟨'#', c - x, rfl, Or.inr rfl, by simp [lin], by simp [lin]; grind⟩
    · exact ⟨'#', c + x, rfl, Or.inr rfl, by simp [lin], by simp [lin]⟩
    · exact ⟨'+', c - x, rfl, Or.inl rfl, by simp [lin], by simp [lin]; grind⟩
  obtain ⟨a, y, h3, h4, h5, h6⟩ := h2
  rw [ok_bind, h3, ok_bind, ← h5, ← h6]
  exact key a y h4

/-- A constant and a variable. -/
theorem tail_flip (rec : Tree → Except Err Tree) (id : Nat) (hid : id ≤ 1) (p : Char) (hp : p = '+' ∨ p = '#') (k x : Int64) (hk : k ≠ 0) :
    ∃ t, tailT rec (.op p (.val x) (.var id k)) = .ok t ∧ Form id (lin p 0 k) (lin p x 0) t := by
  have h1 : sortT (.op p (.val x) (.var id k)) = .ok (false, .op p (.var id k) (.val x)) := by
    rcases hp with rfl | rfl <;>
    · simp only [sortT, sortPlainT, Tree.root]
      simp only [rank_val id hid k x, if_true]
      rfl
  have h2 : sortT (.op p (.var id k) (.val x)) = .ok (false, .op p (.var id k) (.val x)) := by
    rcases hp with rfl | rfl <;>
    · simp only [sortT, sortPlainT, Tree.root]
      simp only [rank_var id hid k x, if_false]
      rfl
  obtain ⟨t, h3, h4⟩ := tail_var rec id hid p hp k x hk
  refine ⟨t, ?_, ?_⟩
  · unfold tailT at h3 ⊢
    rw [h1]; rw [h2] at h3; exact h3
  · have e1 : lin p 0 k = lin p k 0 := by rcases hp with rfl | rfl <;> simp [lin]
    have e2 : lin p x 0 = lin p 0 x := by rcases hp with rfl | rfl <;> simp [lin]
    rw [e1, e2]; exact h4

theorem form_ne {id : Nat} {k c : Int64} {t : Tree} (h : Form id k c t) : ∀ s u, t ≠ .pre s u := by
  rcases h with ⟨_, rfl⟩ | ⟨_, rfl⟩ | ⟨_, rfl⟩ <;> simp

/-- The end of the procedure on such a tree and a constant. -/
theorem tail_left (rec : Tree → Except Err Tree) (id : Nat) (hid : id ≤ 1) (p : Char) (hp : p = '+' ∨ p = '#') (k c x : Int64) (hk : k ≠ 0) (l : Tree) (hl : Form id k c l) :
    ∃ t, tailT rec (.op p l (.val x)) = .ok t ∧ Form id (lin p k 0) (lin p c x) t := by
  rcases hl with ⟨rfl, rfl⟩ | ⟨_, rfl⟩ | ⟨_, rfl⟩
  · exact tail_var rec id hid p hp k x hk
  · have := tail_sum rec id p '+' hp (Or.inl rfl) k c x hk
    have e : lin '+' k 0 = k ∧ lin '+' 0 c = c := by simp [lin]
    rwa [e.1, e.2] at this
  · have := tail_sum rec id p '#' hp (Or.inr rfl) (-k) (-c) x (by simpa using hk)
    have e : lin '#' (-k) 0 = k ∧ lin '#' 0 (-c) = c := by simp [lin]
    rwa [e.1, e.2] at this

theorem mk_val {o : Char} (h : isAddsub o = true) (l : Tree) (x : Int64) :
    ∃ p y, Tree.mk o l (.val x) = .op p l (.val y) ∧ (p = '+' ∨ p = '#') ∧ ∀ c, lin p c y = lin o c x := by
  rcases (isAddsub_iff o).1 h with rfl | rfl | rfl | rfl
  · exact ⟨'+', x, rfl, Or.inl rfl, fun c => rfl⟩
  · exact ⟨'+', -x, rfl, Or.inl rfl, fun c => by simp [lin]; grind⟩
  · exact ⟨'#', x, rfl, Or.inr rfl, fun c => rfl⟩
  · exact ⟨'#', -x, rfl, Or.inr rfl, fun c => by simp [lin]; grind⟩

theorem mk_var {o : Char} (h : isAddsub o = true) (l : Tree) (id : Nat) (k : Int64) :
    ∃ p j, Tree.mk o l (.var id k) = .op p l (.var id j) ∧ (p = '+' ∨ p = '#') ∧ (k ≠ 0 → j ≠ 0) ∧ lin p 0 j = lin o 0 k ∧ ∀ x, lin p x 0 = lin o x 0 := by
  rcases (isAddsub_iff o).1 h with rfl | rfl | rfl | rfl
  · exact ⟨'+', k, rfl, Or.inl rfl, id_fn, rfl, fun c => rfl⟩
  · exact ⟨'+', -k, rfl, Or.inl rfl, by simp, by simp [lin], fun c => by simp [lin]⟩
  · exact ⟨'#', k, rfl, Or.inr rfl, id_fn, rfl, fun c => rfl⟩
  · exact ⟨'#', -k, rfl, Or.inr rfl, by simp, by simp [lin], fun c => by simp [lin]⟩
where id_fn {p : Prop} : p → p := fun h => h

/-- Adding a constant on the right. -/
theorem join_left (n : Nat) (id : Nat) (hid : id ≤ 1) (o : Char) (ho : isAddsub o = true) (k c x : Int64) (hk : k ≠ 0) (l : Tree) (hl : Form id k c l) :
    ∃ t, squashT (n + 1) (Tree.mk o l (.val x)) = .ok t ∧ Form id (lin o k 0) (lin o c x) t := by
  obtain ⟨p, y, h1, hp, h2⟩ := mk_val ho l x
  rw [h1, squash_flat _ _ _ _ (ne_op_val y)]
  obtain ⟨t, h3, h4⟩ := tail_left (squashT n) id hid p hp k c y hk l hl
  refine ⟨t, h3, ?_⟩
  have e : lin p k 0 = lin o k 0 := by
    rcases (isAddsub_iff o).1 ho with rfl | rfl | rfl | rfl <;> rcases hp with rfl | rfl <;> first | rfl | (have := h2 0; have h5 := h2 k; simp [lin] at * <;> grind)
  rw [e, h2] at h4
  exact h4

/-- Adding a constant on the left. -/
theorem join_right (n : Nat) (id : Nat) (hid : id ≤ 1) (o : Char) (ho : isAddsub o = true) (k c x : Int64) (hk : k ≠ 0) (r : Tree) (hr : Form id k c r) :
    ∃ t, squashT (n + 2) (Tree.mk o (.val x) r) = .ok t ∧ Form id (lin o 0 k) (lin o x c) t := by
  have sum : ∀ (q : Char) (k c : Int64), q = '+' ∨ q = '#' → k ≠ 0 →
      ∃ t, squashT (n + 2) (Tree.mk o (.val x) (.op q (.var id k) (.val c))) = .ok t ∧ Form id (lin o 0 (lin q k 0)) (lin o x (lin q 0 c)) t := by
    intro q k c hq hk
    have hm : Tree.mk o (.val x) (.op q (.var id k) (.val c)) = .op o (.val x) (.op q (.var id k) (.val c)) := by
      rcases (isAddsub_iff o).1 ho with rfl | rfl | rfl | rfl <;> rfl
    obtain ⟨p, k', c', h1, hp, hk', h2, h3⟩ : ∃ p k' c', rotT (Tree.op o (.val x) (.op q (.var id k) (.val c))).flat.length (.op o (.val x) (.op q (.var id k) (.val c))) =
        .ok (true, .op p (.op '+' (.val x) (.var id k')) (.val c')) ∧ (p = '+' ∨ p = '#') ∧ k' ≠ 0 ∧ lin p k' 0 = lin o 0 (lin q k 0) ∧ lin p x c' = lin o x (lin q 0 c) := by
      rcases (isAddsub_iff o).1 ho with rfl | rfl | rfl | rfl <;> rcases hq with rfl | rfl
      · exact ⟨_, _, _, rfl, by simp, by simpa using hk, by simp [lin], by simp [lin]⟩
      all_goals exact ⟨_, _, _, rfl, by simp, by simpa using hk, by simp [lin], by simp [lin] <;> grind⟩
    rw [hm, squashT, if_neg (by simp [Tree.flat]), h1]
    simp only [ok_bind, if_true, resortT]
    obtain ⟨l, h4, h5⟩ := tail_flip (squashT n) id hid '+' (Or.inl rfl) k' x hk'
    rw [squash_flat _ _ _ _ (ne_op_var id k'), h4, ok_bind]
    have e : lin '+' 0 k' = k' ∧ lin '+' x 0 = x := by simp [lin]
    rw [e.1, e.2] at h5
    obtain ⟨t, h6, h7⟩ := tail_left (squashT (n + 1)) id hid p hp k' x c' hk' l h5
    rw [h2, h3] at h7
    exact ⟨t, h6, h7⟩
  rcases hr with ⟨rfl, rfl⟩ | ⟨_, rfl⟩ | ⟨_, rfl⟩
  · obtain ⟨p, j, h1, hp, hj, h2, h3⟩ := mk_var ho (.val x) id k
    rw [h1, squash_flat _ _ _ _ (ne_op_var id j)]
    obtain ⟨t, h4, h5⟩ := tail_flip (squashT (n + 1)) id hid p hp j x (hj hk)
    rw [h2, h3] at h5
    exact ⟨t, h4, h5⟩
  · have := sum '+' k c (Or.inl rfl) hk
    have e : lin '+' k 0 = k ∧ lin '+' 0 c = c := by simp [lin]
    rwa [e.1, e.2] at this
  · have := sum '#' (-k) (-c) (Or.inr rfl) (by simpa using hk)
    have e : lin '#' (-k) 0 = k ∧ lin '#' 0 (-c) = c := by simp [lin]
    rwa [e.1, e.2] at this

/-- The result is final. -/
theorem form_fixed (n : Nat) (id : Nat) (hid : id ≤ 1) (k c : Int64) (hk : k ≠ 0) (t : Tree) (h : Form id k c t) (h1 : t.flat.length - 1 ≠ 0) :
    ∃ t', squashT (n + 1) t = .ok t' ∧ Form id k c t' := by
  rcases h with ⟨rfl, rfl⟩ | ⟨_, rfl⟩ | ⟨_, rfl⟩
  · exact absurd rfl h1
  · rw [squash_flat _ _ _ _ (ne_op_val c)]
    have := tail_var (squashT n) id hid '+' (Or.inl rfl) k c hk
    have e : lin '+' k 0 = k ∧ lin '+' 0 c = c := by simp [lin]
    rwa [e.1, e.2] at this
  · rw [squash_flat _ _ _ _ (ne_op_val (-c))]
    have := tail_var (squashT n) id hid '#' (Or.inr rfl) (-k) (-c) (by simpa using hk)
    have e : lin '#' (-k) 0 = k ∧ lin '#' 0 (-c) = c := by simp [lin]
    rwa [e.1, e.2] at this

/-! ## Simplification -/

theorem Sole.ne_zero {id : Nat} {ρ : Nat → Int64 → Int64} {k c : Int64} {t : Tree} (h : Sole id ρ k c t) : k ≠ 0 := by
  induction h with
  | var k hk => exact hk
  | pos _ _ ih => exact ih
  | neg _ e _ ih => subst e; simpa using ih
  | left ho _ _ _ e _ ih => subst e; rcases (isAddsub_iff _).1 ho with rfl | rfl | rfl | rfl <;> simpa [lin] using ih
  | right ho _ _ _ e _ ih => subst e; rcases (isAddsub_iff _).1 ho with rfl | rfl | rfl | rfl <;> simpa [lin] using ih

theorem Sole.eval {id : Nat} {ρ : Nat → Int64 → Int64} {k c : Int64} {t : Tree} (h : Sole id ρ k c t) (h0 : ρ id 0 = 0) : t.eval ρ = some c := by
  induction h with
  | var k hk => simp [Tree.eval, h0]
  | pos _ _ ih => simp [Tree.eval, ih, applyPrefix, Except.toOption]
  | neg _ _ e ih => subst e; simp [Tree.eval, ih, applyPrefix, Except.toOption]
  | left ho _ _ hx _ e ih => subst e; simp [Tree.eval, ih, hx, applyOp_lin ho, Except.toOption]
  | right ho _ _ hx _ e ih => subst e; simp [Tree.eval, ih, hx, applyOp_lin ho, Except.toOption]

theorem sole_mk {id : Nat} {ρ : Nat → Int64 → Int64} {o : Char} (ho : isAddsub o = true) {k c : Int64} {l r : Tree} (h : Sole id ρ k c (.op o l r)) :
    Sole id ρ k c (Tree.mk o l r) := by
  cases h with
  | @left _ k0 c0 _ _ _ _ x _ hl hF hx e1 e2 =>
    cases r with
    | val y =>
      simp only [Tree.eval, Option.some.injEq] at hx
      subst hx
      rcases (isAddsub_iff o).1 ho with rfl | rfl | rfl | rfl
      · exact .left ho hl trivial rfl e1 e2
      · exact .left (x := -y) rfl hl trivial rfl (by rw [e1]; simp [lin]) (by rw [e2]; simp [lin]; grind)
      · exact .left ho hl trivial rfl e1 e2
      · exact .left (x := -y) rfl hl trivial rfl (by rw [e1]; simp [lin]) (by rw [e2]; simp [lin]; grind)
    | var _ _ => exact hF.elim
    | idx _ _ _ => exact hF.elim
    | arr _ _ => exact hF.elim
    | _ =>
      rcases (isAddsub_iff o).1 ho with rfl | rfl | rfl | rfl <;> exact .left rfl hl hF hx e1 e2
  | @right _ k0 c0 _ _ _ _ x _ hr hF hx e1 e2 =>
    cases r with
    | val y => cases hr
    | idx _ _ _ => cases hr
    | arr _ _ => cases hr
    | var id' k' =>
      cases hr with
      | var _ hk =>
        rcases (isAddsub_iff o).1 ho with rfl | rfl | rfl | rfl
        · exact .right ho (.var _ hk) hF hx e1 e2
        · exact .right rfl (.var (-k0) (by simpa using hk)) hF hx (by rw [e1]; simp [lin]) (by rw [e2]; simp [lin])
        · exact .right ho (.var _ hk) hF hx e1 e2
        · exact .right rfl (.var (-k0) (by simpa using hk)) hF hx (by rw [e1]; simp [lin]) (by rw [e2]; simp [lin])
    | _ =>
      rcases (isAddsub_iff o).1 ho with rfl | rfl | rfl | rfl <;> exact .right rfl hr hF hx e1 e2

/-- The negated operator. -/
theorem negated {o : Char} (ho : isAddsub o = true) : ∃ o', fuseSignOp '-' o = .ok o' ∧ isAddsub o' = true ∧ ∀ a b, lin o' a b = -lin o a b := by
  rcases (isAddsub_iff o).1 ho with rfl | rfl | rfl | rfl
  · exact ⟨'#', rfl, rfl, fun a b => by simp [lin]⟩
  · exact ⟨'~', rfl, rfl, fun a b => by simp [lin]⟩
  · exact ⟨'+', rfl, rfl, fun a b => by simp [lin]⟩
  · exact ⟨'-', rfl, rfl, fun a b => by simp [lin]⟩

theorem rpu_sole {id : Nat} {ρ : Nat → Int64 → Int64} : ∀ (m n : Nat) (k c : Int64) (t : Tree), t.flat.length ≤ m → t.flat.length ≤ n → Sole id ρ k c t →
    ∃ t', rpuT n t = .ok t' ∧ Sole id ρ k c t' ∧ t'.flat.length ≤ t.flat.length ∧ (∀ s u, t' ≠ .pre s u) ∧ ((∃ s u, t = .pre s u) → t'.flat.length < t.flat.length)
  | 0, n, k, c, t, h, _, _ => by have := t.flat_pos; omega
  | m + 1, 0, k, c, t, _, h, _ => by have := t.flat_pos; omega
  | m + 1, n + 1, k, c, t, hm, hn, hS => by
    cases hS with
    | var k hk => exact ⟨_, rfl, .var k hk, Nat.le_refl _, by simp, by simp⟩
    | left ho hl hF hx e1 e2 => exact ⟨_, rfl, .left ho hl hF hx e1 e2, Nat.le_refl _, by simp, by simp⟩
    | right ho hl hF hx e1 e2 => exact ⟨_, rfl, .right ho hl hF hx e1 e2, Nat.le_refl _, by simp, by simp⟩
    | @pos _ _ t hS hfl =>
      have hlen := length_pre '+' t
      cases hS with
      | var _ hk => exact ⟨.var id k, rfl, .var _ hk, by simp [Tree.flat], by simp, by simp [Tree.flat]⟩
      | @pos _ _ t1 hS hfl =>
        have hlen1 := length_pre '+' t1
        obtain ⟨t', h1, h2, h3, h4, h5⟩ := rpu_sole m n k c t1 (by omega) (by omega) hS
        refine ⟨t', ?_, h2, by omega, h4, fun _ => by omega⟩
        rw [rpuT, if_pos rfl, h1]
      | @neg k1 c1 _ _ t1 hS e3 e4 =>
        have hlen1 := length_pre '-' t1
        obtain ⟨t', h1, h2, h3, h4, h5⟩ := rpu_sole m n k c (.pre '-' t1) (by omega) (by omega) (.neg hS e3 e4)
        refine ⟨t', ?_, h2, by omega, h4, fun _ => by omega⟩
        rw [rpuT, if_neg (by decide), if_pos (by rfl)]
        exact h1
      | @left o k1 c1 _ _ l r x ho hl hF hx e3 e4 =>
        have ho' : o = '+' ∨ o = '-' := by
          rcases (isAddsub_iff o).1 ho with rfl | rfl | rfl | rfl
          · exact Or.inl rfl
          · exact Or.inr rfl
          · cases hfl
          · cases hfl
        have := Tree.length_mk o l r
        have := length_op o l r
        refine ⟨Tree.mk o l r, ?_, sole_mk ho (.left ho hl hF hx e3 e4), by omega, ?_, fun _ => by omega⟩
        · rcases ho' with rfl | rfl <;> rfl
        · intro s u; unfold Tree.mk; split
          · split <;> simp
          · split
            · split <;> simp
            · simp
      | @right o k1 c1 _ _ l r x ho hl hF hx e3 e4 =>
        have ho' : o = '+' ∨ o = '-' := by
          rcases (isAddsub_iff o).1 ho with rfl | rfl | rfl | rfl
          · exact Or.inl rfl
          · exact Or.inr rfl
          · cases hfl
          · cases hfl
        have := Tree.length_mk o l r
        have := length_op o l r
        refine ⟨Tree.mk o l r, ?_, sole_mk ho (.right ho hl hF hx e3 e4), by omega, ?_, fun _ => by omega⟩
        · rcases ho' with rfl | rfl <;> rfl
        · intro s u; unfold Tree.mk; split
          · split <;> simp
          · split
            · split <;> simp
            · simp
    | @neg k0 c0 _ _ t hS e1 e2 =>
      have hlen := length_pre '-' t
      cases hS with
      | var _ hk =>
        refine ⟨.var id (-k0), rfl, ?_, by simp [Tree.flat], by simp, by simp [Tree.flat]⟩
        rw [e1, e2]; exact .var _ (by simpa using hk)
      | @pos _ _ t1 hS hfl =>
        have hlen1 := length_pre '+' t1
        have hlen2 := length_pre '-' t1
        obtain ⟨t', h1, h2, h3, h4, h5⟩ := rpu_sole m n k c (.pre '-' t1) (by omega) (by omega) (.neg hS e1 e2)
        refine ⟨t', ?_, h2, by omega, h4, fun _ => by omega⟩
        rw [rpuT, if_neg (by decide), if_pos (by rfl)]
        exact h1
      | @neg k1 c1 _ _ t1 hS e3 e4 =>
        have hlen1 := length_pre '-' t1
        obtain ⟨t', h1, h2, h3, h4, h5⟩ := rpu_sole m n k1 c1 t1 (by omega) (by omega) hS
        refine ⟨t', ?_, ?_, by omega, h4, fun _ => by omega⟩
        · rw [rpuT, if_pos rfl, h1]
        · rw [e1, e2, e3, e4]; simpa using h2
      | @left o k1 c1 _ _ l r x ho hl hF hx e3 e4 =>
        obtain ⟨o', h1, h2, h3⟩ := negated ho
        have hc : isComm2 o '-' = true := by rcases (isAddsub_iff o).1 ho with rfl | rfl | rfl | rfl <;> rfl
        have := Tree.length_mk o' l r
        have := length_op o l r
        refine ⟨Tree.mk o' l r, ?_, sole_mk h2 (.left h2 hl hF hx ?_ ?_), by omega, ?_, fun _ => by omega⟩
        · rw [rpuT, if_pos hc, h1]; rfl
        · rw [e1, e3, h3]
        · rw [e2, e4, h3]
        · intro s u; unfold Tree.mk; split
          · split <;> simp
          · split
            · split <;> simp
            · simp
      | @right o k1 c1 _ _ l r x ho hl hF hx e3 e4 =>
        obtain ⟨o', h1, h2, h3⟩ := negated ho
        have hc : isComm2 o '-' = true := by rcases (isAddsub_iff o).1 ho with rfl | rfl | rfl | rfl <;> rfl
        have := Tree.length_mk o' l r
        have := length_op o l r
        refine ⟨Tree.mk o' l r, ?_, sole_mk h2 (.right h2 hl hF hx ?_ ?_), by omega, ?_, fun _ => by omega⟩
        · rw [rpuT, if_pos hc, h1]; rfl
        · rw [e1, e3, h3]
        · rw [e2, e4, h3]
        · intro s u; unfold Tree.mk; split
          · split <;> simp
          · split
            · split <;> simp
            · simp

theorem Sim.eq_ok {r : Except Err (List Tok)} {m : Except Err Tree} {t : Tree} (h : Sim r m) (hm : m = .ok t) : r = .ok t.flat := by
  subst hm
  rcases h with h | h
  · cases h
  · exact h

/-- `simplify_rpn` at a binary operator whose operands are known. -/
theorem simplify_op (n : Nat) (o : Char) (l r l' r' u v : Tree) (hl : simplify n l.flat = .ok l'.flat) (hr : simplify n r.flat = .ok r'.flat) (hu : rpbT o l' r' = .ok u)
    (hv : squashT u.flat.length u = .ok v) (h1 : u.flat.length - 1 ≠ 0) : simplify (n + 1) (Tree.op o l r).flat = .ok v.flat := by
  have hlp := l.flat_pos
  have hlen := length_op o l r
  have hlen2 : (Tree.op o l r).flat.length - 1 - (r.flat.length + 1) + 1 = l.flat.length := by omega
  have hlen3 : (Tree.op o l r).flat.length - 1 = l.flat.length + r.flat.length := by omega
  rw [simplify, if_neg (Tree.flat_ne _)]
  simp only []
  rw [if_neg (by omega), get_root, ok_bind, show (Tree.op o l r).root = (.op o, r.flat.length + 1) from rfl]
  simp only []
  have hd : downBinary (simplify n) (Tree.op o l r).flat ((Tree.op o l r).flat.length - 1) (.op o, r.flat.length + 1) = .ok u.flat := by
    unfold downBinary
    rw [sub_ok (by simp only []; omega), ok_bind]
    simp only []
    rw [hlen2, take_op_left _ _ _ _ rfl, take_op_right _ _ _ _ _ hlen3 rfl, hl, ok_bind, hr, ok_bind]
    exact (rpb_mirror o l' r').eq_ok hu
  rw [hd, ok_bind, if_neg h1]
  exact (squash_mirror _ u).eq_ok hv

theorem rpb_plain {o : Char} (ho : isAddsub o = true) (l r : Tree) (hl : ∀ s u, l ≠ .pre s u) (hr : ∀ s u, r ≠ .pre s u) : rpbT o l r = .ok (Tree.mk o l r) := by
  have e : ∀ t : Tree, (∀ s u, t ≠ .pre s u) → strip t = ('+', t) := by
    intro t ht
    cases t with
    | pre s u => exact absurd rfl (ht s u)
    | _ => rfl
  unfold rpbT
  rw [if_pos ho, e l hl, e r hr]
  rcases (isAddsub_iff o).1 ho with rfl | rfl | rfl | rfl <;> rfl

/-- Simplification of such a tree. -/
theorem sole_spec {id : Nat} (hid : id ≤ 1) {ρ : Nat → Int64 → Int64} : ∀ (m fuel : Nat) (k c : Int64) (t : Tree), t.flat.length ≤ m → 2 * t.flat.length ≤ fuel → Sole id ρ k c t →
    ∃ t', simplify fuel t.flat = .ok t'.flat ∧ Form id k c t'
  | 0, fuel, k, c, t, h, _, _ => by have := t.flat_pos; omega
  | m + 1, 0, k, c, t, _, h, _ => by have := t.flat_pos; omega
  | m + 1, fuel + 1, k, c, t, hm, hf, hS => by
    have hne := hS.ne_zero
    have unary : ∀ (s : Char) (t : Tree), (Tree.pre s t).flat.length ≤ m + 1 → 2 * (Tree.pre s t).flat.length ≤ fuel + 1 → Sole id ρ k c (.pre s t) →
        ∃ t', simplify (fuel + 1) (Tree.pre s t).flat = .ok t'.flat ∧ Form id k c t' := by
      intro s t hm hf hS
      have hlen := length_pre s t
      have hp := t.flat_pos
      obtain ⟨u, h1, h2, h3, h4, h5⟩ := rpu_sole _ (Tree.pre s t).flat.length k c (.pre s t) (Nat.le_refl _) (Nat.le_refl _) hS
      have h6 := h5 ⟨_, _, rfl⟩
      have hup := u.flat_pos
      rw [simplify, if_neg (Tree.flat_ne _)]
      simp only []
      rw [if_neg (by omega), get_root, ok_bind, show (Tree.pre s t).root = (.pre s, 1) from rfl]
      simp only []
      have hr := (rpu_mirror (Tree.pre s t).flat.length (.pre s t)).eq_ok h1
      by_cases hu : u.flat.length - 1 = 0
      · have hd : downUnary (simplify fuel) (Tree.pre s t).flat = .ok u.flat := by
          unfold downUnary
          rw [hr, ok_bind]
          simp only []
          rw [if_pos hu]
        rw [hd, ok_bind, if_pos hu]
        refine ⟨u, rfl, ?_⟩
        rcases (length_one u).1 hu with ⟨v, rfl⟩ | ⟨id', c', rfl⟩
        · cases h2
        · cases h2; exact Or.inl ⟨rfl, rfl⟩
      · obtain ⟨v, h7, h8⟩ := sole_spec hid m fuel k c u (by omega) (by omega) h2
        have hd : downUnary (simplify fuel) (Tree.pre s t).flat = .ok v.flat := by
          unfold downUnary
          rw [hr, ok_bind]
          simp only []
          rw [if_neg hu, get_root, ok_bind]
          cases u with
          | pre s' w => exact absurd rfl (h4 s' w)
          | arr _ _ => cases h2
          | _ => exact h7
        rw [hd, ok_bind]
        by_cases hv : v.flat.length - 1 = 0
        · rw [if_pos hv]; exact ⟨v, rfl, h8⟩
        · rw [if_neg hv]
          obtain ⟨n, hn⟩ : ∃ n, v.flat.length = n + 1 := ⟨v.flat.length - 1, by have := v.flat_pos; omega⟩
          obtain ⟨w, h9, h10⟩ := form_fixed n id hid k c hne v h8 hv
          refine ⟨w, ?_, h10⟩
          have := (squash_mirror (n + 1) v).eq_ok h9
          rw [hn]; exact this
    cases hS with
    | var k hk => exact ⟨_, rfl, Or.inl ⟨rfl, rfl⟩⟩
    | @left o k0 c0 _ _ l r x ho hl hF hx e1 e2 =>
      have hlen := length_op o l r
      have hlp := l.flat_pos
      have hrp := r.flat_pos
      obtain ⟨l', h1, h2⟩ := sole_spec hid m fuel k0 c0 l (by omega) (by omega) hl
      have h3 := fold_spec ρ _ r fuel x (Nat.le_refl _) (by omega) hF hx
      have hlm := Tree.length_mk o l' (.val x)
      have hlp' := l'.flat_pos
      obtain ⟨n, hn⟩ : ∃ n, (Tree.mk o l' (.val x)).flat.length = n + 1 := ⟨_, by rw [hlm]⟩
      obtain ⟨t, h4, h5⟩ := join_left n id hid o ho k0 c0 x hl.ne_zero l' h2
      refine ⟨t, simplify_op fuel o l r l' (.val x) _ t h1 h3 (rpb_plain ho _ _ (form_ne h2) (by simp)) (by rw [hn]; exact h4) (by omega), ?_⟩
      rw [e1, e2]; exact h5
    | @right o k0 c0 _ _ l r x ho hr hF hx e1 e2 =>
      have hlen := length_op o l r
      have hlp := l.flat_pos
      have hrp := r.flat_pos
      obtain ⟨r', h1, h2⟩ := sole_spec hid m fuel k0 c0 r (by omega) (by omega) hr
      have h3 := fold_spec ρ _ l fuel x (Nat.le_refl _) (by omega) hF hx
      have hlm := Tree.length_mk o (.val x) r'
      have hlp' := r'.flat_pos
      obtain ⟨n, hn⟩ : ∃ n, (Tree.mk o (.val x) r').flat.length = n + 2 := ⟨r'.flat.length, by rw [hlm]; simp [Tree.flat]; omega⟩
      obtain ⟨t, h4, h5⟩ := join_right n id hid o ho k0 c0 x hr.ne_zero r' h2
      refine ⟨t, simplify_op fuel o l r (.val x) r' _ t h3 h1 (rpb_plain ho _ _ (by simp) (form_ne h2)) (by rw [hn]; exact h4) (by omega), ?_⟩
      rw [e1, e2]; exact h5
    | @pos _ _ t hS hfl => exact unary '+' t hm hf (.pos hS hfl)
    | @neg k0 c0 _ _ t hS e1 e2 => exact unary '-' t hm hf (.neg hS e1 e2)

/-- The tokens of a variable plus a constant. -/
def plusTokens (id : Nat) (c : Int64) : List Token := if c = 0 then [.var id 1] else [.var id 1, .val c, .op '+']

theorem canonize_sole {id : Nat} (hid : id ≤ 1) {ρ : Nat → Int64 → Int64} {c : Int64} {t : Tree} (h : Sole id ρ 1 c t) :
    ∃ ts, canonize t.flat = .ok ts ∧ ts.map Prod.fst = plusTokens id c := by
  obtain ⟨t', h1, h2⟩ := sole_spec hid _ (2 * t.flat.length + 1) 1 c t (Nat.le_refl _) (by omega) h
  unfold canonize
  rw [h1, ok_bind, canon_mirror]
  unfold plusTokens
  rcases h2 with ⟨rfl, rfl⟩ | ⟨hc, rfl⟩ | ⟨hc, rfl⟩
  · exact ⟨_, rfl, rfl⟩
  · rw [if_neg hc]; exact ⟨_, rfl, rfl⟩
  · rw [if_neg hc]
    refine ⟨_, rfl, ?_⟩
    simp [Tree.flat]

end Nd.Eval
