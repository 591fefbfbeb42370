import Verif.Proof.Trees
/-!
# The simplifier on trees

The functions of the simplifier work on reverse Polish notation.  Here they are restated on trees; `simplify_mirror` and `canonize_mirror` say that they agree with the
model.  The error `.parse` stands for a result that is not the notation of any tree.
-/
namespace Nd.Eval
open Nd Nd.Spec

/-- The model does what the function on trees does, unless the result is not a tree. -/
def Sim (r : Except Err (List Tok)) (m : Except Err Tree) : Prop := m = .error .parse ∨ r = m.map Tree.flat

theorem Sim.of_eq {r : Except Err (List Tok)} {m : Except Err Tree} (h : r = m.map Tree.flat) : Sim r m := Or.inr h

theorem Sim.ok (t : Tree) : Sim (.ok t.flat) (.ok t) := Or.inr rfl

theorem Sim.err (e : Err) : Sim (.error e) (.error e) := Or.inr rfl

theorem Sim.bind {r : Except Err (List Tok)} {m : Except Err Tree} {f : List Tok → Except Err (List Tok)} {g : Tree → Except Err Tree} (h : Sim r m)
    (hf : ∀ t, m = .ok t → Sim (f t.flat) (g t)) : Sim (r >>= f) (m >>= g) := by
  rcases h with h | h
  · subst h; exact Or.inl rfl
  · subst h
    cases m with
    | error e => exact Sim.err e
    | ok t => exact hf t rfl

/-- The same with any intermediate result. -/
theorem Sim.bind' {α : Type} (x : Except Err α) {f : α → Except Err (List Tok)} {g : α → Except Err Tree} (hf : ∀ a, x = .ok a → Sim (f a) (g a)) :
    Sim (x >>= f) (x >>= g) := by
  cases x with
  | error e => exact Sim.err e
  | ok a => exact hf a rfl

/-! ## Accessing nodes -/

theorem get_root (t : Tree) : get t.flat (t.flat.length - 1) = .ok t.root := by
  rw [t.flat_eq]; exact get_at _ _ _ _ (by simp)

theorem length_op (o : Char) (l r : Tree) : (Tree.op o l r).flat.length = l.flat.length + r.flat.length + 1 := by simp [Tree.flat, Nat.add_assoc]

theorem length_pre (c : Char) (t : Tree) : (Tree.pre c t).flat.length = t.flat.length + 1 := by simp [Tree.flat]

theorem flat_op (o : Char) (l r : Tree) : (Tree.op o l r).flat = l.flat ++ r.flat ++ [(.op o, r.flat.length + 1)] := rfl

theorem get_op (o : Char) (l r : Tree) (i : Nat) (h : i = l.flat.length + r.flat.length) : get (Tree.op o l r).flat i = .ok (.op o, r.flat.length + 1) := by
  rw [flat_op]; exact get_at _ _ _ _ (by simp [h])

theorem get_right (o : Char) (l r : Tree) (i : Nat) (h : i + 1 = l.flat.length + r.flat.length) : get (Tree.op o l r).flat i = .ok r.root := by
  have hp := r.flat_pos
  have : (Tree.op o l r).flat = (l.flat ++ r.stem) ++ r.root :: [(.op o, r.flat.length + 1)] := by
    rw [flat_op, r.flat_eq]; simp
  rw [this]
  refine get_at _ _ _ _ ?_
  have : r.flat.length = r.stem.length + 1 := by rw [r.flat_eq]; simp
  simp; omega

theorem get_left (l : Tree) (rest : List Tok) (i : Nat) (h : i + 1 = l.flat.length) : get (l.flat ++ rest) i = .ok l.root := by
  have : l.flat ++ rest = l.stem ++ l.root :: rest := by rw [l.flat_eq]; simp
  rw [this]
  refine get_at _ _ _ _ ?_
  have : l.flat.length = l.stem.length + 1 := by rw [l.flat_eq]; simp
  omega

theorem put_left (l : Tree) (rest : List Tok) (x : Tok) (i : Nat) (h : i + 1 = l.flat.length) : put (l.flat ++ rest) i x = .ok (l.stem ++ x :: rest) := by
  have : l.flat ++ rest = l.stem ++ l.root :: rest := by rw [l.flat_eq]; simp
  rw [this]
  refine put_at _ _ _ _ _ ?_
  have : l.flat.length = l.stem.length + 1 := by rw [l.flat_eq]; simp
  omega

theorem length_one (t : Tree) : t.flat.length - 1 = 0 ↔ (∃ v, t = .val v) ∨ ∃ id c, t = .var id c := by
  cases t with
  | val v => simp [Tree.flat]
  | var id c => simp [Tree.flat]
  | idx id c u => have := u.flat_pos; simp [Tree.flat]; exact u.flat_ne
  | arr id u => have := u.flat_pos; simp [Tree.flat]; exact u.flat_ne
  | pre c u => have := u.flat_pos; simp [Tree.flat]; exact u.flat_ne
  | op o l r => have := l.flat_pos; simp [Tree.flat]; intro h; exact absurd h l.flat_ne

/-- The operator tokens are at the roots of operator nodes, and so on. -/
theorem root_op {t : Tree} {c : Char} {n : Nat} (h : t.root = (.op c, n)) : ∃ l r, t = .op c l r ∧ n = r.flat.length + 1 := by
  cases t <;> simp [Tree.root] at h
  obtain ⟨rfl, rfl⟩ := h
  exact ⟨_, _, rfl, rfl⟩

theorem length_of_atom {t : Tree} (h : t.stem = []) : t.flat.length = 1 := by rw [t.flat_eq, h]; rfl

/-! ## Rotation -/

namespace Tree

/-- The coefficient of a variable is replaced. -/
def setCoef : Tree → Int64 → Tree
  | var id _, c => var id c
  | idx id _ t, c => idx id c t
  | t, _ => t

end Tree

/-- `rotate_left` -/
def rotT : Nat → Tree → Except Err (Bool × Tree)
  | 0, _ => .error .diverge
  | n + 1, t =>
    match t with
    | .op o1 x (.op o2 y z) =>
      if isComm2 o1 o2 then do
        let (s1, p1) ← peelSign o1
        let (s2, p2) ← peelSign o2
        let a ← fuseSign3 s2 p1 p2
        let b ← fuseSignOp s1 (← fuseSign2 s2 p1)
        let r ← rotT n (Tree.mk b (Tree.mk a x y) z)
        .ok (true, r.2)
      else .ok (false, t)
    | t => .ok (false, t)

theorem rotR_at (A z : List Tok) (x : Tok) (i : Nat) (h : i = A.length) : rotR (A ++ z ++ [x]) i = .ok (A ++ x :: z) := by
  subst h
  unfold rotR rotL
  have h1 : (A ++ z ++ [x]).length - A.length - 1 = z.length := by simp
  rw [if_pos (by simp), h1, if_pos (by simp)]
  congr 1
  rw [List.append_assoc]
  simp

theorem root_op_some {t : Tree} (h : ∀ o l r, t ≠ .op o l r) : ∀ c n, t.root ≠ (.op c, n) := by
  intro c n hr
  obtain ⟨l, r, rfl, _⟩ := root_op hr
  exact h _ _ _ rfl

/-- The mirror image of `rotate_left`. -/
theorem rotate_mirror : ∀ (n : Nat) (t : Tree), t.flat.length - 1 ≠ 0 → rotateLeft n t.flat = (rotT n t).map (fun p => (p.1, p.2.flat))
  | 0, t, _ => rfl
  | n + 1, t, h1 => by
    have hp := t.flat_pos
    rw [rotateLeft, sub_ok hp, ok_bind, sub_ok (by omega), ok_bind]
    obtain ⟨a, ha⟩ : ∃ a, get t.flat (t.flat.length - 1 - 1) = .ok a := by
      unfold get
      rw [List.getElem?_eq_getElem (by omega)]
      exact ⟨_, rfl⟩
    rw [ha, ok_bind, get_root, ok_bind]
    cases t with
    | val v => exact absurd rfl h1
    | var id c => exact absurd rfl h1
    | idx id c u => obtain ⟨a1, a2⟩ := a; cases a1 <;> rfl
    | arr id u => obtain ⟨a1, a2⟩ := a; cases a1 <;> rfl
    | pre c u => obtain ⟨a1, a2⟩ := a; cases a1 <;> rfl
    | op o1 x r =>
      have hxp := x.flat_pos
      have hrp := r.flat_pos
      have ha' : a = r.root := by
        rw [get_right o1 x r _ (by rw [length_op]; omega)] at ha
        exact (Except.ok.inj ha).symm
      subst ha'
      cases r with
      | op o2 y z =>
        have hyp := y.flat_pos
        have hzp := z.flat_pos
        simp only [Tree.root, rotT]
        by_cases hc : isComm2 o1 o2 = true
        · simp only [hc, if_true]
          have hflat : (Tree.op o1 x (.op o2 y z)).flat = (x.flat ++ y.flat) ++ (z.flat ++ [(.op o2, z.flat.length + 1)]) ++ [(.op o1, (Tree.op o2 y z).flat.length + 1)] := by
            simp [Tree.flat]
          have hl : (Tree.op o1 x (.op o2 y z)).flat.length = x.flat.length + (y.flat.length + z.flat.length + 1) + 1 := by rw [length_op, length_op]
          rw [hl, sub_ok (by omega), ok_bind, hflat, rotR_at _ _ _ _ (by rw [List.length_append]; omega), ok_bind]
          cases h2 : peelSign o1 with
          | error e => simp [err_bind, Except.map]
          | ok q1 =>
          cases h3 : peelSign o2 with
          | error e => simp [ok_bind, err_bind, Except.map]
          | ok q2 =>
          obtain ⟨s1, p1⟩ := q1
          obtain ⟨s2, p2⟩ := q2
          simp only [ok_bind]
          cases h4 : fuseSign3 s2 p1 p2 with
          | error e => simp [err_bind, Except.map]
          | ok a =>
          simp only [ok_bind]
          cases h5 : fuseSign2 s2 p1 with
          | error e => simp [err_bind, Except.map]
          | ok q =>
          simp only [ok_bind]
          cases h6 : fuseSignOp s1 q with
          | error e => simp [err_bind, Except.map]
          | ok b =>
          simp only [ok_bind]
          rw [sub_ok (by omega), ok_bind, sub_ok (by rw [length_op]; omega), ok_bind]
          rw [saveAndFlip_node a x y _ _ _ _ (by omega) (by rw [length_op]; omega), ok_bind]
          rw [← List.append_assoc, saveAndFlip_node b (Tree.mk a x y) z _ _ _ _ (by rw [Tree.length_mk]; omega) rfl, ok_bind, List.append_nil]
          have hml : (Tree.mk b (Tree.mk a x y) z).flat.length - 1 ≠ 0 := by rw [Tree.length_mk]; omega
          rw [rotate_mirror n _ hml]
          cases rotT n (Tree.mk b (Tree.mk a x y) z) with
          | error e => rfl
          | ok p => rfl
        · have hc' : isComm2 o1 o2 = false := by simpa using hc
          simp only [hc', Bool.false_eq_true, if_false]
          rfl
      | val _ | var _ _ | idx _ _ _ | arr _ _ | pre _ _ => rfl

/-! ## Sorting -/

/-- The second arm of `sort_tokens`. -/
def sortPlainT (o : Char) (l r : Tree) : Except Err Tree :=
  if isComm1 o then
    if sortRank l.root.1 > sortRank r.root.1 then .ok (Tree.mk (swapOpHands o) r l)
    else
      match l.root.1, r.root.1 with
      | .var x xc, .var y yc => if x = y then do .ok (l.setCoef (← applyOp o xc yc)) else .ok (.op o l r)
      | _, _ => .ok (.op o l r)
  else .ok (.op o l r)

/-- Replaces the coefficient of a plain variable, which is the right child of the new node. -/
def mergeT (a : Char) (X x : Tree) (c : Int64) : Except Err Tree :=
  match x with
  | .var id _ => .ok (Tree.mk a X (.var id c))
  | _ => .error .parse

/-- The first arm of `sort_tokens`. -/
def sortChainedT (o1 : Char) (X x : Tree) (o2 : Char) (r : Tree) : Except Err (Bool × Tree) := do
  let (s1, p1) ← peelSign o1
  let (s2, p2) ← peelSign o2
  let a ← fuseSign2Op s1 s2 p1
  let b ← fuseSign2 s1 p2
  if sortRank x.root.1 > sortRank r.root.1 then .ok (true, Tree.mk a (Tree.mk b X r) x)
  else
    match x.root.1, r.root.1 with
    | .var i xc, .var j yc => if i = j then do .ok (false, ← mergeT a X x (← applyOp b xc yc)) else .ok (false, .op o2 (.op o1 X x) r)
    | _, _ => .ok (false, .op o2 (.op o1 X x) r)

/-- `sort_tokens` -/
def sortT : Tree → Except Err (Bool × Tree)
  | .op o (.op o1 X x) r => if isComm2 o1 o then sortChainedT o1 X x o r else (sortPlainT o (.op o1 X x) r).map (fun t => (false, t))
  | .op o l r => (sortPlainT o l r).map (fun t => (false, t))
  | t => .ok (false, t)

theorem rotL_zero (a b : List Tok) (c : Tok) (n : Nat) (h : n = a.length) : rotL (a ++ b ++ [c]) 0 n = .ok (b ++ c :: a) := by
  subst h
  unfold rotL
  rw [if_pos (by simp)]
  simp

theorem rotL_one (a b : List Tok) (c : Tok) (n : Nat) (h : n = b.length) : rotL (b ++ c :: a) n 1 = .ok (b ++ a ++ [c]) := by
  subst h
  unfold rotL
  rw [if_pos (by simp)]
  simp

theorem rotL_mid (X x r : List Tok) (p q : Tok) (i n : Nat) (hi : i = X.length) (hn : n = x.length + 1) :
    rotL (X ++ x ++ [p] ++ r ++ [q]) i n = .ok (X ++ r ++ q :: (x ++ [p])) := by
  subst hi hn
  unfold rotL
  have h1 : X ++ x ++ [p] ++ r ++ [q] = X ++ ((x ++ [p]) ++ (r ++ [q])) := by simp
  rw [h1, if_pos (by simp), List.take_left, List.drop_left]
  have h2 : x.length + 1 = (x ++ [p]).length := by simp
  rw [h2, List.take_left, List.drop_left]
  simp

theorem setCoef_flat {l : Tree} {id : Nat} {c : Int64} (h : l.root.1 = .var id c) (c' : Int64) : (l.setCoef c').flat = l.stem ++ [(.var id c', l.root.2)] := by
  cases l <;> simp [Tree.root] at h
  · obtain ⟨rfl, rfl⟩ := h; simp [Tree.setCoef, Tree.flat, Tree.stem, Tree.root]
  · obtain ⟨rfl, rfl⟩ := h; simp [Tree.setCoef, Tree.flat, Tree.stem, Tree.root]

/-- The mirror image of the second arm of `sort_tokens`. -/
theorem sortPlain_mirror (o : Char) (l r : Tree) (root lhs : Nat) (hr : root = l.flat.length + r.flat.length) (hl : lhs + 1 = l.flat.length) :
    sortPlain (Tree.op o l r).flat root lhs l.root.1 r.root.1 o = (sortPlainT o l r).map (fun t => (false, t.flat)) := by
  have hlp := l.flat_pos
  have hrp := r.flat_pos
  unfold sortPlain sortPlainT
  by_cases hc : isComm1 o = true
  · rw [if_pos hc, if_pos hc]
    by_cases hgt : sortRank l.root.1 > sortRank r.root.1
    · rw [if_pos hgt, if_pos hgt]
      simp only [hl]
      rw [sub_ok (by omega), ok_bind, flat_op, rotL_zero _ _ _ _ rfl, ok_bind, rotL_one _ _ _ _ (by omega), ok_bind,
        saveAndFlip_node (swapOpHands o) r l _ _ _ _ (by omega) rfl, ok_bind, List.append_nil]
      rfl
    · rw [if_neg hgt, if_neg hgt]
      have hgl : get (Tree.op o l r).flat lhs = .ok l.root := by
        rw [flat_op, List.append_assoc]; exact get_left l _ _ hl
      have hpl : ∀ x, put (Tree.op o l r).flat lhs x = .ok (l.stem ++ x :: (r.flat ++ [(.op o, r.flat.length + 1)])) := by
        intro x; rw [flat_op, List.append_assoc]; exact put_left l _ _ _ hl
      rw [hgl]
      cases h1 : l.root.1 with
      | var i xc =>
        cases h2 : r.root.1 with
        | var j yc =>
          simp only []
          by_cases hij : i = j
          · rw [if_pos hij, if_pos hij, ok_bind]
            cases h3 : applyOp o xc yc with
            | error e => rfl
            | ok c' =>
              simp only [ok_bind, hpl]
              have h4 : l.stem ++ (Token.var i c', l.root.2) :: (r.flat ++ [(Token.op o, r.flat.length + 1)]) = (l.setCoef c').flat ++ (r.flat ++ [(Token.op o, r.flat.length + 1)]) := by
                rw [setCoef_flat h1]; simp
              have h5 : lhs + 1 = (l.setCoef c').flat.length := by
                rw [setCoef_flat h1]
                have : l.flat.length = l.stem.length + 1 := by rw [l.flat_eq]; simp
                simp; omega
              rw [h4, h5, List.take_left]
              rfl
          · rw [if_neg hij, if_neg hij]; rfl
        | _ => rfl
      | _ => rfl
  · rw [if_neg hc, if_neg hc]; rfl

/-- The mirror image of the first arm of `sort_tokens`. -/
theorem sortChained_mirror (o1 : Char) (X x : Tree) (o2 : Char) (r : Tree) (root lhs llhs : Nat)
    (hr : root = X.flat.length + x.flat.length + 1 + r.flat.length) (hl : lhs = X.flat.length + x.flat.length) (hll : llhs = x.flat.length + 1) :
    sortChainedT o1 X x o2 r = .error .parse ∨
      sortChained (Tree.op o2 (.op o1 X x) r).flat root lhs llhs o1 r.root.1 o2 = (sortChainedT o1 X x o2 r).map (fun p => (p.1, p.2.flat)) := by
  have hXp := X.flat_pos
  have hxp := x.flat_pos
  have hrp := r.flat_pos
  have hxs : x.flat.length = x.stem.length + 1 := by rw [x.flat_eq]; simp
  unfold sortChained sortChainedT
  cases h2 : peelSign o1 with
  | error e => exact Or.inr rfl
  | ok q1 =>
  cases h3 : peelSign o2 with
  | error e => exact Or.inr rfl
  | ok q2 =>
  obtain ⟨s1, p1⟩ := q1
  obtain ⟨s2, p2⟩ := q2
  simp only [ok_bind]
  cases h4 : fuseSign2Op s1 s2 p1 with
  | error e => exact Or.inr rfl
  | ok a =>
  cases h5 : fuseSign2 s1 p2 with
  | error e => exact Or.inr rfl
  | ok b =>
  simp only [ok_bind]
  rw [sub_ok (by omega), ok_bind]
  have hflat : (Tree.op o2 (.op o1 X x) r).flat = X.flat ++ x.flat ++ [(.op o1, x.flat.length + 1)] ++ r.flat ++ [(.op o2, r.flat.length + 1)] := by
    simp [Tree.flat]
  have hflat2 : (Tree.op o2 (.op o1 X x) r).flat = (X.flat ++ x.stem) ++ x.root :: ([(.op o1, x.flat.length + 1)] ++ r.flat ++ [(.op o2, r.flat.length + 1)]) := by
    rw [hflat, x.flat_eq]; simp
  have hgx : get (Tree.op o2 (.op o1 X x) r).flat (lhs - 1) = .ok x.root := by
    rw [hflat2]; exact get_at _ _ _ _ (by simp; omega)
  rw [hgx, ok_bind]
  by_cases hgt : sortRank x.root.1 > sortRank r.root.1
  · rw [if_pos hgt, if_pos hgt, hflat, sub_ok (by omega), ok_bind, rotL_mid _ _ _ _ _ _ _ (by omega) hll, ok_bind, sub_ok (by omega), ok_bind, sub_ok (by omega), ok_bind,
      saveAndFlip_node b X r _ _ _ _ (by omega) (by omega), ok_bind, ← List.append_assoc, saveAndFlip_node a (Tree.mk b X r) x _ _ _ _ (by rw [Tree.length_mk]; omega) (by omega),
      ok_bind, List.append_nil]
    exact Or.inr rfl
  · rw [if_neg hgt, if_neg hgt]
    rcases hxroot : x.root with ⟨xt, xn⟩
    cases xt with
    | var i xc =>
      cases h6 : r.root.1 with
      | var j yc =>
        simp only []
        by_cases hij : i = j
        · rw [if_pos hij, if_pos hij]
          cases h7 : applyOp b xc yc with
          | error e => exact Or.inr rfl
          | ok c' =>
            simp only [ok_bind]
            cases x with
            | var id k =>
              simp only [Tree.root, Prod.mk.injEq, Token.var.injEq] at hxroot
              obtain ⟨⟨rfl, rfl⟩, rfl⟩ := hxroot
              right
              rw [hflat2, put_at _ _ _ _ _ (by simp; omega), ok_bind]
              have h8 : X.flat ++ (Tree.var id k).stem ++ (Token.var id c', 0) :: ([(Token.op o1, (Tree.var id k).flat.length + 1)] ++ r.flat ++ [(Token.op o2, r.flat.length + 1)]) =
                  X.flat ++ (Tree.var id c').flat ++ (Token.op o1, 2) :: (r.flat ++ [(Token.op o2, r.flat.length + 1)]) := by
                simp [Tree.flat, Tree.stem]
              rw [h8, saveAndFlip_node a X (.var id c') _ _ lhs 2 (by simp [Tree.flat] at hl ⊢; omega) rfl, ok_bind]
              have h9 : lhs + 1 = (Tree.mk a X (.var id c')).flat.length := by
                rw [Tree.length_mk]; simp [Tree.flat] at hl ⊢; omega
              rw [h9, List.take_left]
              rfl
            | _ => exact Or.inl rfl
        · rw [if_neg hij, if_neg hij]; exact Or.inr rfl
      | _ => exact Or.inr rfl
    | _ => exact Or.inr rfl

/-- The mirror image of `sort_tokens`. -/
theorem sort_mirror (t : Tree) : sortT t = .error .parse ∨ sortTokens t.flat = (sortT t).map (fun p => (p.1, p.2.flat)) := by
  have hp := t.flat_pos
  by_cases h0 : t.flat.length - 1 = 0
  · right
    unfold sortTokens
    rw [sub_ok hp, ok_bind, if_pos h0]
    rcases (length_one t).1 h0 with ⟨v, rfl⟩ | ⟨id, c, rfl⟩ <;> rfl
  · unfold sortTokens
    rw [sub_ok hp, ok_bind, if_neg h0, get_root, ok_bind]
    have other : ∀ (k : Nat), k ≤ t.flat.length - 1 → (∀ c, t.root.1 ≠ .op c) → t.root.2 = k → 1 ≤ k →
        (do
          let lhs ← sub (t.flat.length - 1) t.root.2
          let l ← get t.flat lhs
          let y ← get t.flat (t.flat.length - 1 - 1)
          match l, t.root.1 with
          | (.op op1, llhs), .op op2 => if isComm2 op1 op2 = true then sortChained t.flat (t.flat.length - 1) lhs llhs op1 y.1 op2 else sortPlain t.flat (t.flat.length - 1) lhs (.op op1) y.1 op2
          | (x, _), .op op => sortPlain t.flat (t.flat.length - 1) lhs x y.1 op
          | _, _ => .ok (false, t.flat)) = .ok (false, t.flat) := by
      intro k hk hop hrk hk1
      rw [hrk, sub_ok hk, ok_bind]
      obtain ⟨a, ha⟩ : ∃ a, get t.flat (t.flat.length - 1 - k) = .ok a := by
        unfold get; rw [List.getElem?_eq_getElem (by omega)]; exact ⟨_, rfl⟩
      obtain ⟨b, hb⟩ : ∃ a, get t.flat (t.flat.length - 1 - 1) = .ok a := by
        unfold get; rw [List.getElem?_eq_getElem (by omega)]; exact ⟨_, rfl⟩
      rw [ha, ok_bind, hb, ok_bind]
      obtain ⟨a1, a2⟩ := a
      cases hr : t.root.1 with
      | op c => exact absurd hr (hop c)
      | _ => cases a1 <;> rfl
    cases t with
    | val v => exact absurd rfl h0
    | var id c => exact absurd rfl h0
    | idx id c u => right; refine (other 1 (by omega) (by simp [Tree.root]) rfl (by omega)).trans rfl
    | pre c u => right; refine (other 1 (by omega) (by simp [Tree.root]) rfl (by omega)).trans rfl
    | arr id u =>
      right
      have := u.flat_pos
      refine (other u.flat.length (by simp [Tree.flat]) (by simp [Tree.root]) rfl (by omega)).trans rfl
    | op o l r =>
      have hlp := l.flat_pos
      have hrp := r.flat_pos
      have hlen := length_op o l r
      simp only [Tree.root]
      rw [sub_ok (by omega), ok_bind]
      have hgl : get (Tree.op o l r).flat ((Tree.op o l r).flat.length - 1 - (r.flat.length + 1)) = .ok l.root := by
        rw [hlen, flat_op, List.append_assoc]; exact get_left l _ _ (by omega)
      rw [hgl, ok_bind, get_right o l r _ (by omega), ok_bind]
      have plain := sortPlain_mirror o l r ((Tree.op o l r).flat.length - 1) ((Tree.op o l r).flat.length - 1 - (r.flat.length + 1)) (by omega) (by omega)
      have hmap : ∀ m : Except Err Tree, m.map (fun t => (false, t.flat)) = (m.map (fun t => (false, t))).map (fun p => (p.1, p.2.flat)) := by
        intro m; cases m <;> rfl
      rw [hmap] at plain
      cases l with
      | op o1 X x =>
        simp only [Tree.root, sortT]
        by_cases hc : isComm2 o1 o = true
        · rw [if_pos hc, if_pos hc]
          have := length_op o1 X x
          exact sortChained_mirror o1 X x o r _ _ _ (by omega) (by omega) rfl
        · rw [if_neg hc, if_neg hc]
          exact Or.inr plain
      | val _ | var _ _ | idx _ _ _ | arr _ _ | pre _ _ => exact Or.inr plain

/-! ## Folding -/

/-- `fold_constants` -/
def foldT : Tree → Except Err Tree
  | .var id c => if c = 0 then .ok (.val 0) else .ok (.var id c)
  | .op o (.val x) (.val y) => do .ok (.val (← applyOp o x y))
  | .op o (.var id c) (.val x) => if o = '*' then .ok (.var id (c * x)) else .ok (.op o (.var id c) (.val x))
  | .op o (.idx id c i) (.val x) => if o = '*' then .ok (.idx id (c * x) i) else .ok (.op o (.idx id c i) (.val x))
  | .op o (.op o1 X (.val x)) (.val y) =>
    if isComm2 o1 o then do
      let (s1, p1) ← peelSign o1
      let (s2, p2) ← peelSign o
      let a ← fuseSignOp (← fuseSign2 s1 s2) p1
      let b ← fuseSign3 s1 p1 p2
      .ok (Tree.mk a X (.val (← applyOp b x y)))
    else .ok (.op o (.op o1 X (.val x)) (.val y))
  | t => .ok t

theorem get_lhs (o : Char) (l r : Tree) : get (Tree.op o l r).flat ((Tree.op o l r).flat.length - 1 - (r.flat.length + 1)) = .ok l.root := by
  have hlp := l.flat_pos
  rw [length_op, flat_op, List.append_assoc]; exact get_left l _ _ (by omega)

/-- The beginning of `fold_constants` and `remove_identity` at nodes that are not binary operators. -/
theorem not_op {β : Type} (t : Tree) (h0 : t.flat.length - 1 ≠ 0) (h : ∀ o l r, t ≠ .op o l r) (f : Nat → Tok → Tok → Except Err β) :
    (do
      let lhs ← sub (t.flat.length - 1) t.root.2
      let l ← get t.flat lhs
      let y ← get t.flat (t.flat.length - 1 - 1)
      f lhs l y) = f (t.flat.length - 1 - t.root.2) ((t.flat[t.flat.length - 1 - t.root.2]?).getD (Token.val 0, 0)) ((t.flat[t.flat.length - 1 - 1]?).getD (Token.val 0, 0)) := by
  have hp := t.flat_pos
  have hk : t.root.2 ≤ t.flat.length - 1 := by
    cases t with
    | op o l r => exact absurd rfl (h o l r)
    | _ => simp only [Tree.root, Tree.flat, List.length_append, List.length_cons, List.length_nil] at * <;> omega
  have key : ∀ i, i < t.flat.length → get t.flat i = .ok ((t.flat[i]?).getD (Token.val 0, 0)) := by
    intro i hi
    unfold get
    rw [List.getElem?_eq_getElem hi]
    rfl
  rw [sub_ok hk, ok_bind, key _ (by omega), ok_bind, key _ (by omega), ok_bind]

/-- The mirror image of `fold_constants`. -/
theorem fold_mirror (t : Tree) : foldConstants t.flat = (foldT t).map Tree.flat := by
  have hp := t.flat_pos
  unfold foldConstants
  rw [sub_ok hp, ok_bind]
  by_cases h0 : t.flat.length - 1 = 0
  · rw [if_pos h0]
    rcases (length_one t).1 h0 with ⟨v, rfl⟩ | ⟨id, c, rfl⟩
    · rfl
    · simp only [Tree.flat, foldT]
      split <;> rfl
  · rw [if_neg h0, get_root, ok_bind]
    cases t with
    | val v => exact absurd rfl h0
    | var id c => exact absurd rfl h0
    | idx id c u =>
      rw [not_op _ h0 (by simp)]
      simp only [Tree.root]
      split <;> first | rfl | (rename_i h; cases h)
    | pre c u =>
      rw [not_op _ h0 (by simp)]
      simp only [Tree.root]
      split <;> first | rfl | (rename_i h; cases h)
    | arr id u =>
      rw [not_op _ h0 (by simp)]
      simp only [Tree.root]
      split <;> first | rfl | (rename_i h; cases h)
    | op o l r =>
      have hlp := l.flat_pos
      have hrp := r.flat_pos
      have hlen := length_op o l r
      have hroot : (Tree.op o l r).root.2 = r.flat.length + 1 := rfl
      rw [hroot, sub_ok (by omega), ok_bind, get_lhs, ok_bind, get_right o l r _ (by omega), ok_bind]
      have hput : ∀ x, put (Tree.op o l r).flat ((Tree.op o l r).flat.length - 1 - (r.flat.length + 1)) x = .ok (l.stem ++ x :: (r.flat ++ [(.op o, r.flat.length + 1)])) := by
        intro x; rw [hlen, flat_op, List.append_assoc]; exact put_left l _ _ _ (by omega)
      have htake : ∀ (x : Tok), (l.stem ++ x :: (r.flat ++ [(.op o, r.flat.length + 1)])).take ((Tree.op o l r).flat.length - 1 - (r.flat.length + 1) + 1) = l.stem ++ [x] := by
        intro x
        have h1 : (Tree.op o l r).flat.length - 1 - (r.flat.length + 1) + 1 = (l.stem ++ [x]).length := by
          have : l.flat.length = l.stem.length + 1 := by rw [l.flat_eq]; simp
          simp; omega
        rw [h1, show l.stem ++ x :: (r.flat ++ [(.op o, r.flat.length + 1)]) = (l.stem ++ [x]) ++ (r.flat ++ [(.op o, r.flat.length + 1)]) by simp, List.take_left]
      cases r with
      | val y =>
        cases l with
        | val x =>
          simp only [Tree.root, foldT]
          cases applyOp o x y with
          | error e => rfl
          | ok v => simp only [ok_bind, hput, htake]; rfl
        | var id c =>
          simp only [Tree.root, foldT]
          by_cases ho : o = '*'
          · rw [if_pos ho, if_pos ho, hput, ok_bind, htake]; rfl
          · rw [if_neg ho, if_neg ho]; rfl
        | idx id c i =>
          simp only [Tree.root, foldT]
          by_cases ho : o = '*'
          · rw [if_pos ho, if_pos ho, hput, ok_bind, htake]; rfl
          · rw [if_neg ho, if_neg ho]; rfl
        | arr id i => rfl
        | pre c i => rfl
        | op o1 X x =>
          have hXp := X.flat_pos
          have hxp := x.flat_pos
          have hlen1 := length_op o1 X x
          simp only [Tree.root]
          by_cases hc : isComm2 o1 o = true
          · rw [if_pos hc, sub_ok (by omega), ok_bind]
            have hflat : (Tree.op o (.op o1 X x) (.val y)).flat = (X.flat ++ x.stem) ++ x.root :: ((.op o1, x.flat.length + 1) :: [(.val y, 0), (.op o, 2)]) := by
              simp only [Tree.flat]; rw [x.flat_eq]; simp
            have hxs : x.flat.length = x.stem.length + 1 := by rw [x.flat_eq]; simp
            have hidx : (Tree.op o (.op o1 X x) (.val y)).flat.length - 1 - ((Tree.val y).flat.length + 1) - 1 = (X.flat ++ x.stem).length := by
              simp only [List.length_append]; omega
            have hgx : get (Tree.op o (.op o1 X x) (.val y)).flat ((Tree.op o (.op o1 X x) (.val y)).flat.length - 1 - ((Tree.val y).flat.length + 1) - 1) = .ok x.root := by
              rw [hidx, hflat]; exact get_at _ _ _ _ rfl
            rw [hgx, ok_bind]
            cases x with
            | val x =>
              simp only [Tree.root, foldT, hc, if_true]
              cases h2 : peelSign o1 with
              | error e => rfl
              | ok q1 =>
              cases h3 : peelSign o with
              | error e => rfl
              | ok q2 =>
              obtain ⟨s1, p1⟩ := q1
              obtain ⟨s2, p2⟩ := q2
              simp only [ok_bind]
              cases h4 : fuseSign2 s1 s2 with
              | error e => rfl
              | ok f =>
              simp only [ok_bind]
              cases h5 : fuseSignOp f p1 with
              | error e => rfl
              | ok a =>
              simp only [ok_bind]
              cases h6 : fuseSign3 s1 p1 p2 with
              | error e => rfl
              | ok b =>
              simp only [ok_bind]
              cases h7 : applyOp b x y with
              | error e => rfl
              | ok v =>
              simp only [ok_bind]
              rw [hidx, hflat, put_at _ _ _ _ _ rfl, ok_bind]
              have h8 : X.flat ++ (Tree.val x).stem ++ (Token.val v, 0) :: ((Token.op o1, (Tree.val x).flat.length + 1) :: [(Token.val y, 0), (Token.op o, 2)]) =
                  X.flat ++ (Tree.val v).flat ++ (Token.op o1, 2) :: [(Token.val y, 0), (Token.op o, 2)] := by
                simp [Tree.flat, Tree.stem]
              have h9 : (X.flat ++ (Tree.val x).stem ++ (Tree.val x).root :: ((Token.op o1, (Tree.val x).flat.length + 1) :: [(Token.val y, 0), (Token.op o, 2)])).length - 1 -
                  ((Tree.val y).flat.length + 1) = X.flat.length + (Tree.val v).flat.length := by
                simp [Tree.flat, Tree.stem]
              rw [h8, h9, saveAndFlip_node a X (.val v) _ _ _ 2 rfl rfl, ok_bind]
              have h10 : X.flat.length + (Tree.val v).flat.length + 1 = (Tree.mk a X (.val v)).flat.length := by rw [Tree.length_mk]
              rw [h10, List.take_left]
              rfl
            | _ => rfl
          · rw [if_neg hc]
            cases x with
            | val x => simp only [foldT, hc]; rfl
            | _ => rfl
      | _ =>
        cases l with
        | op o1 X x => cases x <;> rfl
        | _ => rfl

/-! ## Removing identities -/

/-- The sign of the right operand of a node whose left operand vanishes. -/
def idVar (o : Char) (r : Tree) (t : Tree) : Except Err Tree := do
  let (s, p) ← peelSign o
  let p ← fuseSign2 s p
  match r with
  | .val x => .ok (.val (← applyPrefix p x))
  | .var id c => .ok (.var id (← applyPrefix p c))
  | .idx _ _ _ => .error .parse
  | _ => .ok t

/-- The same if the left operand is the element of an array. -/
def idIdx (r : Tree) (t : Tree) : Except Err Tree :=
  match r with
  | .val _ | .var _ _ | .idx _ _ _ => .error .parse
  | _ => .ok t

/-- `remove_identity` -/
def idT : Tree → Except Err Tree
  | .op o l r =>
    if isIdArm r.root.1 o then .ok l
    else
      match l with
      | .op o1 X x => if isZero r.root.1 && (o == '#' || o == '~') && isAddsub o1 then do .ok (Tree.mk (← fuseSignOp '-' o1) X x) else .ok (.op o (.op o1 X x) r)
      | .var id c =>
        if r.root.1 = .val 0 ∧ (o = '#' ∨ o = '~') then .ok (.var id (-c))
        else if c = 0 ∧ isAddsub o then idVar o r (.op o (.var id c) r) else .ok (.op o (.var id c) r)
      | .idx id c i =>
        if r.root.1 = .val 0 ∧ (o = '#' ∨ o = '~') then .ok (.idx id (-c) i)
        else if c = 0 ∧ isAddsub o then idIdx r (.op o (.idx id c i) r) else .ok (.op o (.idx id c i) r)
      | l => .ok (.op o l r)
  | t => .ok t

theorem peel_ok {o : Char} (h : isAddsub o = true) : ∃ s p f, peelSign o = .ok (s, p) ∧ fuseSign2 s p = .ok f := by
  rcases (isAddsub_iff o).1 h with rfl | rfl | rfl | rfl <;> exact ⟨_, _, _, rfl, rfl⟩

/-- The mirror image of `remove_identity`. -/
theorem id_mirror (t : Tree) : Sim (removeIdentity t.flat) (idT t) := by
  have hp := t.flat_pos
  unfold removeIdentity
  rw [sub_ok hp, ok_bind]
  by_cases h0 : t.flat.length - 1 = 0
  · rw [if_pos h0]
    rcases (length_one t).1 h0 with ⟨v, rfl⟩ | ⟨id, c, rfl⟩ <;> exact Sim.ok _
  · rw [if_neg h0, get_root, ok_bind]
    cases t with
    | val v => exact absurd rfl h0
    | var id c => exact absurd rfl h0
    | idx id c u => rw [not_op _ h0 (by simp)]; exact Sim.ok _
    | pre c u => rw [not_op _ h0 (by simp)]; exact Sim.ok _
    | arr id u => rw [not_op _ h0 (by simp)]; exact Sim.ok _
    | op o l r =>
      have hlp := l.flat_pos
      have hrp := r.flat_pos
      have hlen := length_op o l r
      have hroot : (Tree.op o l r).root.2 = r.flat.length + 1 := rfl
      have hroot1 : (Tree.op o l r).root.1 = .op o := rfl
      rw [hroot, hroot1, sub_ok (by omega), ok_bind, get_lhs, ok_bind, get_right o l r _ (by omega), ok_bind]
      have hidx : (Tree.op o l r).flat.length - 1 - (r.flat.length + 1) + 1 = l.flat.length := by omega
      have hput : ∀ x, put (Tree.op o l r).flat ((Tree.op o l r).flat.length - 1 - (r.flat.length + 1)) x = .ok (l.stem ++ x :: (r.flat ++ [(.op o, r.flat.length + 1)])) := by
        intro x; rw [hlen, flat_op, List.append_assoc]; exact put_left l _ _ _ (by omega)
      have htake : ∀ (x : Tok), (l.stem ++ x :: (r.flat ++ [(.op o, r.flat.length + 1)])).take ((Tree.op o l r).flat.length - 1 - (r.flat.length + 1) + 1) = l.stem ++ [x] := by
        intro x
        have h1 : (Tree.op o l r).flat.length - 1 - (r.flat.length + 1) + 1 = (l.stem ++ [x]).length := by
          have : l.flat.length = l.stem.length + 1 := by rw [l.flat_eq]; simp
          simp; omega
        rw [h1, show l.stem ++ x :: (r.flat ++ [(.op o, r.flat.length + 1)]) = (l.stem ++ [x]) ++ (r.flat ++ [(.op o, r.flat.length + 1)]) by simp, List.take_left]
      simp only [idT]
      by_cases harm : isIdArm r.root.1 o = true
      · rw [if_pos harm, if_pos harm, hidx, flat_op, List.append_assoc, List.take_left]
        exact Sim.ok _
      · rw [if_neg harm, if_neg harm]
        cases l with
        | val x => exact Sim.ok _
        | arr id i => exact Sim.ok _
        | pre c i => exact Sim.ok _
        | op o1 X x =>
          rw [show (Tree.op o1 X x).root = (.op o1, x.flat.length + 1) from rfl]
          simp only []
          by_cases hz : (isZero r.root.1 && (o == '#' || o == '~') && isAddsub o1) = true
          · simp only [hz, if_true]
            refine Sim.bind' _ fun a _ => ?_
            have h1 : (Tree.op o (.op o1 X x) r).flat = X.flat ++ x.flat ++ (.op o1, x.flat.length + 1) :: (r.flat ++ [(.op o, r.flat.length + 1)]) := by simp [Tree.flat]
            have := length_op o1 X x
            rw [h1, saveAndFlip_node a X x _ _ _ _ (by rw [← h1]; omega) rfl, ok_bind, ← h1, hidx]
            rw [show (Tree.op o1 X x).flat.length = (Tree.mk a X x).flat.length by rw [Tree.length_mk, length_op], List.take_left]
            exact Sim.ok _
          · simp only [hz]; exact Sim.ok _
        | var id c =>
          rw [show (Tree.var id c).root = (.var id c, 0) from rfl]
          simp only []
          by_cases h1 : r.root.1 = .val 0 ∧ (o = '#' ∨ o = '~')
          · rw [if_pos h1, if_pos h1]
            rw [show applyPrefix '-' c = .ok (-c) from rfl, ok_bind, hput, ok_bind, htake]
            exact Sim.ok (.var id (-c))
          · rw [if_neg h1, if_neg h1]
            by_cases h2 : c = 0 ∧ isAddsub o = true
            · rw [if_pos h2, if_pos h2]
              obtain ⟨s, p, f, h3, h4⟩ := peel_ok h2.2
              unfold idVar
              simp only [h3, ok_bind, h4]
              cases r with
              | val x =>
                refine Sim.bind' _ fun v _ => ?_
                rw [hput, ok_bind, htake]
                exact Sim.ok (.val v)
              | var id' c' =>
                refine Sim.bind' _ fun v _ => ?_
                rw [hput, ok_bind, htake]
                exact Sim.ok (.var id' v)
              | idx _ _ _ => exact Or.inl rfl
              | _ => exact Sim.ok _
            · rw [if_neg h2, if_neg h2]; exact Sim.ok _
        | idx id c i =>
          rw [show (Tree.idx id c i).root = (.var id c, 1) from rfl]
          simp only []
          by_cases h1 : r.root.1 = .val 0 ∧ (o = '#' ∨ o = '~')
          · rw [if_pos h1, if_pos h1]
            rw [show applyPrefix '-' c = .ok (-c) from rfl, ok_bind, hput, ok_bind, htake]
            exact Sim.ok (.idx id (-c) i)
          · rw [if_neg h1, if_neg h1]
            by_cases h2 : c = 0 ∧ isAddsub o = true
            · rw [if_pos h2, if_pos h2]
              obtain ⟨s, p, f, h3, h4⟩ := peel_ok h2.2
              rw [h3, ok_bind]
              rw [h4, ok_bind]
              unfold idIdx
              cases r with
              | val x => exact Or.inl rfl
              | var id' c' => exact Or.inl rfl
              | idx _ _ _ => exact Or.inl rfl
              | _ => exact Sim.ok _
            · rw [if_neg h2, if_neg h2]; exact Sim.ok _

end Nd.Eval
