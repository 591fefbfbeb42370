import Verif.Proof.Mirror
import Verif.Proof.Fold
/-!
# The simplifier on trees, continued
-/
namespace Nd.Eval
open Nd Nd.Spec

/-! ## Sorting -/

def resortT (rec : Tree → Except Err Tree) : Tree → Except Err Tree
  | .op o l r => do .ok (.op o (← rec l) r)
  | _ => .error .parse

/-- `sort_and_squash_tokens` -/
def squashT : Nat → Tree → Except Err Tree
  | 0, _ => .error .diverge
  | n + 1, t =>
    if t.flat.length - 1 = 0 then .ok t
    else do
      let r ← rotT t.flat.length t
      let t ← if r.1 then resortT (squashT n) r.2 else .ok r.2
      let r ← sortT t
      let t ← if r.1 then resortT (squashT n) r.2 else .ok r.2
      idT (← foldT t)

theorem resort_mirror {f : List Tok → Except Err (List Tok)} {g : Tree → Except Err Tree} (h : ∀ t, Sim (f t.flat) (g t)) (t : Tree) :
    Sim (resort f t.flat) (resortT g t) := by
  have hp := t.flat_pos
  cases t with
  | op o l r =>
    have hlp := l.flat_pos
    have hlen := length_op o l r
    unfold resort
    rw [sub_ok hp, ok_bind, get_root, ok_bind, show (Tree.op o l r).root.2 = r.flat.length + 1 from rfl, sub_ok (by omega), ok_bind]
    have h1 : (Tree.op o l r).flat.length - 1 - (r.flat.length + 1) + 1 = l.flat.length := by omega
    rw [h1, flat_op, List.append_assoc, List.take_left, List.drop_left]
    refine Sim.bind (h l) fun t _ => ?_
    rw [← List.append_assoc]
    exact Sim.ok (.op o t r)
  | _ => exact Or.inl rfl

theorem squash_tail {f : List Tok → Except Err (List Tok)} {g : Tree → Except Err Tree} (h : ∀ t, Sim (f t.flat) (g t)) (t : Tree) :
    Sim (do
      let r ← sortTokens t.flat
      let ts ← if r.1 then resort f r.2 else .ok r.2
      removeIdentity (← foldConstants ts))
    (do
      let r ← sortT t
      let t ← if r.1 then resortT g r.2 else .ok r.2
      idT (← foldT t)) := by
  rcases sort_mirror t with h2 | h2
  · rw [h2]; exact Or.inl rfl
  · rw [h2]
    cases h3 : sortT t with
    | error e => exact Sim.err e
    | ok p =>
      obtain ⟨b, t3⟩ := p
      have key : ∀ t4, Sim (do removeIdentity (← foldConstants t4.flat)) (do idT (← foldT t4)) := fun t4 => Sim.bind (Sim.of_eq (fold_mirror t4)) fun t5 _ => id_mirror t5
      cases b with
      | true => exact Sim.bind (resort_mirror h t3) fun t4 _ => key t4
      | false => exact key t3

theorem squash_mirror : ∀ (n : Nat) (t : Tree), Sim (sortAndSquash n t.flat) (squashT n t)
  | 0, t => Sim.err _
  | n + 1, t => by
    have hp := t.flat_pos
    rw [sortAndSquash, squashT, sub_ok hp, ok_bind]
    by_cases h0 : t.flat.length - 1 = 0
    · rw [if_pos h0, if_pos h0]; exact Sim.ok _
    · rw [if_neg h0, if_neg h0, rotate_mirror _ _ h0]
      cases h1 : rotT t.flat.length t with
      | error e => exact Sim.err e
      | ok p =>
        obtain ⟨b, t1⟩ := p
        cases b with
        | true => exact Sim.bind (resort_mirror (squash_mirror n) t1) fun t2 _ => squash_tail (squash_mirror n) t2
        | false => exact squash_tail (squash_mirror n) t1

/-! ## Unary operators -/

/-- `remove_prefix_unary` -/
def rpuT : Nat → Tree → Except Err Tree
  | 0, _ => .error .diverge
  | n + 1, .pre c (.pre s t) =>
    if s = c then rpuT n t
    else if isAddsub s && isAddsub c then do rpuT n (.pre (← fuseSign2 s c) t)
    else do .ok (.pre c (← rpuT n (.pre s t)))
  | _ + 1, .pre c (.val x) => do .ok (.val (← applyPrefix c x))
  | _ + 1, .pre c (.var id k) => if isAddsub c then do .ok (.var id (← applyPrefix c k)) else .ok (.pre c (.var id k))
  | _ + 1, .pre c (.idx id k t) => if isAddsub c then do .ok (.idx id (← applyPrefix c k) t) else .ok (.pre c (.idx id k t))
  | _ + 1, .pre c (.op o l r) => if isComm2 o c then do .ok (Tree.mk (← fuseSignOp c o) l r) else .ok (.pre c (.op o l r))
  | _ + 1, t => .ok t

/-- Other trees are not touched. -/
theorem rpu_keep (fuel : Nat) (t : Tree) (h : ∀ c s, t ≠ .pre c s) : removePrefixUnary (fuel + 1) t.flat = .ok t.flat := by
  have hp := t.flat_pos
  rw [removePrefixUnary, sub_ok hp, ok_bind, get_root, ok_bind]
  have key : ∀ i, i < t.flat.length → ∃ x, get t.flat i = .ok x := by
    intro i hi
    unfold get
    rw [List.getElem?_eq_getElem hi]
    exact ⟨_, rfl⟩
  have hk : t.root.2 ≤ t.flat.length - 1 := by
    cases t with
    | val v => simp [Tree.root]
    | var id c => simp [Tree.root]
    | idx id c s => have := s.flat_pos; simp [Tree.root, Tree.flat]; omega
    | arr id s => simp [Tree.root, Tree.flat]
    | pre c s => exact absurd rfl (h c s)
    | op o l r => have := l.flat_pos; simp [Tree.root, Tree.flat]; omega
  rw [sub_ok hk, ok_bind]
  obtain ⟨x, hx⟩ := key (t.flat.length - 1 - t.root.2) (by omega)
  rw [hx, ok_bind]
  cases t with
  | pre c s => exact absurd rfl (h c s)
  | _ => obtain ⟨x, n⟩ := x; cases x <;> rfl

theorem rpu_mirror : ∀ (n : Nat) (t : Tree), Sim (removePrefixUnary n t.flat) (rpuT n t)
  | 0, t => Sim.err _
  | n + 1, t => by
    cases t with
    | pre c t =>
      cases t with
      | pre s t =>
        rw [rpuT]
        by_cases h1 : s = c
        · subst h1
          rw [if_pos rfl, rpu_same]; exact rpu_mirror n t
        · rw [if_neg h1]
          by_cases h2 : (isAddsub s && isAddsub c) = true
          · rw [if_pos h2]
            simp only [Bool.and_eq_true] at h2
            obtain ⟨f, hf⟩ | ⟨e, he⟩ : (∃ f, fuseSign2 s c = .ok f) ∨ ∃ e, fuseSign2 s c = .error e := by cases fuseSign2 s c <;> simp
            · rw [rpu_fuse n c s t h1 h2.1 h2.2 f hf, hf]
              exact rpu_mirror n _
            · rw [rpu_eq]
              simp only [Tree.root, if_neg h1, h2.1, h2.2, he, Bool.and_self, if_true]
              exact Sim.err e
          · rw [if_neg h2]
            rw [rpu_eq]
            simp only [Tree.root, if_neg h1, h2, take_flat]
            exact Sim.bind (rpu_mirror n _) fun t' _ => Sim.ok (.pre c t')
      | val x =>
        rw [rpu_eq, rpuT]
        exact Sim.bind' _ fun v _ => Sim.ok (.val v)
      | var id k =>
        rw [rpu_eq, rpuT]
        simp only [Tree.root]
        split
        · exact Sim.bind' _ fun v _ => Sim.ok (.var id v)
        · exact Sim.ok _
      | idx id k t =>
        have hp := t.flat_pos
        rw [rpu_eq, rpuT]
        simp only [Tree.root]
        split
        · refine Sim.bind' _ fun v _ => ?_
          have h1 : (Tree.pre c (.idx id k t)).flat = t.flat ++ (.var id k, 1) :: [(.pre c, 1)] := by simp [Tree.flat]
          rw [h1, put_at _ _ _ _ _ (by simp [Tree.flat]), ok_bind]
          have h2 : (Tree.idx id k t).flat.length - 1 + 1 = (t.flat ++ [(Token.var id v, 1)]).length := by simp [Tree.flat]
          rw [h2, show t.flat ++ (Token.var id v, 1) :: [(Token.pre c, 1)] = (t.flat ++ [(Token.var id v, 1)]) ++ [(Token.pre c, 1)] by simp, List.take_left]
          exact Sim.ok (.idx id v t)
        · exact Sim.ok _
      | op o l r =>
        rw [rpuT]
        by_cases h1 : isComm2 o c = true
        · rw [if_pos h1]
          obtain ⟨f, hf⟩ | ⟨e, he⟩ : (∃ f, fuseSignOp c o = .ok f) ∨ ∃ e, fuseSignOp c o = .error e := by cases fuseSignOp c o <;> simp
          · rw [rpu_op_flip n c o l r h1 f hf, hf]; exact Sim.ok _
          · rw [rpu_eq]
            simp only [Tree.root, h1, he, if_true]
            exact Sim.err e
        · rw [if_neg h1, rpu_op_keep _ _ _ _ _ (by simpa using h1)]; exact Sim.ok _
      | arr id t => rw [rpu_eq, rpuT] <;> first | exact Sim.ok _ | simp
    | _ => rw [rpu_keep _ _ (by simp), rpuT] <;> first | exact Sim.ok _ | simp

/-- The unary operator at the root. -/
def strip : Tree → Char × Tree
  | .pre s t => (s, t)
  | t => ('+', t)

/-- `remove_prefix_binary` -/
def rpbT (o : Char) (l r : Tree) : Except Err Tree :=
  if isAddsub o then do .ok (Tree.mk (← gatherSign2 (strip l).1 o (strip r).1) (strip l).2 (strip r).2) else .ok (.op o l r)

theorem rotL_from (X y : List Tok) (p : Tok) (i : Nat) (hi : i = X.length) : rotL (X ++ p :: y) i 1 = .ok (X ++ y ++ [p]) := by
  subst hi
  unfold rotL
  rw [if_pos (by simp), List.take_left, List.drop_left]
  simp

theorem rpb_finish (s1 o s2 : Char) (l r : Tree) (q : Tok) (rest : List Tok) :
    Sim (do
      let ts ← saveAndFlip (l.flat ++ r.flat ++ q :: rest) (l.flat.length + r.flat.length) (.op (← gatherSign2 s1 o s2)) (← sub (l.flat.length + r.flat.length) (l.flat.length - 1))
      .ok (ts.take (l.flat.length + r.flat.length + 1)))
    (do .ok (Tree.mk (← gatherSign2 s1 o s2) l r)) := by
  have hlp := l.flat_pos
  refine Sim.bind' _ fun g _ => ?_
  rw [sub_ok (by omega), ok_bind, saveAndFlip_node g _ _ _ _ _ _ rfl (by omega), ok_bind]
  rw [show l.flat.length + r.flat.length + 1 = (Tree.mk g l r).flat.length by rw [Tree.length_mk], List.take_left]
  exact Sim.ok _

theorem rpb_mirror (o : Char) (l r : Tree) : Sim (removePrefixBinary (Tree.op o l r).flat) (rpbT o l r) := by
  have hlp := l.flat_pos
  have hrp := r.flat_pos
  have hlen := length_op o l r
  unfold removePrefixBinary
  rw [sub_ok (by omega), ok_bind, get_root, ok_bind, show (Tree.op o l r).root.2 = r.flat.length + 1 from rfl, sub_ok (by omega), ok_bind, get_lhs, ok_bind,
    sub_ok (by omega), ok_bind, get_right o l r _ (by omega), ok_bind, show (Tree.op o l r).root.1 = .op o from rfl]
  unfold rpbT
  simp only []
  by_cases ho : isAddsub o = true
  · rw [if_pos ho, if_pos ho]
    cases l with
    | pre s t =>
      have htp := t.flat_pos
      have h1 : (Tree.op o (.pre s t) r).flat = t.flat ++ (.pre s, 1) :: (r.flat ++ [(.op o, r.flat.length + 1)]) := by simp [Tree.flat]
      have h3 := length_pre s t
      rw [show (Tree.pre s t).root = (.pre s, 1) from rfl]
      simp only []
      rw [sub_ok (by omega), ok_bind]
      rw [show (Tree.op o (.pre s t) r).flat.length - 1 - (r.flat.length + 1) - 1 + 1 = t.flat.length by omega]
      rw [show (Tree.op o (.pre s t) r).flat.length - 1 - (r.flat.length + 1) - 1 = t.flat.length - 1 by omega]
      rw [h1, rotL_from _ _ _ _ rfl, ok_bind, ← h1, sub_ok (by omega), ok_bind]
      rw [show (Tree.op o (.pre s t) r).flat.length - 1 - 1 = t.flat.length + r.flat.length by omega]
      simp only [pure_ok, ok_bind]
      cases r with
      | pre s2 t2 =>
        rw [show (Tree.pre s2 t2).root = (.pre s2, 1) from rfl]
        simp only []
        rw [sub_ok (by omega), ok_bind, length_pre]
        rw [show t.flat ++ ((Tree.pre s2 t2).flat ++ [(Token.op o, t2.flat.length + 1 + 1)]) ++ [(Token.pre s, 1)] =
          t.flat ++ t2.flat ++ (Token.pre s2, 1) :: [(Token.op o, t2.flat.length + 1 + 1), (Token.pre s, 1)] by simp [Tree.flat]]
        exact rpb_finish s o s2 t t2 _ _
      | _ =>
        rw [← List.append_assoc, List.append_assoc _ [_] [_]]
        exact rpb_finish s o '+' t _ _ _
    | _ =>
      have hA : ∀ (L : Tree), (Tree.op o L r).flat.length - 1 = L.flat.length + r.flat.length := by intro L; rw [length_op]; rfl
      have hB : ∀ (L : Tree), L.flat.length + r.flat.length - (r.flat.length + 1) = L.flat.length - 1 := by intro L; omega
      simp only [hA, hB, pure_ok, ok_bind]
      cases r with
      | pre s2 t2 =>
        simp only [Tree.root]
        rw [sub_ok (by omega), ok_bind, length_pre]
        rw [show ∀ (L : Tree), (Tree.op o L (.pre s2 t2)).flat = L.flat ++ t2.flat ++ (Token.pre s2, 1) :: [(Token.op o, t2.flat.length + 1 + 1)] by intro L; simp [Tree.flat]]
        exact rpb_finish '+' o s2 _ t2 _ _
      | _ => exact rpb_finish '+' o '+' _ _ _ _
  · rw [if_neg ho, if_neg ho]; exact Sim.ok _

/-! ## Simplification -/

/-- `simplify_down_unary` -/
def downUT (rec : Tree → Except Err Tree) (t : Tree) : Except Err Tree := do
  let t ← rpuT t.flat.length t
  match t with
  | .val _ | .var _ _ => .ok t
  | .arr id s => do .ok (.idx id 1 (← rec s))
  | .pre c s => do
    let s ← rec s
    rpuT (Tree.pre c s).flat.length (.pre c s)
  | t => rec t

/-- `simplify_down_binary` -/
def downBT (rec : Tree → Except Err Tree) (o : Char) (l r : Tree) : Except Err Tree := do
  let l ← rec l
  let r ← rec r
  rpbT o l r

def downT (rec : Tree → Except Err Tree) : Tree → Except Err Tree
  | .pre c t => downUT rec (.pre c t)
  | .arr id t => downUT rec (.arr id t)
  | .op o l r => downBT rec o l r
  | t => .ok t

/-- `simplify_rpn` -/
def simplT : Nat → Tree → Except Err Tree
  | 0, _ => .error .diverge
  | n + 1, t =>
    if t.flat.length - 1 = 0 then .ok t
    else do
      let t ← downT (simplT n) t
      if t.flat.length - 1 = 0 then .ok t else squashT t.flat.length t

theorem downU_mirror {f : List Tok → Except Err (List Tok)} {g : Tree → Except Err Tree} (h : ∀ t, Sim (f t.flat) (g t)) (t : Tree) :
    Sim (downUnary f t.flat) (downUT g t) := by
  unfold downUnary downUT
  refine Sim.bind (rpu_mirror _ _) fun t _ => ?_
  have hp := t.flat_pos
  by_cases h0 : t.flat.length - 1 = 0
  · simp only []
    rw [if_pos h0]
    rcases (length_one t).1 h0 with ⟨v, rfl⟩ | ⟨id, c, rfl⟩ <;> exact Sim.ok _
  · simp only []
    rw [if_neg h0, get_root, ok_bind]
    cases t with
    | val v => exact absurd rfl h0
    | var id c => exact absurd rfl h0
    | arr id s =>
      simp only [Tree.root]
      rw [show (Tree.arr id s).flat.length - 1 = s.flat.length by simp [Tree.flat], show (Tree.arr id s).flat.take s.flat.length = s.flat by simp [Tree.flat]]
      exact Sim.bind (h s) fun s' _ => Sim.ok (.idx id 1 s')
    | pre c s =>
      simp only [Tree.root]
      rw [show (Tree.pre c s).flat.length - 1 = s.flat.length by simp [Tree.flat], show (Tree.pre c s).flat.take s.flat.length = s.flat by simp [Tree.flat]]
      exact Sim.bind (h s) fun s' _ => rpu_mirror _ (.pre c s')
    | idx id c s => exact h _
    | op o l r => exact h _

theorem downB_mirror {f : List Tok → Except Err (List Tok)} {g : Tree → Except Err Tree} (h : ∀ t, Sim (f t.flat) (g t)) (o : Char) (l r : Tree) :
    Sim (downBinary f (Tree.op o l r).flat ((Tree.op o l r).flat.length - 1) (.op o, r.flat.length + 1)) (downBT g o l r) := by
  have hlp := l.flat_pos
  have hlen := length_op o l r
  unfold downBinary downBT
  rw [sub_ok (by simp only []; omega), ok_bind]
  simp only []
  have h1 : (Tree.op o l r).flat.length - 1 - (r.flat.length + 1) + 1 = l.flat.length := by omega
  have h2 : (Tree.op o l r).flat.length - 1 = (l.flat ++ r.flat).length := by simp; omega
  rw [h1, h2, show (Tree.op o l r).flat.take l.flat.length = l.flat by rw [flat_op, List.append_assoc, List.take_left], flat_op, List.take_left, List.drop_left]
  exact Sim.bind (h l) fun l' _ => Sim.bind (h r) fun r' _ => rpb_mirror o l' r'

/-- The mirror image of `simplify_rpn`. -/
theorem simplify_mirror : ∀ (n : Nat) (t : Tree), Sim (simplify n t.flat) (simplT n t)
  | 0, t => Sim.err _
  | n + 1, t => by
    have hp := t.flat_pos
    rw [simplify, if_neg t.flat_ne, simplT]
    simp only []
    by_cases h0 : t.flat.length - 1 = 0
    · rw [if_pos h0, if_pos h0]; exact Sim.ok _
    · rw [if_neg h0, if_neg h0, get_root, ok_bind]
      have key : ∀ (a : Except Err (List Tok)), Sim a (downT (simplT n) t) →
          Sim (a >>= fun ts => if ts.length - 1 = 0 then .ok ts else sortAndSquash ts.length ts)
            (downT (simplT n) t >>= fun t => if t.flat.length - 1 = 0 then .ok t else squashT t.flat.length t) := by
        intro a ha
        refine Sim.bind ha fun t' _ => ?_
        split
        · exact Sim.ok _
        · exact squash_mirror _ _
      cases t with
      | val v => exact absurd rfl h0
      | var id c => exact absurd rfl h0
      | idx id c s => exact key _ (Sim.ok _)
      | arr id s => exact key _ (downU_mirror (simplify_mirror n) _)
      | pre c s => exact key _ (downU_mirror (simplify_mirror n) _)
      | op o l r => exact key _ (downB_mirror (simplify_mirror n) _ _ _)

/-! ## Signs -/

def flippableT : Tree → Bool
  | .pre c _ => c == '+' || c == '-'
  | .val _ | .var _ _ | .idx _ _ _ => true
  | .op o l r => isAddsub o && flippableT l && flippableT r
  | .arr _ _ => false

/-- `flip_leaf_signs` -/
def flipT : Tree → Except Err Tree
  | .val x => .ok (.val (-x))
  | .pre s t => do .ok (.pre (← fuseSign2 '-' s) t)
  | .var id c => .ok (.var id (-c))
  | .idx id c t => .ok (.idx id (-c) t)
  | .op o l r => if isAddsub o then do .ok (.op o (← flipT l) (← flipT r)) else .error .panic
  | .arr _ _ => .error .panic

/-- The first step of `canonize_signs` -/
def flipRootT : Tree → Except Err Tree
  | .op o l r =>
    if o = '#' ∨ o = '~' then
      if flippableT (.op o l r) then do .ok (.op (← peelSign o).2 (← flipT l) (← flipT r)) else .ok (.op o l r)
    else .ok (.op o l r)
  | t => .ok t

/-- `canonize_signs` -/
def canonT : Nat → Tree → Except Err Tree
  | 0, _ => .error .diverge
  | n + 1, t => do
    match ← flipRootT t with
    | .pre c s => .ok (.pre c (← canonT n s))
    | .idx id c s => .ok (.idx id c (← canonT n s))
    | .op o l r => .ok (.op o (← canonT n l) (← canonT n r))
    | t => .ok t

/-- `canonize_rpn` -/
def canonizeT (t : Tree) : Except Err Tree := do
  let t ← simplT (2 * t.flat.length + 1) t
  canonT t.flat.length t

theorem take_op_left (o : Char) (l r : Tree) (i : Nat) (h : i = l.flat.length) : (Tree.op o l r).flat.take i = l.flat := by
  rw [h, flat_op, List.append_assoc, List.take_left]

theorem take_op_right (o : Char) (l r : Tree) (i j : Nat) (hi : i = l.flat.length + r.flat.length) (hj : j = l.flat.length) : ((Tree.op o l r).flat.take i).drop j = r.flat := by
  rw [hi, hj, flat_op, show l.flat.length + r.flat.length = (l.flat ++ r.flat).length by simp, List.take_left, List.drop_left]

theorem flippable_mirror : ∀ (n : Nat) (t : Tree), t.flat.length ≤ n → isFlippable n t.flat = .ok (flippableT t)
  | 0, t, h => by have := t.flat_pos; omega
  | n + 1, t, h => by
    have hp := t.flat_pos
    rw [isFlippable, sub_ok hp, ok_bind, get_root, ok_bind]
    cases t with
    | op o l r =>
      have hlp := l.flat_pos
      have hrp := r.flat_pos
      have hlen := length_op o l r
      rw [hlen] at h
      simp only [Tree.root, flippableT]
      by_cases ho : isAddsub o = true
      · rw [if_pos ho, sub_ok (by omega), ok_bind, take_op_left _ _ _ _ (by omega), take_op_right _ _ _ _ _ (by omega) (by omega),
          flippable_mirror n l (by omega), ok_bind, flippable_mirror n r (by omega), ho]
        cases flippableT l <;> simp
      · rw [if_neg ho]; simp [ho]
    | _ => rfl

theorem flipT_length : ∀ (t t' : Tree), flipT t = .ok t' → t'.flat.length = t.flat.length
  | .val x, t', h => by cases h; rfl
  | .pre s t, t', h => by
    simp only [flipT] at h
    cases h1 : fuseSign2 '-' s with
    | error e => rw [h1] at h; cases h
    | ok f => rw [h1] at h; cases h; simp [Tree.flat]
  | .var id c, t', h => by cases h; rfl
  | .idx id c t, t', h => by cases h; simp [Tree.flat]
  | .arr id t, t', h => by cases h
  | .op o l r, t', h => by
    simp only [flipT] at h
    split at h
    · cases h1 : flipT l with
      | error e => rw [h1] at h; cases h
      | ok l' =>
        cases h2 : flipT r with
        | error e => rw [h1, h2] at h; cases h
        | ok r' => rw [h1, h2] at h; cases h; rw [length_op, length_op, flipT_length l l' h1, flipT_length r r' h2]
    · cases h

theorem flip_mirror : ∀ (n : Nat) (t : Tree), t.flat.length ≤ n → flipLeafSigns n t.flat = (flipT t).map Tree.flat
  | 0, t, h => by have := t.flat_pos; omega
  | n + 1, t, h => by
    have hp := t.flat_pos
    rw [flipLeafSigns, sub_ok hp, ok_bind, get_root, ok_bind]
    have hput : ∀ x, put t.flat (t.flat.length - 1) x = .ok (t.stem ++ [x]) := by
      intro x; rw [t.flat_eq]; exact put_at _ _ _ _ _ (by simp)
    cases t with
    | val x => simp only [Tree.root]; rw [show applyPrefix '-' x = .ok (-x) from rfl, ok_bind, hput]; rfl
    | var id c => simp only [Tree.root]; rw [show applyPrefix '-' c = .ok (-c) from rfl, ok_bind, hput]; rfl
    | idx id c t => simp only [Tree.root]; rw [show applyPrefix '-' c = .ok (-c) from rfl, ok_bind, hput]; rfl
    | pre s t =>
      simp only [Tree.root, flipT]
      cases fuseSign2 '-' s with
      | error e => rfl
      | ok f => rw [ok_bind, hput]; rfl
    | arr id t => rfl
    | op o l r =>
      have hlp := l.flat_pos
      have hrp := r.flat_pos
      have hlen := length_op o l r
      rw [hlen] at h
      simp only [Tree.root, flipT]
      by_cases ho : isAddsub o = true
      · rw [if_pos ho, if_pos ho, sub_ok (by omega), ok_bind, take_op_left _ _ _ _ (by omega), take_op_right _ _ _ _ _ (by omega) (by omega),
          flip_mirror n l (by omega), flip_mirror n r (by omega)]
        cases h1 : flipT l with
        | error e => rfl
        | ok l' =>
          cases h2 : flipT r with
          | error e => rfl
          | ok r' =>
            have := flipT_length r r' h2
            simp only [Except.map, ok_bind, flat_op, this]
      · rw [if_neg ho, if_neg ho]; rfl

theorem flipRoot_mirror (t : Tree) : flipRoot t.flat (t.flat.length - 1) t.root = (flipRootT t).map Tree.flat := by
  cases t with
  | op o l r =>
    have hlen := length_op o l r
    unfold flipRoot
    simp only [Tree.root, flipRootT]
    by_cases ho : o = '#' ∨ o = '~'
    · rw [if_pos ho, if_pos ho, flippable_mirror _ _ (Nat.le_refl _), ok_bind]
      by_cases hf : flippableT (.op o l r) = true
      · rw [if_pos hf, if_pos hf, flip_mirror _ _ (Nat.le_refl _)]
        have ha : isAddsub o = true := by rcases ho with rfl | rfl <;> rfl
        obtain ⟨s, p, _, hp, _⟩ := peel_ok ha
        simp only [flipT, ha, if_true, hp, ok_bind]
        cases h1 : flipT l with
        | error e => rfl
        | ok l' =>
          cases h2 : flipT r with
          | error e => rfl
          | ok r' =>
            have := flipT_length r r' h2
            have hl' := flipT_length l l' h1
            simp only [Except.map, ok_bind, flat_op, this]
            rw [put_at _ _ _ _ _ (by rw [List.length_append]; simp; omega)]
      · rw [if_neg hf, if_neg hf]; rfl
    · rw [if_neg ho, if_neg ho]; rfl
  | _ => rfl

theorem flipRootT_length (t t' : Tree) (h : flipRootT t = .ok t') : t'.flat.length = t.flat.length := by
  cases t with
  | op o l r =>
    simp only [flipRootT] at h
    split at h
    · split at h
      · cases h0 : peelSign o with
        | error e => rw [h0] at h; cases h
        | ok p =>
          cases h1 : flipT l with
          | error e => rw [h0, h1] at h; cases h
          | ok l' =>
            cases h2 : flipT r with
            | error e => rw [h0, h1, h2] at h; cases h
            | ok r' => rw [h0, h1, h2] at h; cases h; rw [length_op, length_op, flipT_length l l' h1, flipT_length r r' h2]
      · cases h; rfl
    · cases h; rfl
  | _ => cases h; rfl

theorem canonT_length : ∀ (n : Nat) (t t' : Tree), canonT n t = .ok t' → t'.flat.length = t.flat.length
  | 0, t, t', h => by cases h
  | n + 1, t, t', h => by
    rw [canonT] at h
    cases h0 : flipRootT t with
    | error e => rw [h0] at h; cases h
    | ok t0 =>
      rw [← flipRootT_length t t0 h0]
      rw [h0, ok_bind] at h
      cases t0 with
      | pre c s =>
        simp only [] at h
        cases h1 : canonT n s with
        | error e => rw [h1] at h; cases h
        | ok s' => rw [h1] at h; cases h; simp [Tree.flat, canonT_length n s s' h1]
      | idx id c s =>
        simp only [] at h
        cases h1 : canonT n s with
        | error e => rw [h1] at h; cases h
        | ok s' => rw [h1] at h; cases h; simp [Tree.flat, canonT_length n s s' h1]
      | op o l r =>
        simp only [] at h
        cases h1 : canonT n l with
        | error e => rw [h1] at h; cases h
        | ok l' =>
          cases h2 : canonT n r with
          | error e => rw [h1, h2] at h; cases h
          | ok r' => rw [h1, h2] at h; cases h; rw [length_op, length_op, canonT_length n l l' h1, canonT_length n r r' h2]
      | _ => cases h; rfl

theorem canon_mirror : ∀ (n : Nat) (t : Tree), canonizeSigns n t.flat = (canonT n t).map Tree.flat
  | 0, t => rfl
  | n + 1, t => by
    have hp := t.flat_pos
    rw [canonizeSigns, canonT, sub_ok hp, ok_bind]
    by_cases h0 : t.flat.length - 1 = 0
    · rw [if_pos h0]
      rcases (length_one t).1 h0 with ⟨v, rfl⟩ | ⟨id, c, rfl⟩ <;> rfl
    · rw [if_neg h0, get_root, ok_bind, flipRoot_mirror]
      cases h1 : flipRootT t with
      | error e => rfl
      | ok t0 =>
        rw [← flipRootT_length t t0 h1]
        simp only [Except.map, ok_bind]
        rw [get_root, ok_bind]
        cases t0 with
        | val v => rfl
        | var id c => rfl
        | arr id s => rfl
        | pre c s =>
          simp only [Tree.root, if_true]
          rw [show (Tree.pre c s).flat.length - 1 = s.flat.length by simp [Tree.flat], show (Tree.pre c s).flat.take s.flat.length = s.flat by simp [Tree.flat], canon_mirror n s]
          cases canonT n s <;> rfl
        | idx id c s =>
          simp only [Tree.root, if_true]
          rw [show (Tree.idx id c s).flat.length - 1 = s.flat.length by simp [Tree.flat], show (Tree.idx id c s).flat.take s.flat.length = s.flat by simp [Tree.flat], canon_mirror n s]
          cases canonT n s <;> rfl
        | op o l r =>
          have hlp := l.flat_pos
          have hlen := length_op o l r
          simp only [Tree.root]
          rw [sub_ok (by omega), ok_bind, take_op_left _ _ _ _ (by omega), take_op_right _ _ _ _ _ (by omega) (by omega), canon_mirror n l, canon_mirror n r]
          cases h2 : canonT n l with
          | error e => rfl
          | ok l' =>
            cases h3 : canonT n r with
            | error e => rfl
            | ok r' => simp only [Except.map, ok_bind, flat_op, canonT_length n r r' h3]

/-- The mirror image of `canonize_rpn`. -/
theorem canonize_mirror (t : Tree) : Sim (canonize t.flat) (canonizeT t) :=
  Sim.bind (simplify_mirror _ t) fun t' _ => Sim.of_eq (canon_mirror _ t')

end Nd.Eval
