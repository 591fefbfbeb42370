import Verif.Proof.MirrorSimp
/-!
# Simplification keeps the value of the trees of a class

No array elements; `GoodT` is the class, `Calm` trees are those that the simplifier turns into sums without subtractions.
-/
namespace Nd.Eval
open Nd Nd.Spec

/-- If there is a result, it satisfies `P`; otherwise the error is an abort of the program. -/
def Res {α : Type} (P : α → Prop) : Except Err α → Prop
  | .ok a => P a
  | .error e => e ≠ .parse

theorem Res.bind {α β : Type} {P : α → Prop} {Q : β → Prop} {m : Except Err α} {f : α → Except Err β} (h : Res P m) (hf : ∀ a, P a → Res Q (f a)) : Res Q (m >>= f) := by
  cases m with
  | error e => exact h
  | ok a => exact hf a h

theorem Res.mono {α : Type} {P Q : α → Prop} {m : Except Err α} (h : Res P m) (hf : ∀ a, P a → Q a) : Res Q m := by
  cases m with
  | error e => exact h
  | ok a => exact hf a h

theorem fuse2_res (a b : Char) : Res (fun c => fuseSign2 a b = .ok c) (fuseSign2 a b) := by
  unfold fuseSign2; split <;> first | rfl | simp [Res]

theorem fuse3_res (a b c : Char) : Res (fun d => fuseSign3 a b c = .ok d) (fuseSign3 a b c) := by
  have h : ∀ a b, fuseSign2 a b = .error .panic ∨ ∃ c, fuseSign2 a b = .ok c := by
    intro a b; unfold fuseSign2; split <;> simp
  unfold fuseSign3
  rcases h a b with h1 | ⟨d, h1⟩
  · rw [h1]; simp [Res, bind, Except.bind]
  · rw [h1, ok_bind]; exact fuse2_res d c

theorem fuseOp_res (a b : Char) : Res (fun c => fuseSignOp a b = .ok c) (fuseSignOp a b) := by
  unfold fuseSignOp; split <;> first | rfl | simp [Res]

theorem peel_res (a : Char) : Res (fun p => peelSign a = .ok p ∧ isAddsub a = true) (peelSign a) := by
  unfold peelSign; split <;> first | exact ⟨rfl, rfl⟩ | simp [Res]

theorem applyOp_cases (c : Char) (x y : Int64) : applyOp c x y = .error .panic ∨ ∃ v, applyOp c x y = .ok v := by
  unfold applyOp
  have leaf : ∀ v : Int64, (Except.ok v : Except Err Int64) = .error .panic ∨ ∃ w, (Except.ok v : Except Err Int64) = .ok w := fun v => Or.inr ⟨v, rfl⟩
  have both : ∀ {p : Prop} [Decidable p] {a b : Except Err Int64}, (a = .error .panic ∨ ∃ v, a = .ok v) → (b = .error .panic ∨ ∃ v, b = .ok v) → ((if p then a else b) = .error .panic ∨ ∃ v, (if p then a else b) = .ok v) := by
    intro p _ a b ha hb
    split
    · exact ha
    · exact hb
  have stop : (Except.error Err.panic : Except Err Int64) = .error .panic ∨ ∃ w, (Except.error Err.panic : Except Err Int64) = .ok w := Or.inl rfl
  exact both (leaf _) (both (leaf _) (both (leaf _) (both (leaf _) (both (leaf _) (both (both stop (leaf _)) (both (both stop (leaf _)) (both (leaf _) (both (leaf _) (both (leaf _)
    (both (leaf _) (both (leaf _) (both (leaf _) stop))))))))))))

theorem applyOp_err {c : Char} {x y : Int64} {e : Err} (h : applyOp c x y = .error e) : e = .panic := by
  rcases applyOp_cases c x y with h' | ⟨v, h'⟩ <;> rw [h'] at h <;> cases h
  rfl

theorem applyOp_res (c : Char) (x y : Int64) : Res (fun v => applyOp c x y = .ok v) (applyOp c x y) := by
  have h := applyOp_cases c x y
  rcases h with h | ⟨v, h⟩ <;> rw [h]
  · simp [Res]
  · rfl

theorem applyPrefix_res (c : Char) (x : Int64) : Res (fun v => applyPrefix c x = .ok v) (applyPrefix c x) := by
  have h : applyPrefix c x = .error .panic ∨ ∃ v, applyPrefix c x = .ok v := by
    unfold applyPrefix
    repeat' (first | exact Or.inr ⟨_, rfl⟩ | exact Or.inl rfl | split)
  rcases h with h | ⟨v, h⟩ <;> rw [h]
  · simp [Res]
  · rfl

namespace Tree

/-- A literal, a variable, or an element of an array. -/
def leaf : Tree → Bool
  | val _ | var _ _ | idx _ _ _ => true
  | _ => false

/-- The same before simplification. -/
def tip : Tree → Bool
  | arr _ _ => true
  | t => t.leaf

theorem leaf_tip {t : Tree} (h : t.leaf = true) : t.tip = true := by cases t <;> first | rfl | cases h

/-- A literal index. -/
def literal : Tree → Int64
  | val k => k
  | _ => 0

/-- All elements of arrays satisfy `A`. -/
def within (A : Nat → Int64 → Bool) : Tree → Bool
  | val _ | var _ _ => true
  | idx id _ t | arr id t => A id t.literal
  | pre _ t => t.within A
  | op _ l r => l.within A && r.within A

/-- No arrays. -/
def bare (t : Tree) : Bool := t.within fun _ _ => false

/-- The coefficient of an element of an array with a literal index. -/
def coefOf : Tree → Option Int64
  | idx _ c (val _) => some c
  | arr _ (val _) => some 1
  | _ => none

/-- `v` is not the identity of the operator. -/
def notId (o : Char) (v : Int64) : Prop := if isAddsub o then v ≠ 0 else isId o v = false

/-- An operator applied to an element of an array and a literal that is not its identity: no simplification leaves the element alone. -/
def Firm : Tree → Prop
  | op o l r => o ≠ '*' ∧
    (((l.coefOf.isSome = true ∨ isAddsub o = false ∧ l.Firm) ∧ ∃ v, r = val v ∧ notId o v) ∨
      ((r.coefOf.isSome = true ∨ isAddsub o = false ∧ r.Firm) ∧ ∃ v, l = val v ∧ notId o v))
  | _ => False

/-- The operands of a product: no coefficient becomes zero. -/
def Scaled (l r : Tree) : Prop :=
  (l.bare = true ∧ r.bare = true) ∨ (∃ c v, l.coefOf = some c ∧ r = val v ∧ c * v ≠ 0) ∨ (∃ c v, r.coefOf = some c ∧ l = val v ∧ c * v ≠ 0) ∨
    (l.Firm ∧ r.bare = true) ∨ (l.bare = true ∧ r.Firm)

theorem Scaled.symm {l r : Tree} (h : Scaled l r) : Scaled r l := by
  rcases h with ⟨h1, h2⟩ | h | h | ⟨h1, h2⟩ | ⟨h1, h2⟩
  · exact Or.inl ⟨h2, h1⟩
  · exact Or.inr (Or.inr (Or.inl h))
  · exact Or.inr (Or.inl h)
  · exact Or.inr (Or.inr (Or.inr (Or.inr ⟨h2, h1⟩)))
  · exact Or.inr (Or.inr (Or.inr (Or.inl ⟨h2, h1⟩)))

/-- What simplification does not change in the operands of a product. -/
def Stay (t t' : Tree) : Prop :=
  (∀ A, t.within A = true → t'.within A = true) ∧ (∀ c, t.coefOf = some c → t'.coefOf = some c) ∧ (∀ v, t = val v → t' = val v) ∧ (t.Firm → t'.Firm)

theorem Stay.refl (t : Tree) : Stay t t := ⟨fun _ h => h, fun _ h => h, fun _ h => h, fun h => h⟩

theorem Stay.trans {a b c : Tree} (h : Stay a b) (h' : Stay b c) : Stay a c :=
  ⟨fun A x => h'.1 A (h.1 A x), fun k x => h'.2.1 k (h.2.1 k x), fun v x => h'.2.2.1 v (h.2.2.1 v x), fun x => h'.2.2.2 (h.2.2.2 x)⟩

theorem Stay.bare {t t' : Tree} (h : Stay t t') (hb : t.bare = true) : t'.bare = true := h.1 _ hb

theorem Scaled.stay {l r l' r' : Tree} (h : Scaled l r) (hl : Stay l l') (hr : Stay r r') : Scaled l' r' := by
  rcases h with ⟨h1, h2⟩ | ⟨c, v, h1, h2, h3⟩ | ⟨c, v, h1, h2, h3⟩ | ⟨h1, h2⟩ | ⟨h1, h2⟩
  · exact Or.inl ⟨hl.bare h1, hr.bare h2⟩
  · exact Or.inr (Or.inl ⟨c, v, hl.2.1 c h1, hr.2.2.1 v h2, h3⟩)
  · exact Or.inr (Or.inr (Or.inl ⟨c, v, hr.2.1 c h1, hl.2.2.1 v h2, h3⟩))
  · exact Or.inr (Or.inr (Or.inr (Or.inl ⟨hl.2.2.2 h1, hr.bare h2⟩)))
  · exact Or.inr (Or.inr (Or.inr (Or.inr ⟨hl.bare h1, hr.2.2.2 h2⟩)))

theorem firm_swap {o : Char} {l r : Tree} (h : (op o l r).Firm) : (op o r l).Firm := ⟨h.1, h.2.symm⟩

/-- The operands of an operator change. -/
theorem Stay.node {o : Char} {l r l' r' : Tree} (hl : Stay l l') (hr : Stay r r') : Stay (op o l r) (op o l' r') := by
  refine ⟨fun A h => ?_, (fun _ h => by cases h), (fun _ h => by cases h), fun h => ?_⟩
  · simp only [within, Bool.and_eq_true] at h ⊢
    exact ⟨hl.1 A h.1, hr.1 A h.2⟩
  · have core : ∀ {t t' : Tree}, Stay t t' → (t.coefOf.isSome = true ∨ isAddsub o = false ∧ t.Firm) → (t'.coefOf.isSome = true ∨ isAddsub o = false ∧ t'.Firm) := by
      intro t t' hs h
      rcases h with h | ⟨h1, h2⟩
      · obtain ⟨c, hc⟩ := Option.isSome_iff_exists.1 h
        exact Or.inl (by rw [hs.2.1 c hc]; rfl)
      · exact Or.inr ⟨h1, hs.2.2.2 h2⟩
    obtain ⟨h1, ⟨h2, v, h3, h4⟩ | ⟨h2, v, h3, h4⟩⟩ := h
    · exact ⟨h1, Or.inl ⟨core hl h2, v, hr.2.2.1 v h3, h4⟩⟩
    · exact ⟨h1, Or.inr ⟨core hr h2, v, hl.2.2.1 v h3, h4⟩⟩

/-- The ops of a sum are `+` and `#`, so that no sign is lost when it becomes part of another sum. -/
def Loose : Tree → Prop
  | op o l r => isAddsub o = true → (o = '+' ∨ o = '#') ∧ l.Loose ∧ r.Loose
  | _ => True

/-- Sums without subtractions, before (`raw`) and after simplification. -/
def Mild (raw : Bool) : Tree → Prop
  | val _ | var _ _ => True
  | idx _ _ _ | arr _ _ => True
  | pre c t => (c = '!' ∧ t.Mild raw) ∨ c = 'G' ∨ (raw = true ∧ (c = '+' ∨ c = '-') ∧ t.leaf = true)
  | op o l r => l.Mild raw ∧ r.Mild raw ∧ ((o ≠ '-' ∧ o ≠ '#' ∧ o ≠ '~') ∨ (raw = true ∧ o = '-' ∧ r.tip = true))

/-- What is required of a right operand of an addition or subtraction. -/
def Right (raw : Bool) (t : Tree) : Prop := if raw then t.Mild true else t.Loose

/-- The class: the variables are in `V`; `g` says that comparisons may occur; there are variables (`m = false`) or at most one element of an array (`m = true`). -/
def Good (m raw : Bool) : Bool → (Nat → Prop) → Tree → Prop
  | _, _, val _ => True
  | _, V, var id _ => m = false ∧ V id
  | _, _, idx _ c t => m = true ∧ raw = false ∧ c ≠ 0 ∧ ∃ k, t = val k
  | _, _, arr _ t => m = true ∧ raw = true ∧ ∃ k, t = val k
  | g, V, pre c t => (c = '-' ∧ t.Good m raw g V) ∨ (c = '!' ∧ t.Good m raw g V) ∨ (c = 'G' ∧ g = true ∧ t.Good m raw false V) ∨ (raw = true ∧ c = '+' ∧ t.leaf = true ∧ t.Good m raw g V)
  | g, V, op o l r =>
    if isAddsub o then l.Good m raw g V ∧ r.Good m raw g V ∧ r.Right raw ∧ (raw = false → r.leaf = true → o = '+' ∨ o = '#') ∧ (l.bare || r.bare) = true
    else (l.bare || r.bare) = true ∧ (o = '*' → Scaled l r) ∧
      if isComm1 o then ∃ V₁ V₂ : Nat → Prop, (∀ i, V₁ i → V i) ∧ (∀ i, V₂ i → V i) ∧ (∀ i, V₁ i → ¬ V₂ i) ∧ l.Good m raw g V₁ ∧ r.Good m raw g V₂
      else l.Good m raw g V ∧ r.Good m raw g V

variable {m : Bool}

theorem good_op_add {raw g : Bool} {V : Nat → Prop} {o : Char} {l r : Tree} (ho : isAddsub o = true) :
    (op o l r).Good m raw g V ↔ l.Good m raw g V ∧ r.Good m raw g V ∧ r.Right raw ∧ (raw = false → r.leaf = true → o = '+' ∨ o = '#') ∧ (l.bare || r.bare) = true := by
  simp only [Good, ho, if_true]

theorem Good.mono {raw : Bool} : ∀ {g : Bool} {V W : Nat → Prop} {t : Tree}, t.Good m raw g V → (∀ i, V i → W i) → t.Good m raw g W
  | g, V, W, val _, _, _ => trivial
  | g, V, W, var id _, h, hw => ⟨h.1, hw _ h.2⟩
  | g, V, W, idx _ _ _, h, _ => h
  | g, V, W, arr _ _, h, _ => h
  | g, V, W, pre c t, h, hw => by
    rcases h with ⟨h1, h2⟩ | ⟨h1, h2⟩ | ⟨h1, h2, h3⟩ | ⟨h1, h2, h3, h4⟩
    · exact Or.inl ⟨h1, h2.mono hw⟩
    · exact Or.inr (Or.inl ⟨h1, h2.mono hw⟩)
    · exact Or.inr (Or.inr (Or.inl ⟨h1, h2, h3.mono hw⟩))
    · exact Or.inr (Or.inr (Or.inr ⟨h1, h2, h3, h4.mono hw⟩))
  | g, V, W, op o l r, h, hw => by
    simp only [Good] at h ⊢
    split
    · rename_i ho
      rw [if_pos ho] at h
      exact ⟨h.1.mono hw, h.2.1.mono hw, h.2.2⟩
    · rename_i ho
      rw [if_neg ho] at h
      refine ⟨h.1, h.2.1, ?_⟩
      replace h := h.2.2
      split
      · rename_i ho
        rw [if_pos ho] at h
        obtain ⟨V₁, V₂, h1, h2, h3, h4, h5⟩ := h
        exact ⟨V₁, V₂, fun i hi => hw i (h1 i hi), fun i hi => hw i (h2 i hi), h3, h4, h5⟩
      · rename_i ho
        rw [if_neg ho] at h
        exact ⟨h.1.mono hw, h.2.mono hw⟩

/-- Operands of operators belong to the class. -/
theorem Good.sub {raw g : Bool} {V : Nat → Prop} {o : Char} {l r : Tree} (h : (op o l r).Good m raw g V) : l.Good m raw g V ∧ r.Good m raw g V := by
  simp only [Good] at h
  split at h
  · exact ⟨h.1, h.2.1⟩
  · replace h := h.2.2
    split at h
    · obtain ⟨V₁, V₂, h1, h2, h3, h4, h5⟩ := h
      exact ⟨h4.mono h1, h5.mono h2⟩
    · exact h

/-- One of the operands contains no array. -/
theorem Good.one {raw g : Bool} {V : Nat → Prop} {o : Char} {l r : Tree} (h : (op o l r).Good m raw g V) : (l.bare || r.bare) = true := by
  simp only [Good] at h
  split at h
  · exact h.2.2.2.2
  · exact h.1

theorem leaf_right {raw : Bool} {t : Tree} (h : t.leaf = true) : t.Right raw := by
  cases t <;> first | (cases raw <;> trivial) | cases h

theorem mild_loose {t : Tree} (h : t.Mild false) : t.Loose := by
  induction t with
  | op o l r ihl ihr =>
    intro ho
    obtain ⟨h1, h2, h3⟩ := h
    rcases h3 with ⟨h3, h4, h5⟩ | ⟨h3, _⟩
    · rcases (isAddsub_iff o).1 ho with rfl | rfl | rfl | rfl
      · exact ⟨Or.inl rfl, ihl h1, ihr h2⟩
      · exact absurd rfl h3
      · exact absurd rfl h4
      · exact absurd rfl h5
    · cases h3
  | _ => trivial

theorem within_mk (A : Nat → Int64 → Bool) (o : Char) (l r : Tree) : (mk o l r).within A = (l.within A && r.within A) := by
  unfold mk
  split
  · split <;> rfl
  · split
    · split <;> rfl
    · rfl

theorem bare_mk (o : Char) (l r : Tree) : (mk o l r).bare = (l.bare && r.bare) := within_mk _ o l r

theorem coef_mk (o : Char) (l r : Tree) : (mk o l r).coefOf = none := by
  unfold mk
  split
  · split <;> rfl
  · split
    · split <;> rfl
    · rfl

/-- `mk` keeps `Firm`. -/
theorem firm_mk {o : Char} {l r : Tree} (ho : isAddsub o = true) (h : (op o l r).Firm) : (mk o l r).Firm := by
  obtain ⟨h1, h2⟩ := h
  have hn : ∀ x : Int64, x ≠ 0 → -x ≠ 0 := by intro x hx h; apply hx; grind
  have flip : ∀ o', isAddsub o' = true → ∀ r', (r.coefOf.isSome = true → r'.coefOf.isSome = true) → (∀ v, r = val v → v ≠ 0 → ∃ v', r' = val v' ∧ v' ≠ 0) → o' ≠ '*' → (op o' l r').Firm := by
    intro o' ho' r' hc hv ho''
    refine ⟨ho'', ?_⟩
    rcases h2 with ⟨h2, v, h3, h4⟩ | ⟨h2, v, h3, h4⟩
    · rcases h2 with h2 | ⟨h2, _⟩
      · simp only [notId, ho, if_true] at h4
        obtain ⟨v', e1, e2⟩ := hv v h3 h4
        exact Or.inl ⟨Or.inl h2, v', e1, by simpa only [notId, ho', if_true] using e2⟩
      · rw [ho] at h2; cases h2
    · rcases h2 with h2 | ⟨h2, _⟩
      · exact Or.inr ⟨Or.inl (hc h2), v, h3, by simpa only [notId, ho, ho', if_true] using h4⟩
      · rw [ho] at h2; cases h2
  have plain : (op o l r).Firm := ⟨h1, h2⟩
  unfold mk
  split
  · split
    · exact flip _ rfl _ (fun h => by cases h) (fun v e hv => by cases e; exact ⟨_, rfl, hn _ hv⟩) (by decide)
    · exact flip _ rfl _ (fun h => by cases h) (fun v e hv => by cases e) (by decide)
    · exact flip _ rfl _ (fun h => by rename_i t; cases t <;> first | rfl | cases h) (fun v e hv => by cases e) (by decide)
    · exact plain
  · split
    · split
      · exact flip _ rfl _ (fun h => by cases h) (fun v e hv => by cases e; exact ⟨_, rfl, hn _ hv⟩) (by decide)
      · exact flip _ rfl _ (fun h => by cases h) (fun v e hv => by cases e) (by decide)
      · exact flip _ rfl _ (fun h => by rename_i t; cases t <;> first | rfl | cases h) (fun v e hv => by cases e) (by decide)
      · exact plain
    · exact plain

/-- The operator of a sum may change. -/
theorem firm_ops {o o' : Char} {l r : Tree} (ho : isAddsub o = true) (ho' : isAddsub o' = true) (h : (op o l r).Firm) : (op o' l r).Firm := by
  have hn : ∀ v, notId o v → notId o' v := fun v h => by simpa only [notId, ho, ho', if_true] using h
  refine ⟨(by rintro rfl; cases ho'), ?_⟩
  obtain ⟨_, ⟨h2 | ⟨h2, _⟩, v, h3, h4⟩ | ⟨h2 | ⟨h2, _⟩, v, h3, h4⟩⟩ := h
  · exact Or.inl ⟨Or.inl h2, v, h3, hn v h4⟩
  · rw [ho] at h2; cases h2
  · exact Or.inr ⟨Or.inl h2, v, h3, hn v h4⟩
  · rw [ho] at h2; cases h2

/-- A sum becomes a tree that is neither a literal nor an element. -/
theorem Stay.sum {o : Char} {l r t' : Tree} (hb : ∀ A, l.within A = true → r.within A = true → t'.within A = true) (hf : (op o l r).Firm → t'.Firm) : Stay (op o l r) t' := by
  refine ⟨fun A h => ?_, (fun _ h => by cases h), (fun _ h => by cases h), hf⟩
  simp only [within, Bool.and_eq_true] at h
  exact hb A h.1 h.2

/-- With a variable there is no element of an array. -/
theorem firm_var {o : Char} {id : Nat} {c : Int64} {r : Tree} (h : (op o (var id c) r).Firm) : False := by
  obtain ⟨_, ⟨h2 | ⟨_, h2⟩, _⟩ | ⟨_, v, h3, _⟩⟩ := h
  · cases h2
  · exact h2
  · cases h3

/-- No identity is removed. -/
theorem firm_id {g : Bool} {V : Nat → Prop} {o : Char} {l r : Tree} (h : (op o l r).Firm) (hr : r.Good m false g V) (hid : isIdArm r.root.1 o = true) : False := by
  obtain ⟨_, ⟨_, v, h3, h4⟩ | ⟨h2, v, h3, h4⟩⟩ := h
  · subst h3
    simp only [root, isIdArm] at hid
    unfold notId at h4
    split at h4
    · unfold isId at hid
      split at hid
      · exact h4 (by simpa using hid)
      · rename_i ho h
        split at hid
        · rename_i h'
          rcases h' with rfl | rfl <;> cases ho
        · split at hid
          · rename_i h'
            subst h'; cases ho
          · cases hid
    · rw [h4] at hid; cases hid
  · rcases h2 with h2 | ⟨_, h2⟩
    · cases r with
      | idx id c t =>
        simp only [root, isIdArm, Bool.and_eq_true, beq_iff_eq] at hid
        exact hr.2.2.1 hid.1
      | arr id t => cases hr.2.1
      | _ => cases h2
    · cases r with
      | op _ _ _ => simp [root, isIdArm] at hid
      | _ => exact h2

theorem Stay.prefix {c : Char} {t t' : Tree} (hb : ∀ A, t.within A = true → t'.within A = true) : Stay (pre c t) t' :=
  ⟨hb, (fun _ h => by cases h), (fun _ h => by cases h), fun h => h.elim⟩

/-- Sums of sums are not `Firm`. -/
theorem firm_left {o o1 : Char} {X x r : Tree} (ho : isAddsub o = true) (h : (op o (op o1 X x) r).Firm) : False := by
  obtain ⟨_, ⟨h2 | ⟨h2, _⟩, _⟩ | ⟨_, v, h3, _⟩⟩ := h
  · cases h2
  · rw [ho] at h2; cases h2
  · cases h3

theorem firm_right {o o1 : Char} {X x l : Tree} (ho : isAddsub o = true) (h : (op o l (op o1 X x)).Firm) : False := by
  obtain ⟨_, ⟨_, v, h3, _⟩ | ⟨h2 | ⟨h2, _⟩, _⟩⟩ := h
  · cases h3
  · cases h2
  · rw [ho] at h2; cases h2

end Tree

open Tree

variable {m : Bool}

/-! ## Signs -/

/-- The value of a sum or difference of defined values. -/
theorem eval_add {o : Char} (ho : isAddsub o = true) (ρ : Nat → Int64 → Int64) (l r : Tree) (v : Int64) :
    (Tree.op o l r).eval ρ = some v ↔ ∃ x y, l.eval ρ = some x ∧ r.eval ρ = some y ∧ v = (if o = '+' then x + y else if o = '-' then x - y else if o = '#' then -(x + y) else -(x - y)) := by
  have ha : ∀ x y, applyOp o x y = .ok (if o = '+' then x + y else if o = '-' then x - y else if o = '#' then -(x + y) else -(x - y)) := by
    intro x y
    rcases (isAddsub_iff o).1 ho with rfl | rfl | rfl | rfl <;> rfl
  simp only [Tree.eval]
  cases l.eval ρ with
  | none => simp
  | some x =>
    cases r.eval ρ with
    | none => simp
    | some y => simp [ha, Except.toOption, eq_comm]

/-- `mk` keeps the class. -/
theorem good_mk {raw g : Bool} {V : Nat → Prop} {o : Char} {l r : Tree} (ho : isAddsub o = true) (hl : l.Good m raw g V) (hr : r.Good m raw g V) (hR : r.Right raw)
    (hb : (l.bare || r.bare) = true) : (Tree.mk o l r).Good m raw g V := by
  have key : r.leaf = false → Tree.mk o l r = .op o l r := by
    intro h
    unfold Tree.mk
    cases r with
    | val _ => cases h
    | var _ _ => cases h
    | idx _ _ _ => cases h
    | _ => simp
  cases hleaf : r.leaf with
  | false =>
    rw [key hleaf, good_op_add ho]
    exact ⟨hl, hr, hR, (fun _ h => by rw [hleaf] at h; cases h), hb⟩
  | true =>
    cases r with
    | val x =>
      rcases (isAddsub_iff o).1 ho with rfl | rfl | rfl | rfl <;>
        exact (good_op_add rfl).2 ⟨hl, trivial, leaf_right rfl, (fun _ _ => by simp), by simp [Tree.bare, Tree.within]⟩
    | var id c =>
      rcases (isAddsub_iff o).1 ho with rfl | rfl | rfl | rfl <;>
        exact (good_op_add rfl).2 ⟨hl, hr, leaf_right rfl, (fun _ _ => by simp), by simp [Tree.bare, Tree.within]⟩
    | idx id c t =>
      obtain ⟨h1, h2, h3, h4⟩ := hr
      have hn : -c ≠ 0 := fun h => h3 (by grind)
      rcases (isAddsub_iff o).1 ho with rfl | rfl | rfl | rfl <;>
        first
        | exact (good_op_add rfl).2 ⟨hl, ⟨h1, h2, h3, h4⟩, leaf_right rfl, (fun _ _ => by simp), hb⟩
        | exact (good_op_add rfl).2 ⟨hl, ⟨h1, h2, hn, h4⟩, leaf_right rfl, (fun _ _ => by simp), hb⟩
    | _ => cases hleaf

theorem mild_mk {raw : Bool} {o : Char} {l r : Tree} (hl : l.Mild raw) (hr : r.Mild raw) (ho : (o ≠ '-' ∧ o ≠ '#' ∧ o ≠ '~') ∨ (o = '-' ∧ r.leaf = true)) : (Tree.mk o l r).Mild raw := by
  rcases ho with ⟨h1, h2, h3⟩ | ⟨rfl, h⟩
  · unfold Tree.mk
    rw [if_neg h1, if_neg h3]
    exact ⟨hl, hr, Or.inl ⟨h1, h2, h3⟩⟩
  · cases r with
    | val x => exact ⟨hl, trivial, Or.inl (by simp)⟩
    | var id c => exact ⟨hl, trivial, Or.inl (by simp)⟩
    | idx id c t => exact ⟨hl, trivial, Or.inl (by simp)⟩
    | _ => cases h

/-- The peeled sign and operator. -/
theorem peel_cases {o : Char} {p : Char × Char} (h : peelSign o = .ok p) :
    (o = '+' ∧ p = ('+', '+')) ∨ (o = '-' ∧ p = ('+', '-')) ∨ (o = '#' ∧ p = ('-', '+')) ∨ (o = '~' ∧ p = ('-', '-')) := by
  unfold peelSign at h
  split at h <;> simp at h <;> subst h <;> simp

/-! ## Rotation -/

/-- What the steps preserve. -/
def Kept (m : Bool) (ρ : Nat → Int64 → Int64) (g : Bool) (V : Nat → Prop) (t t' : Tree) : Prop :=
  t'.Good m false g V ∧ (∀ v, t.eval ρ = some v → t'.eval ρ = some v) ∧ (t.Mild false → t'.Mild false) ∧ Stay t t'

theorem Kept.refl {ρ : Nat → Int64 → Int64} {g : Bool} {V : Nat → Prop} {t : Tree} (h : t.Good m false g V) : Kept m ρ g V t t := ⟨h, fun _ h => h, fun h => h, .refl t⟩

theorem Kept.trans {ρ : Nat → Int64 → Int64} {g : Bool} {V : Nat → Prop} {a b c : Tree} (h : Kept m ρ g V a b) (h' : Kept m ρ g V b c) : Kept m ρ g V a c :=
  ⟨h'.1, fun v hv => h'.2.1 v (h.2.1 v hv), fun hm => h'.2.2.1 (h.2.2.1 hm), h.2.2.2.trans h'.2.2.2⟩

theorem rot_keep (ρ : Nat → Int64 → Int64) (g : Bool) (V : Nat → Prop) : ∀ (n : Nat) (t : Tree), t.Good m false g V →
    Res (fun p => Kept m ρ g V t p.2 ∧ ((p.1 = true ∨ ∃ o l r, t = .op o l r) → ∃ o l r, p.2 = .op o l r)) (rotT n t)
  | 0, t, _ => by simp [rotT, Res]
  | n + 1, t, h => by
    have other : Res (fun p => Kept m ρ g V t p.2 ∧ ((p.1 = true ∨ ∃ o l r, t = .op o l r) → ∃ o l r, p.2 = .op o l r)) (.ok (false, t)) := ⟨Kept.refl h, by simp⟩
    cases t with
    | op o1 x r =>
      cases r with
      | op o2 y z =>
        rw [rotT]
        split
        · rename_i hc
          refine Res.bind (peel_res o1) fun ⟨s1, p1⟩ ⟨h1, ho1⟩ => ?_
          refine Res.bind (peel_res o2) fun ⟨s2, p2⟩ ⟨h2, ho2⟩ => ?_
          obtain ⟨hx, hr, hR, _, hb1⟩ := (good_op_add ho1).1 h
          obtain ⟨hy, hz, hzR, _, hb2⟩ := (good_op_add ho2).1 hr
          simp only [Tree.bare, Tree.within, Bool.or_eq_true, Bool.and_eq_true] at hb1 hb2
          obtain ⟨ho2', hyL, hzL⟩ := (show (Tree.op o2 y z).Loose from hR) ho2
          refine Res.bind (fuse3_res s2 p1 p2) fun a ha => ?_
          refine Res.bind (fuse2_res s2 p1) fun b0 hb0 => ?_
          refine Res.bind (fuseOp_res s1 b0) fun b hb => ?_
          -- the new tree
          have key : Kept m ρ g V (.op o1 x (.op o2 y z)) (Tree.mk b (Tree.mk a x y) z) ∧ isAddsub a = true ∧ isAddsub b = true := by
            have fin : ∀ (a b : Char), isAddsub a = true → isAddsub b = true → (∀ v, (Tree.op o1 x (.op o2 y z)).eval ρ = some v → (Tree.op b (.op a x y) z).eval ρ = some v) →
                ((Tree.op o1 x (.op o2 y z)).Mild false → a = '+' ∧ b = '+') →
                Kept m ρ g V (.op o1 x (.op o2 y z)) (Tree.mk b (Tree.mk a x y) z) ∧ isAddsub a = true ∧ isAddsub b = true := by
              intro a b ha hb hv hm
              refine ⟨⟨good_mk hb (good_mk ha hx hy hyL (by simp only [Bool.or_eq_true]; exact hb1.imp id And.left)) hz hzL ?_, fun v h => ?_, fun h => ?_, ?_⟩, ha, hb⟩
              · rw [bare_mk]; simp only [Bool.or_eq_true, Bool.and_eq_true]; rcases hb2 with h | h
                · rcases hb1 with h' | h'
                  · exact Or.inl ⟨h', h⟩
                  · exact Or.inr h'.2
                · exact Or.inr h
              · rw [Tree.eval_mk]
                have := hv v h
                simp only [Tree.eval, Tree.eval_mk] at this ⊢
                exact this
              · obtain ⟨e1, e2⟩ := hm h
                subst e1 e2
                exact mild_mk (mild_mk h.1 h.2.1.1 (Or.inl (by simp))) h.2.1.2.1 (Or.inl (by simp))
              · refine Stay.sum (fun A b1 b2 => ?_) fun hf => (firm_right ho1 hf).elim
                simp only [Tree.within, within_mk, Bool.and_eq_true] at b2 ⊢
                exact ⟨⟨b1, b2.1⟩, b2.2⟩
            have val : ∀ (a b : Char), isAddsub a = true → isAddsub b = true → (∀ X Y Z : Int64,
                (if b = '+' then (if a = '+' then X + Y else if a = '-' then X - Y else if a = '#' then -(X + Y) else -(X - Y)) + Z
                else if b = '-' then (if a = '+' then X + Y else if a = '-' then X - Y else if a = '#' then -(X + Y) else -(X - Y)) - Z
                else if b = '#' then -((if a = '+' then X + Y else if a = '-' then X - Y else if a = '#' then -(X + Y) else -(X - Y)) + Z)
                else -((if a = '+' then X + Y else if a = '-' then X - Y else if a = '#' then -(X + Y) else -(X - Y)) - Z)) =
                (if o1 = '+' then X + (if o2 = '+' then Y + Z else if o2 = '-' then Y - Z else if o2 = '#' then -(Y + Z) else -(Y - Z))
                else if o1 = '-' then X - (if o2 = '+' then Y + Z else if o2 = '-' then Y - Z else if o2 = '#' then -(Y + Z) else -(Y - Z))
                else if o1 = '#' then -(X + (if o2 = '+' then Y + Z else if o2 = '-' then Y - Z else if o2 = '#' then -(Y + Z) else -(Y - Z)))
                else -(X - (if o2 = '+' then Y + Z else if o2 = '-' then Y - Z else if o2 = '#' then -(Y + Z) else -(Y - Z))))) →
                ∀ v, (Tree.op o1 x (.op o2 y z)).eval ρ = some v → (Tree.op b (.op a x y) z).eval ρ = some v := by
              intro a b ha hb he v h
              obtain ⟨X, W, e1, e2, e3⟩ := (eval_add ho1 ρ _ _ v).1 h
              obtain ⟨Y, Z, e4, e5, e6⟩ := (eval_add ho2 ρ _ _ W).1 e2
              refine (eval_add hb ρ _ _ v).2 ⟨_, Z, (eval_add ha ρ _ _ _).2 ⟨X, Y, e1, e4, rfl⟩, e5, ?_⟩
              rw [e3, e6, he]
            rcases peel_cases h1 with ⟨rfl, h1⟩ | ⟨rfl, h1⟩ | ⟨rfl, h1⟩ | ⟨rfl, h1⟩ <;> cases h1 <;> rcases ho2' with rfl | rfl <;> cases h2 <;> cases ha <;> cases hb0 <;> cases hb
            all_goals
              refine fin _ _ rfl rfl (val _ _ rfl rfl ?_) ?_
              · intro X Y Z; simp; try grind
              · intro h; obtain ⟨_, ⟨_, _, h5⟩, h6⟩ := h; simp at h5 h6 <;> simp
          obtain ⟨k1, k2, k3⟩ := key
          have hm : ∃ o l r, Tree.mk b (Tree.mk a x y) z = .op o l r := by
            unfold Tree.mk
            split
            · split <;> exact ⟨_, _, _, rfl⟩
            · split
              · split <;> exact ⟨_, _, _, rfl⟩
              · exact ⟨_, _, _, rfl⟩
          refine Res.bind (rot_keep ρ g V n _ k1.1) fun p hp => ?_
          exact ⟨k1.trans hp.1, fun _ => hp.2 (Or.inr hm)⟩
        · exact other
      | _ => exact other
    | _ => exact other

/-! ## Sorting -/

/-- A node whose right operand is in place. -/
theorem isAddsub_iff' {o : Char} (h : isAddsub o = false) : o ≠ '+' ∧ o ≠ '-' ∧ o ≠ '#' ∧ o ≠ '~' := by
  refine ⟨?_, ?_, ?_, ?_⟩ <;> rintro rfl <;> cases h

theorem sortPlain_keep (ρ : Nat → Int64 → Int64) (g : Bool) (V : Nat → Prop) (o : Char) (l r : Tree) (h : (Tree.op o l r).Good m false g V)
    (hl : isAddsub o = true → l.Loose) : Res (Kept m ρ g V (.op o l r)) (sortPlainT o l r) := by
  unfold sortPlainT
  have other : Res (Kept m ρ g V (.op o l r)) (.ok (.op o l r)) := Kept.refl h
  split
  · rename_i hc
    split
    · -- the operands change places
      by_cases ho : isAddsub o = true
      · obtain ⟨h1, h2, h3, h4, hb⟩ := (good_op_add ho).1 h
        have hs : isAddsub (swapOpHands o) = true := by
          rcases (isAddsub_iff o).1 ho with rfl | rfl | rfl | rfl <;> rfl
        refine ⟨good_mk hs h2 h1 (hl ho) (by rw [Bool.or_comm]; exact hb), fun v hv => ?_, fun hm => ?_, ?_⟩
        · rw [Tree.eval_mk]
          obtain ⟨x, y, e1, e2, e3⟩ := (eval_add ho ρ _ _ v).1 hv
          refine (eval_add hs ρ _ _ v).2 ⟨y, x, e2, e1, ?_⟩
          rw [e3]
          rcases (isAddsub_iff o).1 ho with rfl | rfl | rfl | rfl <;> simp [swapOpHands] <;> grind
        · obtain ⟨m1, m2, m3⟩ := hm
          simp at m3
          have : swapOpHands o = o := by simp [swapOpHands, m3]
          rw [this]
          exact mild_mk m2 m1 (Or.inl m3)
        · exact Stay.sum (fun A b1 b2 => by rw [within_mk, b1, b2]; rfl) fun hf => firm_mk hs (firm_ops ho hs (firm_swap hf))
      · have ho' : isAddsub o = false := by simpa using ho
        obtain ⟨n1, n2, n3, n4⟩ := isAddsub_iff' ho'
        have hs : swapOpHands o = o := by simp [swapOpHands, n2, n4]
        have hmk : Tree.mk o r l = .op o r l := by unfold Tree.mk; rw [if_neg n2, if_neg n4]
        rw [hs, hmk]
        simp only [Good, ho', hc, if_true] at h
        obtain ⟨hb, hsc, V₁, V₂, h1, h2, h3, h4, h5⟩ := h
        refine ⟨?_, fun v hv => ?_, fun hm => ⟨hm.2.1, hm.1, Or.inl ⟨n2, n3, n4⟩⟩, Stay.sum (fun A b1 b2 => by simp only [Tree.within, b1, b2]; rfl) firm_swap⟩
        · simp only [Good, ho', hc, if_true]
          exact ⟨by rw [Bool.or_comm]; exact hb, fun e => (hsc e).symm, V₂, V₁, h2, h1, fun i a b => h3 i b a, h5, h4⟩
        · simp only [Tree.eval] at hv ⊢
          cases e1 : l.eval ρ with
          | none => rw [e1] at hv; simp at hv
          | some x =>
            cases e2 : r.eval ρ with
            | none => rw [e1, e2] at hv; simp at hv
            | some y =>
              rw [e1, e2] at hv
              simp only [Option.bind_some] at hv ⊢
              rw [← hv]
              have hcase : o = '*' ∨ o = '&' ∨ o = '|' ∨ o = '^' := by
                simp [isComm1, n1, n2, n3, n4] at hc
                exact hc
              rcases hcase with rfl | rfl | rfl | rfl
              · show some (y * x) = some (x * y); rw [Int64.mul_comm]
              · show some (y &&& x) = some (x &&& y); rw [Int64.and_comm]
              · show some (y ||| x) = some (x ||| y); rw [Int64.or_comm]
              · show some (y ^^^ x) = some (x ^^^ y); rw [Int64.xor_comm]
    · cases l with
      | var i xc =>
        cases r with
        | var j yc =>
          simp only [Tree.root]
          split
          · rename_i hij
            subst hij
            by_cases ho : isAddsub o = true
            · refine Res.bind (applyOp_res o xc yc) fun c hcc => ?_
              obtain ⟨h1, _⟩ := (good_op_add ho).1 h
              refine ⟨h1, fun v hv => ?_, fun _ => trivial, Stay.sum (fun _ _ _ => rfl) fun hf => (firm_var hf).elim⟩
              obtain ⟨x, y, e1, e2, e3⟩ := (eval_add ho ρ _ _ v).1 hv
              simp only [Tree.eval, Tree.setCoef, Option.some.injEq] at e1 e2 ⊢
              subst e1 e2
              rw [e3]
              rcases (isAddsub_iff o).1 ho with rfl | rfl | rfl | rfl <;> cases hcc <;> simp <;> grind
            · have ho' : isAddsub o = false := by simpa using ho
              simp only [Good, ho', hc, if_true] at h
              obtain ⟨_, _, V₁, V₂, h1, h2, h3, h4, h5⟩ := h
              exact absurd h5.2 (h3 _ h4.2)
          · exact other
        | idx _ _ _ =>
          have h1 := h.sub.1.1
          have h2 := h.sub.2.1
          rw [h1] at h2; cases h2
        | _ => exact other
      | idx _ _ _ =>
        cases r with
        | var _ _ =>
          have h1 := h.sub.1.1
          have h2 := h.sub.2.1
          rw [h1] at h2; cases h2
        | idx _ _ _ => cases h.one
        | _ => exact other
      | _ => exact other
  · exact other

theorem sortChained_keep (ρ : Nat → Int64 → Int64) (g : Bool) (V : Nat → Prop) (o1 : Char) (X x : Tree) (o2 : Char) (r : Tree) (h : (Tree.op o2 (.op o1 X x) r).Good m false g V) :
    Res (fun p => Kept m ρ g V (.op o2 (.op o1 X x) r) p.2 ∧ (p.1 = true → ∃ o l r, p.2 = .op o l r)) (sortChainedT o1 X x o2 r) := by
  unfold sortChainedT
  refine Res.bind (peel_res o1) fun ⟨s1, p1⟩ ⟨h1, ho1⟩ => ?_
  refine Res.bind (peel_res o2) fun ⟨s2, p2⟩ ⟨h2, ho2⟩ => ?_
  have other : Res (fun p => Kept m ρ g V (.op o2 (.op o1 X x) r) p.2 ∧ (p.1 = true → ∃ o l r, p.2 = .op o l r)) (.ok (false, .op o2 (.op o1 X x) r)) := ⟨Kept.refl h, by simp⟩
  obtain ⟨hl, hr, hrL, hrleaf, hb1⟩ := (good_op_add ho2).1 h
  obtain ⟨hX, hx, hxL, hxleaf, hb2⟩ := (good_op_add ho1).1 hl
  have hm1 := hb1
  simp only [Tree.bare, Tree.within, Bool.or_eq_true, Bool.and_eq_true] at hb1 hb2
  have fin : ∀ a b : Char, fuseSign2Op s1 s2 p1 = .ok a → fuseSign2 s1 p2 = .ok b →
      Kept m ρ g V (.op o2 (.op o1 X x) r) (Tree.mk a (Tree.mk b X r) x) ∧
      ∀ i xc yc c, x = .var i xc → r = .var i yc → applyOp b xc yc = .ok c → Kept m ρ g V (.op o2 (.op o1 X x) r) (Tree.mk a X (.var i c)) := by
    intro a b ha hb
    have step : ∀ (a b : Char), isAddsub a = true → isAddsub b = true → (∀ v, (Tree.op o2 (.op o1 X x) r).eval ρ = some v → (Tree.op a (.op b X r) x).eval ρ = some v) →
        (((Tree.op o2 (.op o1 X x) r).Mild false → a = '+' ∧ b = '+')) →
        (∀ i xc yc c, x = .var i xc → r = .var i yc → applyOp b xc yc = .ok c → ∀ v, (Tree.op o2 (.op o1 X x) r).eval ρ = some v → (Tree.op a X (.var i c)).eval ρ = some v) →
        Kept m ρ g V (.op o2 (.op o1 X x) r) (Tree.mk a (Tree.mk b X r) x) ∧
        ∀ i xc yc c, x = .var i xc → r = .var i yc → applyOp b xc yc = .ok c → Kept m ρ g V (.op o2 (.op o1 X x) r) (Tree.mk a X (.var i c)) := by
      intro a b ha hb hv hm hv'
      refine ⟨⟨good_mk ha (good_mk hb hX hr hrL (by simp only [Bool.or_eq_true]; exact hb1.imp And.left id)) hx hxL ?_, fun v h => ?_, fun h => ?_, ?_⟩, fun i xc yc c e1 e2 e3 => ⟨?_, fun v h => ?_, fun h => ?_, ?_⟩⟩
      · rw [bare_mk]; simp only [Bool.or_eq_true, Bool.and_eq_true]; rcases hb1 with h | h
        · exact Or.inr h.2
        · rcases hb2 with h' | h'
          · exact Or.inl ⟨h', h⟩
          · exact Or.inr h'
      · rw [Tree.eval_mk]
        have := hv v h
        simp only [Tree.eval, Tree.eval_mk] at this ⊢
        exact this
      · obtain ⟨e1, e2⟩ := hm h
        subst e1 e2
        exact mild_mk (mild_mk h.1.1 h.2.1 (Or.inl (by simp))) h.1.2.1 (Or.inl (by simp))
      · refine Stay.sum (fun A b1 b2 => ?_) fun hf => (firm_left ho2 hf).elim
        simp only [Tree.within, within_mk, Bool.and_eq_true] at b1 ⊢
        exact ⟨⟨b1.1, b2⟩, b1.2⟩
      · subst e1
        exact good_mk ha hX hx (leaf_right rfl) (by simp [Tree.bare, Tree.within])
      · rw [Tree.eval_mk]
        exact hv' i xc yc c e1 e2 e3 v h
      · obtain ⟨f1, f2⟩ := hm h
        subst f1 f2
        exact mild_mk h.1.1 trivial (Or.inl (by simp))
      · refine Stay.sum (fun A b1 b2 => ?_) fun hf => (firm_left ho2 hf).elim
        simp only [Tree.within, within_mk, Bool.and_eq_true] at b1 ⊢
        exact ⟨b1.1, trivial⟩
    have val : ∀ (a b : Char), isAddsub a = true → isAddsub b = true → (∀ A B C : Int64,
        (if a = '+' then (if b = '+' then A + C else if b = '-' then A - C else if b = '#' then -(A + C) else -(A - C)) + B
        else if a = '-' then (if b = '+' then A + C else if b = '-' then A - C else if b = '#' then -(A + C) else -(A - C)) - B
        else if a = '#' then -((if b = '+' then A + C else if b = '-' then A - C else if b = '#' then -(A + C) else -(A - C)) + B)
        else -((if b = '+' then A + C else if b = '-' then A - C else if b = '#' then -(A + C) else -(A - C)) - B)) =
        (if o2 = '+' then (if o1 = '+' then A + B else if o1 = '-' then A - B else if o1 = '#' then -(A + B) else -(A - B)) + C
        else if o2 = '-' then (if o1 = '+' then A + B else if o1 = '-' then A - B else if o1 = '#' then -(A + B) else -(A - B)) - C
        else if o2 = '#' then -((if o1 = '+' then A + B else if o1 = '-' then A - B else if o1 = '#' then -(A + B) else -(A - B)) + C)
        else -((if o1 = '+' then A + B else if o1 = '-' then A - B else if o1 = '#' then -(A + B) else -(A - B)) - C))) →
        ∀ v, (Tree.op o2 (.op o1 X x) r).eval ρ = some v → (Tree.op a (.op b X r) x).eval ρ = some v := by
      intro a b ha hb he v h
      obtain ⟨W, C, e1, e2, e3⟩ := (eval_add ho2 ρ _ _ v).1 h
      obtain ⟨A, B, e4, e5, e6⟩ := (eval_add ho1 ρ _ _ W).1 e1
      refine (eval_add ha ρ _ _ v).2 ⟨_, B, (eval_add hb ρ _ _ _).2 ⟨A, C, e4, e2, rfl⟩, e5, ?_⟩
      rw [e3, e6, he]
    have val' : ∀ (a b : Char), isAddsub a = true → (∀ (A X xc yc c : Int64), applyOp b xc yc = .ok c →
        (if a = '+' then A + c * X else if a = '-' then A - c * X else if a = '#' then -(A + c * X) else -(A - c * X)) =
        (if o2 = '+' then (if o1 = '+' then A + xc * X else if o1 = '-' then A - xc * X else if o1 = '#' then -(A + xc * X) else -(A - xc * X)) + yc * X
        else if o2 = '-' then (if o1 = '+' then A + xc * X else if o1 = '-' then A - xc * X else if o1 = '#' then -(A + xc * X) else -(A - xc * X)) - yc * X
        else if o2 = '#' then -((if o1 = '+' then A + xc * X else if o1 = '-' then A - xc * X else if o1 = '#' then -(A + xc * X) else -(A - xc * X)) + yc * X)
        else -((if o1 = '+' then A + xc * X else if o1 = '-' then A - xc * X else if o1 = '#' then -(A + xc * X) else -(A - xc * X)) - yc * X))) →
        ∀ i xc yc c, x = .var i xc → r = .var i yc → applyOp b xc yc = .ok c → ∀ v, (Tree.op o2 (.op o1 X x) r).eval ρ = some v → (Tree.op a X (.var i c)).eval ρ = some v := by
      intro a b ha he i xc yc c f1 f2 f3 v h
      subst f1 f2
      obtain ⟨W, C, e1, e2, e3⟩ := (eval_add ho2 ρ _ _ v).1 h
      obtain ⟨A, B, e4, e5, e6⟩ := (eval_add ho1 ρ _ _ W).1 e1
      refine (eval_add ha ρ _ _ v).2 ⟨A, _, e4, rfl, ?_⟩
      simp only [Tree.eval, Option.some.injEq] at e2 e5
      subst e2 e5
      rw [e3, e6, he _ _ _ _ _ f3]
    have hvar : ∀ i xc, x = .var i xc → o1 = '+' ∨ o1 = '#' := fun i xc e => hxleaf rfl (by rw [e]; rfl)
    rcases peel_cases h1 with ⟨rfl, h1⟩ | ⟨rfl, h1⟩ | ⟨rfl, h1⟩ | ⟨rfl, h1⟩ <;> cases h1 <;>
      rcases peel_cases h2 with ⟨rfl, h2⟩ | ⟨rfl, h2⟩ | ⟨rfl, h2⟩ | ⟨rfl, h2⟩ <;> cases h2 <;> cases ha <;> cases hb
    all_goals
      refine step _ _ rfl rfl (val _ _ rfl rfl ?_) ?_ ?_
      · intro A B C; simp; try grind
      · intro h; obtain ⟨⟨_, _, h5⟩, _, h6⟩ := h; simp at h5 h6 <;> simp
      · first
        | (intro i xc yc c e
           exact absurd (hvar i xc e) (of_decide_eq_false rfl))
        | (refine val' _ _ rfl ?_
           intro A X xc yc c hc
           cases hc
           simp <;> grind)
  refine Res.bind (P := fun a => fuseSign2Op s1 s2 p1 = .ok a) ?_ fun a ha => ?_
  · unfold fuseSign2Op
    cases hf : fuseSign2 s1 s2 with
    | error e => have := fuse2_res s1 s2; rw [hf] at this; exact this
    | ok d => rw [ok_bind]; exact fuseOp_res d p1
  refine Res.bind (fuse2_res s1 p2) fun b hb => ?_
  obtain ⟨k1, k2⟩ := fin a b ha hb
  have hmk : ∀ o l r, ∃ o' l' r', Tree.mk o l r = .op o' l' r' := by
    intro o l r
    unfold Tree.mk
    split
    · split <;> exact ⟨_, _, _, rfl⟩
    · split
      · split <;> exact ⟨_, _, _, rfl⟩
      · exact ⟨_, _, _, rfl⟩
  split
  · exact ⟨k1, fun _ => hmk _ _ _⟩
  · cases x with
    | var i xc =>
      cases r with
      | var j yc =>
        simp only [Tree.root]
        split
        · rename_i hij
          subst hij
          refine Res.bind (applyOp_res b xc yc) fun c hc => ?_
          exact ⟨k2 i xc yc c rfl rfl hc, by simp⟩
        · exact other
      | idx _ _ _ => have h1 := hx.1; have h2 := hr.1; rw [h1] at h2; cases h2
      | _ => exact other
    | idx _ _ _ =>
      cases r with
      | var _ _ => have h1 := hx.1; have h2 := hr.1; rw [h1] at h2; cases h2
      | idx _ _ _ => simp [Tree.bare, Tree.within] at hm1
      | _ => exact other
    | _ => exact other

theorem sort_keep (ρ : Nat → Int64 → Int64) (g : Bool) (V : Nat → Prop) (t : Tree) (h : t.Good m false g V) :
    Res (fun p => Kept m ρ g V t p.2 ∧ (p.1 = true → ∃ o l r, p.2 = .op o l r)) (sortT t) := by
  have plain : ∀ o l r, (Tree.op o l r).Good m false g V → (isAddsub o = true → l.Loose) →
      Res (fun p => Kept m ρ g V (.op o l r) p.2 ∧ (p.1 = true → ∃ o l r, p.2 = .op o l r)) ((sortPlainT o l r).map (fun t => (false, t))) := by
    intro o l r h hl
    have := sortPlain_keep ρ g V o l r h hl
    cases hs : sortPlainT o l r with
    | error e => rw [hs] at this; exact this
    | ok t => rw [hs] at this; exact ⟨this, by simp⟩
  have other : ∀ t, t.Good m false g V → Res (fun p => Kept m ρ g V t p.2 ∧ (p.1 = true → ∃ o l r, p.2 = .op o l r)) (.ok (false, t)) := fun t h => ⟨Kept.refl h, by simp⟩
  cases t with
  | op o l r =>
    cases l with
    | op o1 X x =>
      rw [sortT]
      split
      · exact sortChained_keep ρ g V o1 X x o r h
      · rename_i hc
        refine plain _ _ _ h fun ho ho1 => ?_
        exact absurd (by simp [isComm2, ho, ho1]) hc
    | _ => exact plain _ _ _ h (fun _ => trivial)
  | _ => exact other _ h

/-! ## Constants and identities -/

theorem fold_keep (ρ : Nat → Int64 → Int64) (g : Bool) (V : Nat → Prop) (t : Tree) (h : t.Good m false g V) : Res (Kept m ρ g V t) (foldT t) := by
  unfold foldT
  split
  · split
    · rename_i hc
      subst hc
      refine ⟨trivial, fun v hv => ?_, fun _ => trivial, fun _ _ => rfl, (fun _ h => by cases h), (fun _ h => by cases h), fun h => h.elim⟩
      simp only [Tree.eval, Option.some.injEq] at hv ⊢
      rw [← hv]; simp
    · exact Kept.refl h
  · rename_i o x y
    refine Res.bind (applyOp_res o x y) fun c hc => ⟨trivial, fun v hv => ?_, fun _ => trivial, Stay.sum (fun _ _ _ => rfl) fun hf => ?_⟩
    · simp only [Tree.eval, Option.bind_some, hc, Except.toOption] at hv ⊢
      exact hv
    · obtain ⟨_, ⟨h2 | ⟨_, h2⟩, _⟩ | ⟨h2 | ⟨_, h2⟩, _⟩⟩ := hf <;> first | cases h2 | exact h2.elim
  · split
    · rename_i ho
      subst ho
      refine ⟨h.sub.1, fun v hv => ?_, fun _ => trivial, Stay.sum (fun _ _ _ => rfl) fun hf => (firm_var hf).elim⟩
      simp only [Tree.eval, Option.bind_some] at hv ⊢
      rw [← hv]
      show some _ = some (_ * _)
      congr 1
      grind
    · exact Kept.refl h
  · rename_i o id c i x
    split
    · rename_i ho
      subst ho
      have hs : Scaled (.idx id c i) (.val x) := by
        simp only [Good] at h
        exact h.2.1 trivial
      have hz : c * x ≠ 0 := by
        obtain ⟨_, _, _, k, rfl⟩ := h.sub.1
        rcases hs with ⟨h1, _⟩ | ⟨c', v, h1, h2, h3⟩ | ⟨c', v, h1, _⟩ | ⟨h1, _⟩ | ⟨h1, _⟩
        · cases h1
        · cases h1; cases h2; exact h3
        · cases h1
        · exact h1.elim
        · cases h1
      refine ⟨⟨h.sub.1.1, rfl, hz, h.sub.1.2.2.2⟩, fun v hv => ?_, fun _ => trivial, Stay.sum (fun A b _ => b) fun hf => absurd rfl hf.1⟩
      simp only [Tree.eval] at hv ⊢
      cases e : i.eval ρ with
      | none => rw [e] at hv; cases hv
      | some y =>
        rw [e] at hv
        simp only [Option.map_some, Option.bind_some] at hv ⊢
        rw [← hv]
        show some _ = some (_ * _)
        congr 1
        grind
    · exact Kept.refl h
  · rename_i o o1 X x y
    split
    · refine Res.bind (peel_res o1) fun ⟨s1, p1⟩ ⟨h1, ho1⟩ => ?_
      refine Res.bind (peel_res o) fun ⟨s2, p2⟩ ⟨h2, ho2⟩ => ?_
      refine Res.bind (fuse2_res s1 s2) fun a0 ha0 => ?_
      refine Res.bind (fuseOp_res a0 p1) fun a ha => ?_
      refine Res.bind (fuse3_res s1 p1 p2) fun b hb => ?_
      refine Res.bind (applyOp_res b x y) fun c hc => ?_
      obtain ⟨hl, hr, hrL, hrleaf, hb1⟩ := (good_op_add ho2).1 h
      obtain ⟨hX, hx, hxL, hxleaf, hb2⟩ := (good_op_add ho1).1 hl
      have step : ∀ (a : Char), isAddsub a = true → (∀ A : Int64,
          (if a = '+' then A + c else if a = '-' then A - c else if a = '#' then -(A + c) else -(A - c)) =
          (if o = '+' then (if o1 = '+' then A + x else if o1 = '-' then A - x else if o1 = '#' then -(A + x) else -(A - x)) + y
          else if o = '-' then (if o1 = '+' then A + x else if o1 = '-' then A - x else if o1 = '#' then -(A + x) else -(A - x)) - y
          else if o = '#' then -((if o1 = '+' then A + x else if o1 = '-' then A - x else if o1 = '#' then -(A + x) else -(A - x)) + y)
          else -((if o1 = '+' then A + x else if o1 = '-' then A - x else if o1 = '#' then -(A + x) else -(A - x)) - y))) →
          (((Tree.op o (.op o1 X (.val x)) (.val y)).Mild false → a = '+')) →
          Kept m ρ g V (Tree.op o (.op o1 X (.val x)) (.val y)) (Tree.mk a X (.val c)) := by
        intro a ha he hm
        refine ⟨good_mk ha hX trivial (leaf_right rfl) (by simp [Tree.bare, Tree.within]), fun v hv => ?_, fun h => ?_, Stay.sum (fun A b1 b2 => ?_) fun hf => (firm_left ho2 hf).elim⟩
        · rw [Tree.eval_mk]
          obtain ⟨W, C, e1, e2, e3⟩ := (eval_add ho2 ρ _ _ v).1 hv
          obtain ⟨A, B, e4, e5, e6⟩ := (eval_add ho1 ρ _ _ W).1 e1
          refine (eval_add ha ρ _ _ v).2 ⟨A, c, e4, rfl, ?_⟩
          simp only [Tree.eval, Option.some.injEq] at e2 e5
          subst e2 e5
          rw [e3, e6, he]
        · have := hm h
          subst this
          exact mild_mk h.1.1 trivial (Or.inl (by simp))
        · simp only [Tree.within, within_mk, Bool.and_eq_true] at b1 ⊢
          exact b1
      rcases peel_cases h1 with ⟨rfl, h1⟩ | ⟨rfl, h1⟩ | ⟨rfl, h1⟩ | ⟨rfl, h1⟩ <;> cases h1 <;>
        rcases peel_cases h2 with ⟨rfl, h2⟩ | ⟨rfl, h2⟩ | ⟨rfl, h2⟩ | ⟨rfl, h2⟩ <;> cases h2 <;> cases ha0 <;> cases ha <;> cases hb <;> cases hc
      all_goals
        refine step _ rfl ?_ ?_
        · intro A; simp; try grind
        · intro h; obtain ⟨⟨_, _, h5⟩, _, h6⟩ := h; simp at h5 h6 <;> simp
    · exact Kept.refl h
  · exact Kept.refl h

theorem id_keep (ρ : Nat → Int64 → Int64) (g : Bool) (V : Nat → Prop) (t : Tree) (h : t.Good m false g V) : Res (Kept m ρ g V t) (idT t) := by
  cases t with
  | op o l r =>
    unfold idT
    simp only []
    split
    · rename_i hid
      refine ⟨h.sub.1, fun v hv => ?_, fun hm => hm.1, Stay.sum (fun A b _ => b) fun hf => (firm_id hf h.sub.2 hid).elim⟩
      have hz : ∀ (y : Int64), isId o y = true → ∀ x, applyOp o x y = .ok x := by
        intro y hy x
        unfold isId at hy
        split at hy
        · rename_i ho
          simp at hy; subst hy
          rcases ho with rfl | rfl | rfl
          · show Except.ok (x + 0) = _; simp
          · show Except.ok (x - 0) = _; simp
          · show Except.ok (x ||| 0) = _; simp
        · split at hy
          · rename_i ho
            simp at hy; subst hy
            rcases ho with rfl | rfl
            · show Except.ok (x * 1) = _; simp
            · show (if (1 : Int64) = 0 ∨ (x = Int64.minValue ∧ (1 : Int64) = -1) then _ else Except.ok (x / 1)) = _
              rw [if_neg (by simp)]
              simp
          · split at hy
            · rename_i ho
              simp at hy; subst hy
              subst ho
              show Except.ok (x &&& -1) = _; simp
            · cases hy
      simp only [Tree.eval] at hv
      cases e1 : l.eval ρ with
      | none => rw [e1] at hv; simp at hv
      | some x =>
        rw [e1] at hv
        rw [← hv]
        cases r with
        | val y =>
          simp only [Tree.root, isIdArm] at hid
          simp only [Tree.eval, Option.bind_some, hz y hid, Except.toOption]
        | var i c =>
          simp only [Tree.root, isIdArm, Bool.and_eq_true, beq_iff_eq] at hid
          obtain ⟨rfl, hid⟩ := hid
          simp only [Tree.eval, Option.bind_some]
          rw [show (0 : Int64) * ρ i 0 = 0 by simp, hz 0 hid]
          rfl
        | idx i c t =>
          simp only [Tree.root, isIdArm, Bool.and_eq_true, beq_iff_eq] at hid
          exact absurd hid.1 h.sub.2.2.2.1
        | _ => simp [Tree.root, isIdArm] at hid
    · -- the negation of a sum with zero
      have zero : ∀ r : Tree, r.Good m false g V → isZero r.root.1 = true → ∀ v, r.eval ρ = some v → v = 0 := by
        intro r hr hz v hv
        cases r with
        | val y => simp [Tree.root, isZero] at hz; simp [Tree.eval] at hv; rw [← hv, hz]
        | var i c => simp [Tree.root, isZero] at hz; simp [Tree.eval] at hv; rw [← hv, hz]; simp
        | idx i c t => simp [Tree.root, isZero] at hz; exact absurd hz hr.2.2.1
        | _ => simp [Tree.root, isZero] at hz
      cases l with
      | op o1 X x =>
        show Res _ (if isZero r.root.1 && (o == '#' || o == '~') && isAddsub o1 then do .ok (Tree.mk (← fuseSignOp '-' o1) X x) else .ok (.op o (.op o1 X x) r))
        split
        · rename_i hc
          simp only [Bool.and_eq_true, Bool.or_eq_true, beq_iff_eq] at hc
          obtain ⟨⟨hz, ho⟩, ho1⟩ := hc
          have ho' : isAddsub o = true := by rcases ho with rfl | rfl <;> rfl
          obtain ⟨hl, hr, hrL, hrleaf, hb1⟩ := (good_op_add ho').1 h
          obtain ⟨hX, hx, hxL, hxleaf, hb2⟩ := (good_op_add ho1).1 hl
          refine Res.bind (fuseOp_res '-' o1) fun a ha => ?_
          have step : ∀ (a : Char), isAddsub a = true → (∀ A B : Int64,
              (if a = '+' then A + B else if a = '-' then A - B else if a = '#' then -(A + B) else -(A - B)) =
              -(if o1 = '+' then A + B else if o1 = '-' then A - B else if o1 = '#' then -(A + B) else -(A - B))) →
              Kept m ρ g V (Tree.op o (.op o1 X x) r) (Tree.mk a X x) := by
            intro a ha he
            refine ⟨good_mk ha hX hx hxL hb2, fun v hv => ?_, fun h => ?_, Stay.sum (fun A b1 _ => by rw [within_mk]; exact b1) fun hf => (firm_left ho' hf).elim⟩
            · rw [Tree.eval_mk]
              obtain ⟨W, C, e1, e2, e3⟩ := (eval_add ho' ρ _ _ v).1 hv
              obtain ⟨A, B, e4, e5, e6⟩ := (eval_add ho1 ρ _ _ W).1 e1
              refine (eval_add ha ρ _ _ v).2 ⟨A, B, e4, e5, ?_⟩
              rw [zero r hr hz C e2] at e3
              rw [he, ← e6, e3]
              rcases ho with rfl | rfl <;> simp
            · obtain ⟨_, _, h6⟩ := h
              rcases ho with rfl | rfl <;> simp at h6
          rcases (isAddsub_iff o1).1 ho1 with rfl | rfl | rfl | rfl <;> cases ha
          all_goals
            refine step _ rfl ?_
            intro A B; simp; try grind
        · exact Kept.refl h
      | var id c =>
        show Res _ (if r.root.1 = .val 0 ∧ (o = '#' ∨ o = '~') then .ok (.var id (-c))
          else if c = 0 ∧ isAddsub o then idVar o r (.op o (.var id c) r) else .ok (.op o (.var id c) r))
        split
        · rename_i hc
          obtain ⟨hz, ho⟩ := hc
          have ho' : isAddsub o = true := by rcases ho with rfl | rfl <;> rfl
          refine ⟨h.sub.1, fun v hv => ?_, fun _ => trivial, Stay.sum (fun _ _ _ => rfl) fun hf => (firm_var hf).elim⟩
          obtain ⟨W, C, e1, e2, e3⟩ := (eval_add ho' ρ _ _ v).1 hv
          rw [zero r h.sub.2 (by rw [hz]; rfl) C e2] at e3
          simp only [Tree.eval, Option.some.injEq] at e1 ⊢
          subst e1
          rw [e3]
          rcases ho with rfl | rfl <;> simp <;> grind
        · split
          · rename_i hc
            obtain ⟨rfl, ho⟩ := hc
            unfold idVar
            refine Res.bind (peel_res o) fun ⟨s, p⟩ ⟨h1, _⟩ => ?_
            refine Res.bind (fuse2_res s p) fun f hf => ?_
            have step : ∀ (x y : Int64), applyPrefix f x = .ok y → ∀ R : Int64,
                (if o = '+' then 0 + x * R else if o = '-' then 0 - x * R else if o = '#' then -(0 + x * R) else -(0 - x * R)) = y * R := by
              intro x y hxy R
              rcases peel_cases h1 with ⟨rfl, h1⟩ | ⟨rfl, h1⟩ | ⟨rfl, h1⟩ | ⟨rfl, h1⟩ <;> cases h1 <;> cases hf <;> cases hxy <;> simp <;> grind
            cases r with
            | val x =>
              refine Res.bind (applyPrefix_res f x) fun y hy => ⟨trivial, fun v hv => ?_, fun _ => trivial, Stay.sum (fun _ _ _ => rfl) fun hf => (firm_var hf).elim⟩
              obtain ⟨W, C, e1, e2, e3⟩ := (eval_add ho ρ _ _ v).1 hv
              simp only [Tree.eval, Option.some.injEq] at e1 e2 ⊢
              subst e1 e2
              have := step x y hy 1
              simp at this
              rw [e3, ← this]
              simp
            | var i x =>
              refine Res.bind (applyPrefix_res f x) fun y hy => ⟨h.sub.2, fun v hv => ?_, fun _ => trivial, Stay.sum (fun _ _ _ => rfl) fun hf => (firm_var hf).elim⟩
              obtain ⟨W, C, e1, e2, e3⟩ := (eval_add ho ρ _ _ v).1 hv
              simp only [Tree.eval, Option.some.injEq] at e1 e2 ⊢
              subst e1 e2
              rw [e3, ← step x y hy]
              simp
            | idx _ _ _ => have h1 := h.sub.1.1; have h2 := h.sub.2.1; rw [h1] at h2; cases h2
            | _ => exact Kept.refl h
          · exact Kept.refl h
      | idx id c i =>
        show Res _ (if r.root.1 = .val 0 ∧ (o = '#' ∨ o = '~') then .ok (.idx id (-c) i)
          else if c = 0 ∧ isAddsub o then idIdx r (.op o (.idx id c i) r) else .ok (.op o (.idx id c i) r))
        have hg := h.sub.1
        split
        · rename_i hc
          obtain ⟨hz, ho⟩ := hc
          have ho' : isAddsub o = true := by rcases ho with rfl | rfl <;> rfl
          refine ⟨⟨hg.1, rfl, fun e => hg.2.2.1 (by grind), hg.2.2.2⟩, fun v hv => ?_, fun _ => trivial, Stay.sum (fun A b _ => b) fun hf => ?_⟩
          · obtain ⟨W, C, e1, e2, e3⟩ := (eval_add ho' ρ _ _ v).1 hv
            rw [zero r h.sub.2 (by rw [hz]; rfl) C e2] at e3
            simp only [Tree.eval] at e1 ⊢
            cases e : i.eval ρ with
            | none => rw [e] at e1; cases e1
            | some y =>
              rw [e] at e1
              simp only [Option.map_some, Option.some.injEq] at e1 ⊢
              subst e1
              rw [e3]
              rcases ho with rfl | rfl <;> simp <;> grind
          · obtain ⟨_, ⟨_, v, h3, h4⟩ | ⟨_, v, h3, _⟩⟩ := hf
            · subst h3
              simp only [Tree.root, Token.val.injEq] at hz
              simp only [notId, ho', if_true] at h4
              exact absurd hz h4
            · cases h3
        · split
          · rename_i hc
            exact absurd hc.1 hg.2.2.1
          · exact Kept.refl h
      | _ => exact Kept.refl h
  | _ => exact Kept.refl h

/-- A new left operand. -/
theorem kept_left {ρ : Nat → Int64 → Int64} {g : Bool} {V : Nat → Prop} {o : Char} {l r : Tree} (h : (Tree.op o l r).Good m false g V) {rec : Tree → Except Err Tree}
    (hrec : ∀ (g : Bool) (V : Nat → Prop), l.Good m false g V → Res (Kept m ρ g V l) (rec l)) : Res (Kept m ρ g V (.op o l r)) (resortT rec (.op o l r)) := by
  have main : ∀ W : Nat → Prop, l.Good m false g W → (∀ l', l'.Good m false g W → Stay l l' → (Tree.op o l' r).Good m false g V) → Res (Kept m ρ g V (.op o l r)) (resortT rec (.op o l r)) := by
    intro W hW hl
    refine Res.bind (hrec g W hW) fun l' hk => ⟨hl l' hk.1 hk.2.2.2, fun v hv => ?_, fun hm => ⟨hk.2.2.1 hm.1, hm.2.1, hm.2.2⟩, hk.2.2.2.node (.refl r)⟩
    simp only [Tree.eval] at hv ⊢
    cases e1 : l.eval ρ with
    | none => rw [e1] at hv; simp at hv
    | some x => rw [hk.2.1 x e1]; rw [e1] at hv; exact hv
  have one : ∀ l', Stay l l' → (l'.bare || r.bare) = true := by
    intro l' hs
    have := h.one
    simp only [Bool.or_eq_true] at this ⊢
    exact this.imp hs.bare id
  simp only [Good] at h
  split at h
  · rename_i ho
    refine main V h.1 fun l' hl' hs => ?_
    rw [good_op_add ho]
    exact ⟨hl', h.2.1, h.2.2.1, fun _ => h.2.2.2.1 trivial, one l' hs⟩
  · rename_i ho
    obtain ⟨_, hsc, h⟩ := h
    split at h
    · rename_i hc
      obtain ⟨V₁, V₂, h1, h2, h3, h4, h5⟩ := h
      refine main V₁ h4 fun l' hl' hs => ?_
      simp only [Good, ho, hc, if_true]
      exact ⟨one l' hs, fun e => (hsc e).stay hs (.refl r), V₁, V₂, h1, h2, h3, hl', h5⟩
    · rename_i hc
      refine main V h.1 fun l' hl' hs => ?_
      simp only [Good, ho, hc]
      exact ⟨one l' hs, fun e => (hsc e).stay hs (.refl r), hl', h.2⟩

theorem squash_keep (ρ : Nat → Int64 → Int64) : ∀ (n : Nat) (g : Bool) (V : Nat → Prop) (t : Tree), t.Good m false g V → Res (Kept m ρ g V t) (squashT n t)
  | 0, g, V, t, _ => by simp [squashT, Res]
  | n + 1, g, V, t, h => by
    have resort : ∀ (b : Bool) (t t' : Tree), Kept m ρ g V t t' → (b = true → ∃ o l r, t' = .op o l r) →
        Res (Kept m ρ g V t) (if b then resortT (squashT n) t' else .ok t') := by
      intro b t t' hk hb
      cases b with
      | false => exact hk
      | true =>
        obtain ⟨o, l, r, rfl⟩ := hb rfl
        exact Res.mono (kept_left hk.1 fun g V hl => squash_keep ρ n g V l hl) fun _ h => hk.trans h
    have tail : ∀ (t0 t : Tree), Kept m ρ g V t0 t → Res (Kept m ρ g V t0) (do idT (← foldT t)) := by
      intro t0 t hk
      refine Res.bind (fold_keep ρ g V t hk.1) fun t' hk' => ?_
      exact Res.mono (id_keep ρ g V t' hk'.1) fun _ h => (hk.trans hk').trans h
    have tail' : ∀ (b : Bool) (t0 t' : Tree), Kept m ρ g V t0 t' → (b = true → ∃ o l r, t' = .op o l r) → ∀ f : Tree → Except Err Tree, (∀ t, Kept m ρ g V t0 t → Res (Kept m ρ g V t0) (f t)) →
        Res (Kept m ρ g V t0) (if b = true then resortT (squashT n) t' >>= f else (Except.ok t' : Except Err Tree) >>= f) := by
      intro b t0 t' hk hb f hf
      have := resort b t0 t' hk hb
      cases b with
      | false => exact Res.bind this hf
      | true => exact Res.bind this hf
    rw [squashT]
    split
    · exact Kept.refl h
    · refine Res.bind (rot_keep ρ g V t.flat.length t h) fun p hp => ?_
      refine tail' p.1 t p.2 hp.1 (fun hb => hp.2 (Or.inl hb)) _ fun t1 hk => ?_
      refine Res.bind (sort_keep ρ g V t1 hk.1) fun q hq => ?_
      exact tail' q.1 t q.2 (hk.trans hq.1) hq.2 _ (tail t)

/-! ## Unary operators -/

theorem eval_pre (ρ : Nat → Int64 → Int64) (c : Char) (t : Tree) (v : Int64) : (Tree.pre c t).eval ρ = some v ↔ ∃ x, t.eval ρ = some x ∧ applyPrefix c x = .ok v := by
  simp only [Tree.eval]
  cases t.eval ρ with
  | none => simp
  | some x =>
    cases h : applyPrefix c x with
    | error e => simp [h, Except.toOption]
    | ok y => simp [h, Except.toOption]

/-- What the steps before the operands are simplified preserve. -/
def KeptU (m : Bool) (ρ : Nat → Int64 → Int64) (raw g : Bool) (V : Nat → Prop) (t t' : Tree) : Prop :=
  t'.Good m raw g V ∧ (∀ v, t.eval ρ = some v → t'.eval ρ = some v) ∧ (t.Mild raw → t'.Mild raw ∧ ∀ c u, t' = .pre c u → c = '!' ∨ c = 'G') ∧ (∀ c u, t' = .pre c u → c ≠ '+') ∧ Stay t t'

theorem rpu_good (ρ : Nat → Int64 → Int64) (raw : Bool) : ∀ (n : Nat) (g : Bool) (V : Nat → Prop) (t : Tree), t.Good m raw g V → Res (KeptU m ρ raw g V t) (rpuT n t)
  | 0, g, V, t, _ => by simp [rpuT, Res]
  | n + 1, g, V, t, h => by
    cases t with
    | val _ => exact ⟨h, fun _ h => h, fun h => ⟨h, by simp⟩, by simp, .refl _⟩
    | var _ _ => exact ⟨h, fun _ h => h, fun h => ⟨h, by simp⟩, by simp, .refl _⟩
    | idx _ _ _ => exact ⟨h, fun _ h => h, fun h => ⟨h, by simp⟩, by simp, .refl _⟩
    | arr _ _ => exact ⟨h, fun _ h => h, fun h => ⟨h, by simp⟩, by simp, .refl _⟩
    | op _ _ _ => exact ⟨h, fun _ h => h, fun h => ⟨h, by simp⟩, by simp, .refl _⟩
    | pre c t =>
      -- the prefix stays
      have keep : c ≠ '+' → (c = '-' → t.leaf = false) → KeptU m ρ raw g V (.pre c t) (.pre c t) := by
        intro hc hl
        refine ⟨h, fun _ h => h, fun hm => ⟨hm, ?_⟩, ?_, .refl _⟩
        · rintro c' u ⟨⟩
          rcases hm with ⟨h1, _⟩ | h1 | ⟨_, h1 | h1, h3⟩
          · exact Or.inl h1
          · exact Or.inr h1
          · exact absurd h1 hc
          · rw [hl h1] at h3; cases h3
        · rintro c' u ⟨⟩; exact hc
      cases t with
      | pre s t =>
        have hc : c ≠ '+' := by
          rintro rfl
          rcases h with ⟨h1, _⟩ | ⟨h1, _⟩ | ⟨h1, _⟩ | ⟨_, _, h1, _⟩ <;> simp [Tree.leaf] at h1
        rw [rpuT]
        split
        · rename_i hs
          subst hs
          have key : t.Good m raw g V ∧ (∀ v, (Tree.pre s (.pre s t)).eval ρ = some v → t.eval ρ = some v) ∧ ((Tree.pre s (.pre s t)).Mild raw → t.Mild raw) := by
            rcases h with ⟨rfl, h⟩ | ⟨rfl, h⟩ | ⟨rfl, h1, h⟩ | ⟨_, rfl, h1, _⟩
            · rcases h with ⟨h1, h⟩ | ⟨h1, _⟩ | ⟨h1, _⟩ | ⟨_, h1, _⟩ <;> simp at h1
              refine ⟨h, fun v hv => ?_, fun hm => ?_⟩
              · obtain ⟨x, h1, h2⟩ := (eval_pre ρ _ _ v).1 hv
                obtain ⟨y, h3, h4⟩ := (eval_pre ρ _ _ x).1 h1
                cases h2; cases h4
                rw [h3]; simp
              · rcases hm with ⟨h1, _⟩ | h1 | ⟨_, _, h3⟩
                · simp at h1
                · simp at h1
                · simp [Tree.leaf] at h3
            · rcases h with ⟨h1, _⟩ | ⟨h1, h⟩ | ⟨h1, _⟩ | ⟨_, h1, _⟩ <;> simp at h1
              refine ⟨h, fun v hv => ?_, fun hm => ?_⟩
              · obtain ⟨x, h1, h2⟩ := (eval_pre ρ _ _ v).1 hv
                obtain ⟨y, h3, h4⟩ := (eval_pre ρ _ _ x).1 h1
                cases h2; cases h4
                rw [h3]; simp
              · rcases hm with ⟨_, hm⟩ | h1 | ⟨_, h1, _⟩
                · rcases hm with ⟨_, hm⟩ | h1 | ⟨_, h1, _⟩
                  · exact hm
                  · simp at h1
                  · simp at h1
                · simp at h1
                · simp at h1
            · rcases h with ⟨h1, _⟩ | ⟨h1, _⟩ | ⟨_, h1, _⟩ | ⟨_, h1, _⟩ <;> simp at h1
            · simp [Tree.leaf] at h1
          refine Res.mono (rpu_good ρ raw n g V t key.1) fun t' hk => ?_
          exact ⟨hk.1, fun v hv => hk.2.1 v (key.2.1 v hv), fun hm => hk.2.2.1 (key.2.2 hm), hk.2.2.2.1, Stay.prefix fun A b => hk.2.2.2.2.1 A b⟩
        · rename_i hs
          split
          · rename_i ha
            simp only [Bool.and_eq_true] at ha
            -- a sign before another one
            rcases h with ⟨rfl, h⟩ | ⟨rfl, h⟩ | ⟨rfl, h1, h⟩ | ⟨_, rfl, h1, _⟩
            · rcases h with ⟨rfl, h⟩ | ⟨rfl, h⟩ | ⟨rfl, h1, h⟩ | ⟨hraw, rfl, hl, h⟩
              · exact absurd rfl hs
              · cases ha.1
              · cases ha.1
              · refine Res.bind (fuse2_res '+' '-') fun f hf => ?_
                cases hf
                refine Res.mono (rpu_good ρ raw n g V (.pre '-' t) (Or.inl ⟨rfl, h⟩)) fun t' hk => ⟨hk.1, fun v hv => hk.2.1 v ?_, fun hm => ?_, hk.2.2.2.1, Stay.prefix fun A b => hk.2.2.2.2.1 A b⟩
                · obtain ⟨x, h1, h2⟩ := (eval_pre ρ _ _ v).1 hv
                  obtain ⟨y, h3, h4⟩ := (eval_pre ρ _ _ x).1 h1
                  cases h4
                  exact (eval_pre ρ _ _ v).2 ⟨_, h3, h2⟩
                · rcases hm with ⟨h1, _⟩ | h1 | ⟨_, _, h3⟩
                  · simp at h1
                  · simp at h1
                  · simp [Tree.leaf] at h3
            · cases ha.2
            · cases ha.2
            · simp [Tree.leaf] at h1
          · -- the inner prefix
            have main : ∀ g', (Tree.pre s t).Good m raw g' V → (∀ u, u.Good m raw g' V → (Tree.pre c u).Good m raw g V) →
                Res (KeptU m ρ raw g V (.pre c (.pre s t))) (do .ok (.pre c (← rpuT n (.pre s t)))) := by
              intro g' hg hback
              refine Res.bind (rpu_good ρ raw n g' V (.pre s t) hg) fun u hk => ⟨hback u hk.1, fun v hv => ?_, fun hm => ⟨?_, ?_⟩, ?_, Stay.prefix fun A b => hk.2.2.2.2.1 A b⟩
              · obtain ⟨x, h1, h2⟩ := (eval_pre ρ _ _ v).1 hv
                exact (eval_pre ρ _ _ v).2 ⟨x, hk.2.1 x h1, h2⟩
              · rcases hm with ⟨h1, hm⟩ | h1 | ⟨_, _, h3⟩
                · exact Or.inl ⟨h1, (hk.2.2.1 hm).1⟩
                · exact Or.inr (Or.inl h1)
                · simp [Tree.leaf] at h3
              · rintro c' u' ⟨⟩
                rcases hm with ⟨h1, hm⟩ | h1 | ⟨_, _, h3⟩
                · exact Or.inl h1
                · exact Or.inr h1
                · simp [Tree.leaf] at h3
              · rintro c' u' ⟨⟩; exact hc
            rcases h with ⟨rfl, h⟩ | ⟨rfl, h⟩ | ⟨rfl, h1, h⟩ | ⟨_, rfl, h1, _⟩
            · exact main g h fun u hu => Or.inl ⟨rfl, hu⟩
            · exact main g h fun u hu => Or.inr (Or.inl ⟨rfl, hu⟩)
            · exact main false h fun u hu => Or.inr (Or.inr (Or.inl ⟨rfl, h1, hu⟩))
            · simp [Tree.leaf] at h1
      | val x =>
        refine Res.bind (applyPrefix_res c x) fun y hy => ⟨trivial, fun v hv => ?_, fun _ => ⟨trivial, by simp⟩, by simp, Stay.prefix fun _ _ => rfl⟩
        obtain ⟨x', h1, h2⟩ := (eval_pre ρ _ _ v).1 hv
        cases h1
        rw [hy] at h2; cases h2; rfl
      | var id k =>
        rw [rpuT]
        split
        · rename_i ha
          have hV : m = false ∧ V id := by
            rcases h with ⟨_, h⟩ | ⟨_, h⟩ | ⟨_, _, h⟩ | ⟨_, _, _, h⟩ <;> exact h
          refine Res.bind (applyPrefix_res c k) fun y hy => ⟨hV, fun v hv => ?_, fun _ => ⟨trivial, by simp⟩, by simp, Stay.prefix fun _ _ => rfl⟩
          obtain ⟨x', h1, h2⟩ := (eval_pre ρ _ _ v).1 hv
          simp only [Tree.eval, Option.some.injEq] at h1 ⊢
          subst h1
          rcases h with ⟨rfl, _⟩ | ⟨rfl, _⟩ | ⟨rfl, _⟩ | ⟨_, rfl, _⟩
          · cases h2; cases hy; grind
          · cases ha
          · cases ha
          · cases h2; cases hy; rfl
        · rename_i ha
          refine keep ?_ ?_
          · rintro rfl; exact ha rfl
          · rintro rfl; exact absurd rfl ha
      | idx id k i =>
        rw [rpuT]
        split
        · rename_i ha
          have hV : m = true ∧ raw = false ∧ k ≠ 0 ∧ ∃ j, i = .val j := by
            rcases h with ⟨_, h⟩ | ⟨_, h⟩ | ⟨_, _, h⟩ | ⟨_, _, _, h⟩ <;> exact h
          have hc : c = '-' ∨ c = '+' := by
            rcases h with ⟨rfl, _⟩ | ⟨rfl, _⟩ | ⟨rfl, _⟩ | ⟨_, rfl, _⟩
            · exact Or.inl rfl
            · cases ha
            · cases ha
            · exact Or.inr rfl
          refine Res.bind (applyPrefix_res c k) fun y hy => ⟨⟨hV.1, hV.2.1, ?_, hV.2.2.2⟩, fun v hv => ?_, fun _ => ⟨trivial, by simp⟩, by simp, Stay.prefix fun A b => b⟩
          · rcases hc with rfl | rfl <;> cases hy
            · exact fun e => hV.2.2.1 (by grind)
            · exact hV.2.2.1
          · obtain ⟨x', h1, h2⟩ := (eval_pre ρ _ _ v).1 hv
            simp only [Tree.eval] at h1 ⊢
            cases e : i.eval ρ with
            | none => rw [e] at h1; cases h1
            | some z =>
              rw [e] at h1
              simp only [Option.map_some, Option.some.injEq] at h1 ⊢
              subst h1
              rcases hc with rfl | rfl <;> cases h2 <;> cases hy
              · grind
              · rfl
        · rename_i ha
          refine keep ?_ ?_
          · rintro rfl; exact ha rfl
          · rintro rfl; exact absurd rfl ha
      | arr id i =>
        rw [rpuT]
        · refine keep ?_ (fun _ => rfl)
          rintro rfl
          rcases h with ⟨h1, _⟩ | ⟨h1, _⟩ | ⟨h1, _⟩ | ⟨_, _, h1, _⟩ <;> simp [Tree.leaf] at h1
        all_goals simp
      | op o l r =>
        have hc : c ≠ '+' := by
          rintro rfl
          rcases h with ⟨h1, _⟩ | ⟨h1, _⟩ | ⟨h1, _⟩ | ⟨_, _, h1, _⟩ <;> simp [Tree.leaf] at h1
        rw [rpuT]
        split
        · rename_i hcomm
          rcases h with ⟨rfl, h⟩ | ⟨rfl, h⟩ | ⟨rfl, h1, h⟩ | ⟨_, rfl, h1, _⟩
          · have ho : isAddsub o = true := by
              simp only [isComm2, Bool.or_eq_true, Bool.and_eq_true, beq_iff_eq] at hcomm
              rcases hcomm with ⟨h1, _⟩ | ⟨_, rfl⟩
              · exact h1
              · rfl
            obtain ⟨hl, hr, hR, _, hb⟩ := (good_op_add ho).1 h
            refine Res.bind (fuseOp_res '-' o) fun a ha => ?_
            have hmk : ∃ o' l' r', Tree.mk a l r = .op o' l' r' := by
              unfold Tree.mk
              split
              · split <;> exact ⟨_, _, _, rfl⟩
              · split
                · split <;> exact ⟨_, _, _, rfl⟩
                · exact ⟨_, _, _, rfl⟩
            have step : ∀ (a : Char), isAddsub a = true → (∀ A B : Int64,
                (if a = '+' then A + B else if a = '-' then A - B else if a = '#' then -(A + B) else -(A - B)) =
                -(if o = '+' then A + B else if o = '-' then A - B else if o = '#' then -(A + B) else -(A - B))) →
                (∃ o' l' r', Tree.mk a l r = .op o' l' r') → KeptU m ρ raw g V (.pre '-' (.op o l r)) (Tree.mk a l r) := by
              intro a ha he hmk
              refine ⟨good_mk ha hl hr hR hb, fun v hv => ?_, fun hm => ?_, ?_, Stay.prefix fun A b => by rw [within_mk]; exact b⟩
              · rw [Tree.eval_mk]
                obtain ⟨W, e1, e2⟩ := (eval_pre ρ _ _ v).1 hv
                obtain ⟨A, B, e4, e5, e6⟩ := (eval_add ho ρ _ _ W).1 e1
                refine (eval_add ha ρ _ _ v).2 ⟨A, B, e4, e5, ?_⟩
                cases e2
                rw [he, e6]
              · rcases hm with ⟨h1, _⟩ | h1 | ⟨_, _, h3⟩
                · simp at h1
                · simp at h1
                · simp [Tree.leaf] at h3
              · obtain ⟨o', l', r', h1⟩ := hmk
                rw [h1]; simp
            rcases (isAddsub_iff o).1 ho with rfl | rfl | rfl | rfl <;> cases ha
            all_goals
              refine step _ rfl ?_ hmk
              intro A B; simp; try grind
          · simp [isComm2, isComm1, isAddsub] at hcomm <;> grind
          · simp [isComm2, isComm1, isAddsub] at hcomm <;> grind
          · simp [Tree.leaf] at h1
        · exact keep hc (fun _ => rfl)

/-! ## Binary operators -/

theorem gather_ok {a o b c : Char} (h : gatherSign2 a o b = .ok c) : (a = '+' ∨ a = '-') ∧ (b = '+' ∨ b = '-') ∧ isAddsub o = true ∧ isAddsub c = true ∧ (a = '+' → b = '+' → c = o) ∧
    ∀ X Y x y : Int64, applyPrefix a X = .ok x → applyPrefix b Y = .ok y →
      (if c = '+' then X + Y else if c = '-' then X - Y else if c = '#' then -(X + Y) else -(X - Y)) =
      (if o = '+' then x + y else if o = '-' then x - y else if o = '#' then -(x + y) else -(x - y)) := by
  have two : ∀ {a b c : Char}, fuseSign2 a b = .ok c → (a = '+' ∨ a = '-') ∧ (b = '+' ∨ b = '-') := by
    intro a b c h
    unfold fuseSign2 at h
    split at h <;> simp at h <;> simp
  unfold gatherSign2 at h
  cases h1 : peelSign o with
  | error e => rw [h1] at h; cases h
  | ok p =>
    obtain ⟨s, p⟩ := p
    rw [h1, ok_bind] at h
    simp only [] at h
    cases h2 : fuseSign2 s a with
    | error e => rw [h2] at h; cases h
    | ok s' =>
      rw [h2, ok_bind] at h
      cases h3 : fuseSign2 p b with
      | error e => rw [h3] at h; cases h
      | ok p' =>
        rw [h3, ok_bind] at h
        have ha := (two h2).2
        have hb := (two h3).2
        refine ⟨ha, hb, ?_⟩
        rcases peel_cases h1 with ⟨rfl, h1⟩ | ⟨rfl, h1⟩ | ⟨rfl, h1⟩ | ⟨rfl, h1⟩ <;> cases h1 <;> rcases ha with rfl | rfl <;> rcases hb with rfl | rfl <;> cases h2 <;> cases h3 <;> cases h
        all_goals
          refine ⟨rfl, rfl, by simp, ?_⟩
          intro X Y x y hx hy
          cases hx; cases hy
          simp; try grind

theorem gather_res (a o b : Char) : Res (fun c => gatherSign2 a o b = .ok c) (gatherSign2 a o b) := by
  have : Res (fun _ => True) (gatherSign2 a o b) := by
    unfold gatherSign2
    refine Res.bind (peel_res o) fun p _ => ?_
    refine Res.bind (fuse2_res _ _) fun s _ => ?_
    refine Res.bind (fuse2_res _ _) fun q _ => ?_
    refine Res.bind (fuse2_res _ _) fun q _ => ?_
    exact Res.mono (fuseOp_res _ _) fun _ _ => trivial
  cases h : gatherSign2 a o b with
  | error e => rw [h] at this; exact this
  | ok c => rfl

theorem rpb_add (ρ : Nat → Int64 → Int64) (g : Bool) (V : Nat → Prop) (o : Char) (l r : Tree) (ho : isAddsub o = true) (hl : l.Good m false g V) (hr : r.Good m false g V) (hm : r.Mild false) (hb : (l.bare || r.bare) = true) :
    Res (fun t => t.Good m false g V ∧ (∀ v, (Tree.op o l r).eval ρ = some v → t.eval ρ = some v) ∧ (l.Mild false → (o = '+' ∨ o = '-' ∧ r.leaf = true) → t.Mild false) ∧ Stay (.op o l r) t) (rpbT o l r) := by
  unfold rpbT
  rw [if_pos ho]
  refine Res.bind (gather_res _ o _) fun c hc => ?_
  obtain ⟨h1, h2, _, h4, h5, h6⟩ := gather_ok hc
  -- the sign taken from an operand
  have sign : ∀ t : Tree, t.Good m false g V → ((strip t).1 = '+' ∨ (strip t).1 = '-') →
      (strip t).2.Good m false g V ∧ (∀ v, t.eval ρ = some v → ∃ x, (strip t).2.eval ρ = some x ∧ applyPrefix (strip t).1 x = .ok v) ∧ (t.Mild false → (strip t).1 = '+' ∧ (strip t).2 = t) := by
    intro t ht hs
    have other : strip t = ('+', t) → (strip t).2.Good m false g V ∧ (∀ v, t.eval ρ = some v → ∃ x, (strip t).2.eval ρ = some x ∧ applyPrefix (strip t).1 x = .ok v) ∧ (t.Mild false → (strip t).1 = '+' ∧ (strip t).2 = t) := by
      intro h
      rw [h]
      exact ⟨ht, fun v hv => ⟨v, hv, rfl⟩, fun _ => ⟨rfl, rfl⟩⟩
    cases t with
    | pre s t =>
      simp only [strip] at hs ⊢
      refine ⟨?_, fun v hv => (eval_pre ρ _ _ v).1 hv, fun hm => ?_⟩
      · rcases ht with ⟨_, ht⟩ | ⟨_, ht⟩ | ⟨rfl, _, _⟩ | ⟨_, _, _, ht⟩
        · exact ht
        · exact ht
        · simp at hs
        · exact ht
      · rcases hm with ⟨rfl, _⟩ | rfl | ⟨h, _⟩
        · simp at hs
        · simp at hs
        · cases h
    | _ => exact other rfl
  obtain ⟨gl, el, ml⟩ := sign l hl h1
  obtain ⟨gr, er, mr⟩ := sign r hr h2
  obtain ⟨mr1, mr2⟩ := mr hm
  have sb : ∀ (A : Nat → Int64 → Bool) (t : Tree), t.within A = true → (strip t).2.within A = true := by
    intro A t h
    cases t <;> exact h
  refine ⟨good_mk h4 gl gr ?_ ?_, fun v hv => ?_, fun hml ho' => ?_, Stay.sum (fun A b1 b2 => ?_) fun hf => ?_⟩
  · rw [mr2]; exact mild_loose hm
  · simp only [Bool.or_eq_true] at hb ⊢
    exact hb.imp (sb _ l) (sb _ r)
  · rw [Tree.eval_mk]
    obtain ⟨x, y, e1, e2, e3⟩ := (eval_add ho ρ _ _ v).1 hv
    obtain ⟨X, e4, e5⟩ := el x e1
    obtain ⟨Y, e6, e7⟩ := er y e2
    refine (eval_add h4 ρ _ _ v).2 ⟨X, Y, e4, e6, ?_⟩
    rw [h6 X Y x y e5 e7, e3]
  · obtain ⟨ml1, ml2⟩ := ml hml
    rw [h5 ml1 mr1, ml2, mr2]
    refine mild_mk hml hm ?_
    rcases ho' with rfl | ⟨rfl, h⟩
    · exact Or.inl (by simp)
    · exact Or.inr ⟨rfl, h⟩
  · rw [within_mk, sb A l b1, sb A r b2]; rfl
  · have hstrip : ∀ t : Tree, (t.coefOf.isSome = true ∨ ∃ v, t = .val v) → strip t = ('+', t) := by
      intro t ht
      cases t with
      | pre s t =>
        rcases ht with h | ⟨v, h⟩ <;> cases h
      | _ => rfl
    have hlr : strip l = ('+', l) ∧ strip r = ('+', r) := by
      obtain ⟨_, ⟨h2 | ⟨h2, _⟩, v, h3, _⟩ | ⟨h2 | ⟨h2, _⟩, v, h3, _⟩⟩ := hf
      · exact ⟨hstrip l (Or.inl h2), hstrip r (Or.inr ⟨v, h3⟩)⟩
      · rw [ho] at h2; cases h2
      · exact ⟨hstrip l (Or.inr ⟨v, h3⟩), hstrip r (Or.inl h2)⟩
      · rw [ho] at h2; cases h2
    rw [hlr.1, hlr.2]
    exact firm_mk h4 (firm_ops ho h4 hf)

/-! ## The simplifier -/

theorem simpl_keep (ρ : Nat → Int64 → Int64) : ∀ (n : Nat) (g : Bool) (V : Nat → Prop) (t : Tree), t.Good m true g V →
    Res (fun t' => t'.Good m false g V ∧ (∀ v, t.eval ρ = some v → t'.eval ρ = some v) ∧ (t.Mild true → t'.Mild false) ∧ (t.tip = true → t'.leaf = true) ∧ Stay t t') (simplT n t)
  | 0, g, V, t, _ => by simp [simplT, Res]
  | n + 1, g, V, t, h => by
    have ih := simpl_keep ρ n
    rw [simplT]
    have fin : t.tip = false → Res (fun t' => t'.Good m false g V ∧ (∀ v, t.eval ρ = some v → t'.eval ρ = some v) ∧ (t.Mild true → t'.Mild false) ∧ Stay t t') (downT (simplT n) t) →
        Res (fun t' => t'.Good m false g V ∧ (∀ v, t.eval ρ = some v → t'.eval ρ = some v) ∧ (t.Mild true → t'.Mild false) ∧ (t.tip = true → t'.leaf = true) ∧ Stay t t')
          (do let t ← downT (simplT n) t; if t.flat.length - 1 = 0 then .ok t else squashT t.flat.length t) := by
      intro hl hd
      refine Res.bind hd fun t' ⟨h1, h2, h3, h4⟩ => ?_
      split
      · exact ⟨h1, h2, h3, (fun h => by rw [hl] at h; cases h), h4⟩
      · exact Res.mono (squash_keep ρ _ g V t' h1) fun t'' hk => ⟨hk.1, fun v hv => hk.2.1 v (h2 v hv), fun hm => hk.2.2.1 (h3 hm), (fun h => by rw [hl] at h; cases h), h4.trans hk.2.2.2⟩
    cases t with
    | val x => exact ⟨trivial, fun _ h => h, fun _ => trivial, fun _ => rfl, .refl _⟩
    | var id c => exact ⟨h, fun _ h => h, fun _ => trivial, fun _ => rfl, .refl _⟩
    | idx _ _ _ => cases h.2.1
    | arr id i =>
      obtain ⟨hm, _, k, rfl⟩ := h
      cases n with
      | zero => simp [downT, downUT, rpuT, simplT, Tree.flat, Res, ok_bind, err_bind]
      | succ n =>
        refine (show Res _ (Except.ok (Tree.idx id 1 (.val k))) from ?_)
        exact ⟨⟨hm, rfl, (by decide), k, rfl⟩, (fun v hv => by simpa [Tree.eval] using hv), fun _ => trivial, fun _ => rfl, fun _ h => h, fun c h => h, (fun v h => by cases h), fun h => h⟩
    | pre c u =>
      rw [if_neg (by have := u.flat_pos; have h1 : (Tree.pre c u).flat.length = u.flat.length + 1 := by simp [Tree.flat]
                     omega)]
      refine fin rfl ?_
      show Res _ (downUT (simplT n) (.pre c u))
      refine Res.bind (rpu_good ρ true _ g V (.pre c u) h) fun t' hk => ?_
      obtain ⟨k1, k2, k3, k4, k5⟩ := hk
      cases t' with
      | val x => exact ⟨trivial, k2, fun _ => trivial, k5⟩
      | var id c => exact ⟨k1, k2, fun _ => trivial, k5⟩
      | idx _ _ _ => cases k1.2.1
      | arr id i =>
        obtain ⟨hm, _, k, rfl⟩ := k1
        refine Res.bind (ih g V (.val k) trivial) fun u hu => ?_
        have := hu.2.2.2.2.2.2.1 k rfl
        subst this
        exact ⟨⟨hm, rfl, (by decide), k, rfl⟩, (fun v hv => by simpa [Tree.eval] using k2 v hv), fun _ => trivial, Stay.prefix fun A b => k5.1 A b⟩
      | op o l r => exact Res.mono (ih g V _ k1) fun t'' ⟨j1, j2, j3, _, j5⟩ => ⟨j1, fun v hv => j2 v (k2 v hv), fun hm => j3 (k3 hm).1, k5.trans j5⟩
      | pre c' s =>
        have hc' := k4 c' s rfl
        -- the operand, then the prefix again
        have main : ∀ g', s.Good m true g' V → (∀ u, u.Good m false g' V → (Tree.pre c' u).Good m false g V) →
            Res (fun t' => t'.Good m false g V ∧ (∀ v, (Tree.pre c u).eval ρ = some v → t'.eval ρ = some v) ∧ ((Tree.pre c u).Mild true → t'.Mild false) ∧ Stay (.pre c u) t')
              (do let s ← simplT n s; rpuT (Tree.pre c' s).flat.length (.pre c' s)) := by
          intro g' hs hback
          refine Res.bind (ih g' V s hs) fun s' ⟨j1, j2, j3, _, j5⟩ => ?_
          refine Res.mono (rpu_good ρ false _ g V (.pre c' s') (hback s' j1)) fun t'' ⟨i1, i2, i3, _, i5⟩ => ⟨i1, fun v hv => i2 v ?_, fun hm => (i3 ?_).1, Stay.prefix fun A b => i5.1 A (j5.1 A (k5.1 A b))⟩
          · obtain ⟨x, h1, h2⟩ := (eval_pre ρ _ _ v).1 (k2 v hv)
            exact (eval_pre ρ _ _ v).2 ⟨x, j2 x h1, h2⟩
          · obtain ⟨m1, m2⟩ := k3 hm
            rcases m2 c' s rfl with rfl | rfl
            · rcases m1 with ⟨_, m⟩ | m | ⟨_, m, _⟩
              · exact Or.inl ⟨rfl, j3 m⟩
              · simp at m
              · simp at m
            · exact Or.inr (Or.inl rfl)
        show Res _ (do let s ← simplT n s; rpuT (Tree.pre c' s).flat.length (.pre c' s))
        rcases k1 with ⟨rfl, h⟩ | ⟨rfl, h⟩ | ⟨rfl, h1, h⟩ | ⟨_, rfl, h1, _⟩
        · exact main g h fun u hu => Or.inl ⟨rfl, hu⟩
        · exact main g h fun u hu => Or.inr (Or.inl ⟨rfl, hu⟩)
        · exact main false h fun u hu => Or.inr (Or.inr (Or.inl ⟨rfl, h1, hu⟩))
        · exact absurd rfl hc'
    | op o l r =>
      rw [if_neg (by have := l.flat_pos; have := r.flat_pos; rw [length_op]; omega)]
      refine fin rfl ?_
      show Res _ (downBT (simplT n) o l r)
      unfold downBT
      by_cases ho : isAddsub o = true
      · obtain ⟨hl, hr, hR, _, hb⟩ := (good_op_add ho).1 h
        refine Res.bind (ih g V l hl) fun l' ⟨a1, a2, a3, _, a5⟩ => ?_
        refine Res.bind (ih g V r hr) fun r' ⟨b1, b2, b3, b4, b5⟩ => ?_
        refine Res.mono (rpb_add ρ g V o l' r' ho a1 b1 (b3 hR) (by simp only [Bool.or_eq_true] at hb ⊢; exact hb.imp a5.bare b5.bare)) fun t' ⟨c1, c2, c3, c4⟩ => ⟨c1, fun v hv => c2 v ?_, fun hm => c3 (a3 hm.1) ?_, (a5.node b5).trans c4⟩
        · obtain ⟨x, y, e1, e2, e3⟩ := (eval_add ho ρ _ _ v).1 hv
          exact (eval_add ho ρ _ _ v).2 ⟨x, y, a2 x e1, b2 y e2, e3⟩
        · obtain ⟨_, _, ⟨h1, h2, h3⟩ | ⟨_, h1, h2⟩⟩ := hm
          · rcases (isAddsub_iff o).1 ho with rfl | rfl | rfl | rfl
            · exact Or.inl rfl
            · exact absurd rfl h1
            · exact absurd rfl h2
            · exact absurd rfl h3
          · exact Or.inr ⟨h1, b4 h2⟩
      · have ho' : isAddsub o = false := by simpa using ho
        have main : ∀ V₁ V₂ : Nat → Prop, l.Good m true g V₁ → r.Good m true g V₂ → (∀ l' r', l'.Good m false g V₁ → r'.Good m false g V₂ → Stay l l' → Stay r r' → (Tree.op o l' r').Good m false g V) →
            Res (fun t' => t'.Good m false g V ∧ (∀ v, (Tree.op o l r).eval ρ = some v → t'.eval ρ = some v) ∧ ((Tree.op o l r).Mild true → t'.Mild false) ∧ Stay (.op o l r) t')
              (do let l ← simplT n l; let r ← simplT n r; rpbT o l r) := by
          intro V₁ V₂ hl hr hback
          refine Res.bind (ih g V₁ l hl) fun l' ⟨a1, a2, a3, _, a5⟩ => ?_
          refine Res.bind (ih g V₂ r hr) fun r' ⟨b1, b2, b3, b4, b5⟩ => ?_
          unfold rpbT
          rw [if_neg ho]
          refine ⟨hback l' r' a1 b1 a5 b5, fun v hv => ?_, fun hm => ⟨a3 hm.1, b3 hm.2.1, Or.inl ?_⟩, a5.node b5⟩
          · simp only [Tree.eval] at hv ⊢
            cases e1 : l.eval ρ with
            | none => rw [e1] at hv; simp at hv
            | some x =>
              cases e2 : r.eval ρ with
              | none => rw [e1, e2] at hv; simp at hv
              | some y =>
                rw [e1, e2] at hv
                rw [a2 x e1, b2 y e2]
                exact hv
          · exact (isAddsub_iff' ho').2
        simp only [Good, ho'] at h
        obtain ⟨hb, hsc, h⟩ := h
        have one : ∀ l' r', Stay l l' → Stay r r' → (l'.bare || r'.bare) = true := by
          intro l' r' h1 h2
          simp only [Bool.or_eq_true] at hb ⊢
          exact hb.imp h1.bare h2.bare
        by_cases hc : isComm1 o = true
        · simp only [hc, if_true] at h
          obtain ⟨V₁, V₂, h1, h2, h3, h4, h5⟩ := h
          refine main V₁ V₂ h4 h5 fun l' r' hl' hr' s1 s2 => ?_
          simp only [Good, ho', hc, if_true]
          exact ⟨one l' r' s1 s2, fun e => (hsc e).stay s1 s2, V₁, V₂, h1, h2, h3, hl', hr'⟩
        · simp only [hc] at h
          refine main V V h.1 h.2 fun l' r' hl' hr' s1 s2 => ?_
          simp only [Good, ho', hc]
          exact ⟨one l' r' s1 s2, fun e => (hsc e).stay s1 s2, hl', hr'⟩

/-! ## Signs, and the evaluation of the result -/

/-- No array marks are left; indices are literals; there are variables or elements of arrays. -/
def Tree.clean (m : Bool) : Tree → Bool
  | .val _ => true
  | .var _ _ => !m
  | .idx _ _ (.val _) => true
  | .idx _ _ _ => false
  | .arr _ _ => false
  | .pre _ t => t.clean m
  | .op _ l r => l.clean m && r.clean m

theorem Tree.Good.clean : ∀ {g : Bool} {V : Nat → Prop} {t : Tree}, t.Good m false g V → t.clean m = true
  | _, _, .val _, _ => rfl
  | _, _, .var _ _, h => by cases h.1; rfl
  | _, _, .idx _ _ _, h => by obtain ⟨_, _, _, k, rfl⟩ := h; rfl
  | _, _, .arr _ _, h => by cases h.2.1
  | _, _, .pre _ _, h => by
    rcases h with ⟨_, h⟩ | ⟨_, h⟩ | ⟨_, _, h⟩ | ⟨_, _, _, h⟩ <;> exact h.clean
  | _, _, .op _ _ _, h => by
    have a := h.sub.1.clean
    have b := h.sub.2.clean
    simp [Tree.clean, a, b]

/-- Without arrays. -/
theorem Tree.Good.plain : ∀ {raw g : Bool} {V : Nat → Prop} {t : Tree}, t.Good false raw g V → t.clean false = true ∧ t.bare = true
  | _, _, _, .val _, _ => ⟨rfl, rfl⟩
  | _, _, _, .var _ _, _ => ⟨rfl, rfl⟩
  | _, _, _, .idx _ _ _, h => by cases h.1
  | _, _, _, .arr _ _, h => by cases h.1
  | _, _, _, .pre _ _, h => by
    rcases h with ⟨_, h⟩ | ⟨_, h⟩ | ⟨_, _, h⟩ | ⟨_, _, _, h⟩ <;> exact h.plain
  | _, _, _, .op _ _ _, h => by
    have a := h.sub.1.plain
    have b := h.sub.2.plain
    refine ⟨by simp [Tree.clean, a.1, b.1], ?_⟩
    have a := a.2
    have b := b.2
    simp only [Tree.bare] at a b
    simp [Tree.bare, Tree.within, a, b]

theorem within_op {c d : Char} {l r l' r' : Tree} (hl : ∀ A, l.within A = true → l'.within A = true) (hr : ∀ A, r.within A = true → r'.within A = true) :
    ∀ A, (Tree.op c l r).within A = true → (Tree.op d l' r').within A = true := by
  intro A h
  simp only [Tree.within, Bool.and_eq_true] at h ⊢
  exact ⟨hl A h.1, hr A h.2⟩

theorem flip_keep (ρ : Nat → Int64 → Int64) : ∀ t : Tree, t.clean m = true → Res (fun t' => t'.clean m = true ∧ (∀ A, t.within A = true → t'.within A = true) ∧ ∀ v, t.eval ρ = some v → t'.eval ρ = some (-v)) (flipT t)
  | .val x, _ => ⟨rfl, fun _ h => h, by intro v hv; cases hv; rfl⟩
  | .var id c, h => ⟨h, fun _ h => h, by intro v hv; cases hv; simp only [Tree.eval, Option.some.injEq]; grind⟩
  | .idx id c t, h => by
    refine ⟨(by cases t <;> first | rfl | cases h), fun _ h => h, fun v hv => ?_⟩
    simp only [Tree.eval] at hv ⊢
    cases e : t.eval ρ with
    | none => rw [e] at hv; cases hv
    | some x => rw [e] at hv; cases hv; simp only [Option.map_some, Option.some.injEq]; grind
  | .arr _ _, h => by cases h
  | .pre s t, h => by
    rw [flipT]
    refine Res.bind (fuse2_res '-' s) fun f hf => ⟨h, fun _ h => h, fun v hv => ?_⟩
    obtain ⟨x, h1, h2⟩ := (eval_pre ρ _ _ v).1 hv
    refine (eval_pre ρ _ _ _).2 ⟨x, h1, ?_⟩
    have hs : s = '+' ∨ s = '-' := by
      unfold fuseSign2 at hf
      split at hf <;> simp at hf <;> simp_all
    rcases hs with rfl | rfl <;> cases hf <;> cases h2
    · rfl
    · show Except.ok x = .ok (- -x); simp
  | .op o l r, h => by
    simp only [Tree.clean, Bool.and_eq_true] at h
    rw [flipT]
    split
    · rename_i ho
      refine Res.bind (flip_keep ρ l h.1) fun l' ⟨hl1, hlw, hl2⟩ => ?_
      refine Res.bind (flip_keep ρ r h.2) fun r' ⟨hr1, hrw, hr2⟩ => ⟨by simp [Tree.clean, hl1, hr1], within_op hlw hrw, fun v hv => ?_⟩
      obtain ⟨x, y, e1, e2, e3⟩ := (eval_add ho ρ _ _ v).1 hv
      refine (eval_add ho ρ _ _ _).2 ⟨-x, -y, hl2 x e1, hr2 y e2, ?_⟩
      rw [e3]
      rcases (isAddsub_iff o).1 ho with rfl | rfl | rfl | rfl <;> simp <;> grind
    · simp [Res]

theorem flipRoot_keep (ρ : Nat → Int64 → Int64) (t : Tree) (h : t.clean m = true) : Res (fun t' => t'.clean m = true ∧ (∀ A, t.within A = true → t'.within A = true) ∧ ∀ v, t.eval ρ = some v → t'.eval ρ = some v) (flipRootT t) := by
  have other : ∀ t : Tree, t.clean m = true → Res (fun t' => t'.clean m = true ∧ (∀ A, t.within A = true → t'.within A = true) ∧ ∀ v, t.eval ρ = some v → t'.eval ρ = some v) (.ok t) := fun t h => ⟨h, fun _ h => h, fun _ h => h⟩
  cases t with
  | op o l r =>
    unfold flipRootT
    simp only []
    split
    · rename_i ho
      split
      · simp only [Tree.clean, Bool.and_eq_true] at h
        refine Res.bind (peel_res o) fun ⟨s, p⟩ ⟨h1, ho'⟩ => ?_
        refine Res.bind (flip_keep ρ l h.1) fun l' ⟨hl1, hlw, hl2⟩ => ?_
        refine Res.bind (flip_keep ρ r h.2) fun r' ⟨hr1, hrw, hr2⟩ => ⟨by simp [Tree.clean, hl1, hr1], within_op hlw hrw, fun v hv => ?_⟩
        obtain ⟨x, y, e1, e2, e3⟩ := (eval_add ho' ρ _ _ v).1 hv
        have hp : isAddsub p = true := by
          rcases ho with rfl | rfl <;> cases h1 <;> rfl
        refine (eval_add hp ρ _ _ _).2 ⟨-x, -y, hl2 x e1, hr2 y e2, ?_⟩
        rw [e3]
        rcases ho with rfl | rfl <;> cases h1 <;> simp <;> grind
      · exact other _ h
    · exact other _ h
  | _ => exact other _ h

theorem canon_keep (ρ : Nat → Int64 → Int64) : ∀ (n : Nat) (t : Tree), t.clean m = true → Res (fun t' => t'.clean m = true ∧ (∀ A, t.within A = true → t'.within A = true) ∧ ∀ v, t.eval ρ = some v → t'.eval ρ = some v) (canonT n t)
  | 0, t, _ => by simp [canonT, Res]
  | n + 1, t, h => by
    rw [canonT]
    refine Res.bind (flipRoot_keep ρ t h) fun t' ⟨h1, hw, h2⟩ => ?_
    cases t' with
    | val x => exact ⟨h1, hw, h2⟩
    | var id c => exact ⟨h1, hw, h2⟩
    | arr _ _ => exact ⟨h1, hw, h2⟩
    | idx id c s =>
      obtain ⟨k, rfl⟩ : ∃ k, s = .val k := by cases s <;> first | exact ⟨_, rfl⟩ | cases h1
      cases n with
      | zero => exact fun h => by cases h
      | succ n => exact ⟨h1, hw, h2⟩
    | pre c s =>
      refine Res.bind (canon_keep ρ n s h1) fun s' ⟨h3, hw', h4⟩ => ⟨h3, fun A h => hw' A (hw A h), fun v hv => ?_⟩
      obtain ⟨x, e1, e2⟩ := (eval_pre ρ _ _ v).1 (h2 v hv)
      exact (eval_pre ρ _ _ v).2 ⟨x, h4 x e1, e2⟩
    | op o l r =>
      simp only [Tree.clean, Bool.and_eq_true] at h1
      refine Res.bind (canon_keep ρ n l h1.1) fun l' ⟨h3, hlw, h4⟩ => ?_
      refine Res.bind (canon_keep ρ n r h1.2) fun r' ⟨h5, hrw, h6⟩ => ⟨by simp [Tree.clean, h3, h5], fun A h => within_op hlw hrw A (hw A h), fun v hv => ?_⟩
      have := h2 v hv
      simp only [Tree.eval] at this ⊢
      cases e1 : l.eval ρ with
      | none => rw [e1] at this; simp at this
      | some x =>
        cases e2 : r.eval ρ with
        | none => rw [e1, e2] at this; simp at this
        | some y => rw [e1, e2] at this; rw [h4 x e1, h6 y e2]; exact this

/-- The whole simplification. -/
theorem canonize_keep (ρ : Nat → Int64 → Int64) (g : Bool) (V : Nat → Prop) (t : Tree) (h : t.Good m true g V) (ts : List Tok) (hc : canonize t.flat = .ok ts) :
    ∃ t' : Tree, ts = t'.flat ∧ t'.clean m = true ∧ (∀ A, t.within A = true → t'.within A = true) ∧ ∀ v, t.eval ρ = some v → t'.eval ρ = some v := by
  have key : Res (fun t' => t'.clean m = true ∧ (∀ A, t.within A = true → t'.within A = true) ∧ ∀ v, t.eval ρ = some v → t'.eval ρ = some v) (canonizeT t) := by
    unfold canonizeT
    refine Res.bind (simpl_keep ρ _ g V t h) fun t' ⟨h1, h2, _, _, h5⟩ => ?_
    exact Res.mono (canon_keep ρ _ t' h1.clean) fun t'' ⟨h3, hw, h4⟩ => ⟨h3, fun A h => hw A (h5.1 A h), fun v hv => h4 v (h2 v hv)⟩
  rcases canonize_mirror t with he | he
  · rw [he] at key; exact absurd rfl key
  · rw [hc] at he
    cases hr : canonizeT t with
    | error e => rw [hr] at he; cases he
    | ok t' =>
      rw [hr] at he key
      cases he
      exact ⟨t', rfl, key⟩

/-- `eval_rpn` on the tokens of a tree. -/
theorem evalLoop_flat {m : Bool} (f : Nat → Int64 → Int64) : ∀ (t : Tree), t.clean m = true → ∀ (rest : List Tok) (st : List Int64),
    evalLoop f (t.flat ++ rest) st = match t.eval f with | some v => evalLoop f rest (v :: st) | none => .error .panic
  | .val v, _, rest, st => rfl
  | .var id c, _, rest, st => rfl
  | .idx id c t, h, rest, st => by
    cases t with
    | val k => rfl
    | _ => cases h
  | .arr _ _, h, _, _ => by cases h
  | .pre c t, h, rest, st => by
    rw [Tree.flat, List.append_assoc, evalLoop_flat f t h]
    simp only [Tree.eval]
    cases t.eval f with
    | none => rfl
    | some x =>
      simp only [Option.bind_some, List.cons_append, List.nil_append, evalLoop, evalStep]
      cases ha : applyPrefix c x with
      | ok y => rfl
      | error e =>
        have : e = .panic := by
          unfold applyPrefix at ha
          repeat' split at ha
          all_goals simp at ha
          exact ha.symm
        subst this
        rfl
  | .op c l r, h, rest, st => by
    simp only [Tree.clean, Bool.and_eq_true] at h
    rw [Tree.flat, List.append_assoc, List.append_assoc, evalLoop_flat f l h.1]
    simp only [Tree.eval]
    cases l.eval f with
    | none => rfl
    | some x =>
      simp only [Option.bind_some]
      rw [evalLoop_flat f r h.2]
      cases r.eval f with
      | none => rfl
      | some y =>
        simp only [Option.bind_some, List.cons_append, List.nil_append, evalLoop, evalStep]
        cases ha : applyOp c x y with
        | ok z => rfl
        | error e =>
          have : e = .panic := applyOp_err ha
          subst this
          rfl

theorem evalRpn_flat {m : Bool} (f : Nat → Int64 → Int64) (t : Tree) (h : t.clean m = true) : evalRpn f t.flat = match t.eval f with | some v => .ok v | none => .error .panic := by
  unfold evalRpn
  have := evalLoop_flat f t h [] []
  rw [List.append_nil] at this
  rw [this]
  cases t.eval f <;> rfl

end Nd.Eval
