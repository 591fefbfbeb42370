import Verif.Proof.Trees
/-!
# Constant expressions are folded to their value
-/
namespace Nd.Eval
open Nd Nd.Spec

namespace Tree

/-- The root is a negated sum or difference. -/
def flipped : Tree → Bool
  | op c _ _ => c == '#' || c == '~'
  | _ => false

/-- Complements in a row. -/
def nots : Tree → Nat
  | pre c t => t.nots + (if c = '!' then 1 else 0)
  | _ => 0

/-- Constant trees on which the simplifier works. -/
def Fine : Tree → Prop
  | val _ => True
  | var _ _ | idx _ _ _ | arr _ _ => False
  | pre c t => t.Fine ∧ (((c = '+' ∨ c = '-') ∧ t.flipped = false ∧ t.nots ≤ 1) ∨ (c = '!' ∧ t.nots = 0) ∨ (c = 'G' ∧ ∃ o l r, t = op o l r))
  | op _ l r => l.Fine ∧ r.Fine

end Tree

open Tree

/-! ## `remove_prefix_unary` -/

/-- The beginning of `remove_prefix_unary` at a unary operator. -/
theorem rpu_eq (fuel : Nat) (c : Char) (t : Tree) :
    removePrefixUnary (fuel + 1) (Tree.pre c t).flat =
      (match t.root, Token.pre c with
      | (.pre s1, llhs), .pre s2 => do
        if s1 = s2 then removePrefixUnary fuel ((Tree.pre c t).flat.take ((← sub (t.flat.length - 1) llhs) + 1))
        else if isAddsub s1 && isAddsub s2 then removePrefixUnary fuel ((← put (Tree.pre c t).flat (t.flat.length - 1) (.pre (← fuseSign2 s1 s2), 1)).take (t.flat.length - 1 + 1))
        else .ok ((← removePrefixUnary fuel ((Tree.pre c t).flat.take (t.flat.length - 1 + 1))) ++ [(.pre s2, 1)])
      | (.val x, n), .pre s => do .ok ((← put (Tree.pre c t).flat (t.flat.length - 1) (.val (← applyPrefix s x), n)).take (t.flat.length - 1 + 1))
      | (.var id k, n), .pre s => do
        if isAddsub s then .ok ((← put (Tree.pre c t).flat (t.flat.length - 1) (.var id (← applyPrefix s k), n)).take (t.flat.length - 1 + 1)) else .ok (Tree.pre c t).flat
      | (.op o, llhs), .pre s => do
        if isComm2 o s then .ok ((← saveAndFlip (Tree.pre c t).flat (t.flat.length - 1) (.op (← fuseSignOp s o)) llhs).take (t.flat.length - 1 + 1)) else .ok (Tree.pre c t).flat
      | _, _ => .ok (Tree.pre c t).flat) := by
  have hp := t.flat_pos
  have hlen : (Tree.pre c t).flat.length - 1 = t.flat.length := by simp [Tree.flat]
  rw [removePrefixUnary, sub_ok (by simp [Tree.flat]), ok_bind, hlen]
  have h1 : get (Tree.pre c t).flat t.flat.length = .ok (.pre c, 1) := get_at t.flat [] _ _ rfl
  rw [h1, ok_bind, sub_ok (show 1 ≤ t.flat.length from hp), ok_bind]
  have h2 : get (Tree.pre c t).flat (t.flat.length - 1) = .ok t.root := by
    have : (Tree.pre c t).flat = t.stem ++ t.root :: [(.pre c, 1)] := by
      simp only [Tree.flat]; rw [t.flat_eq]; simp
    rw [this]
    exact get_at _ _ _ _ (by rw [t.flat_eq]; simp)
  rw [h2, ok_bind]
  rfl

theorem take_flat (c : Char) (t : Tree) : (Tree.pre c t).flat.take (t.flat.length - 1 + 1) = t.flat := by
  have hp := t.flat_pos
  simp only [Tree.flat]
  rw [Nat.sub_add_cancel hp, List.take_left]

theorem rpu_val (fuel : Nat) (c : Char) (x : Int64) (v : Int64) (h : applyPrefix c x = .ok v) :
    removePrefixUnary (fuel + 1) (Tree.pre c (.val x)).flat = .ok (Tree.val v).flat := by
  rw [rpu_eq]
  simp only [Tree.root, h, ok_bind]
  rfl

theorem rpu_same (fuel : Nat) (c : Char) (t : Tree) :
    removePrefixUnary (fuel + 1) (Tree.pre c (.pre c t)).flat = removePrefixUnary fuel t.flat := by
  have hp := t.flat_pos
  rw [rpu_eq]
  simp only [Tree.root, if_true]
  rw [sub_ok (by simp [Tree.flat]; omega), ok_bind]
  congr 1
  simp only [Tree.flat, List.length_append, List.length_cons, List.length_nil]
  rw [show t.flat.length + (0 + 1) - 1 - 1 + 1 = t.flat.length by omega, List.append_assoc, List.take_left]

theorem rpu_fuse (fuel : Nat) (c s : Char) (t : Tree) (h : s ≠ c) (h1 : isAddsub s = true) (h2 : isAddsub c = true) (f : Char) (hf : fuseSign2 s c = .ok f) :
    removePrefixUnary (fuel + 1) (Tree.pre c (.pre s t)).flat = removePrefixUnary fuel (Tree.pre f t).flat := by
  have hp := t.flat_pos
  rw [rpu_eq]
  simp only [Tree.root, if_neg h, h1, h2, Bool.and_self, if_true, hf, ok_bind]
  have h3 : put (Tree.pre c (.pre s t)).flat ((Tree.pre s t).flat.length - 1) (.pre f, 1) = .ok (t.flat ++ (.pre f, 1) :: [(.pre c, 1)]) := by
    have : (Tree.pre c (.pre s t)).flat = t.flat ++ (.pre s, 1) :: [(.pre c, 1)] := by simp [Tree.flat]
    rw [this]
    exact put_at _ _ _ _ _ (by simp [Tree.flat])
  rw [h3, ok_bind]
  congr 1
  have : (Tree.pre s t).flat.length - 1 + 1 = (t.flat ++ [(Token.pre f, 1)]).length := by simp [Tree.flat]
  rw [this]
  have h4 : t.flat ++ (Token.pre f, 1) :: [(Token.pre c, 1)] = (t.flat ++ [(Token.pre f, 1)]) ++ [(Token.pre c, 1)] := by simp
  rw [h4, List.take_left]
  rfl

theorem rpu_other (fuel : Nat) (c s : Char) (t : Tree) (h : s ≠ c) (h1 : ¬ (isAddsub s = true ∧ isAddsub c = true)) (r : List Tok)
    (hr : removePrefixUnary fuel (Tree.pre s t).flat = .ok r) :
    removePrefixUnary (fuel + 1) (Tree.pre c (.pre s t)).flat = .ok (r ++ [(.pre c, 1)]) := by
  rw [rpu_eq]
  have h2 : (isAddsub s && isAddsub c) = false := by
    cases h3 : isAddsub s <;> cases h4 : isAddsub c <;> simp_all
  simp only [Tree.root, if_neg h, h2, Bool.false_eq_true, if_false, take_flat, hr, ok_bind]

theorem rpu_op_keep (fuel : Nat) (c o : Char) (l r : Tree) (h : isComm2 o c = false) :
    removePrefixUnary (fuel + 1) (Tree.pre c (.op o l r)).flat = .ok (Tree.pre c (.op o l r)).flat := by
  rw [rpu_eq]
  simp only [Tree.root, h, Bool.false_eq_true, if_false]

theorem rpu_op_flip (fuel : Nat) (c o : Char) (l r : Tree) (h : isComm2 o c = true) (o' : Char) (ho : fuseSignOp c o = .ok o') :
    removePrefixUnary (fuel + 1) (Tree.pre c (.op o l r)).flat = .ok (Tree.mk o' l r).flat := by
  rw [rpu_eq]
  simp only [Tree.root, h, if_true, ho, ok_bind]
  have h1 : (Tree.pre c (.op o l r)).flat = l.flat ++ r.flat ++ (.op o, r.flat.length + 1) :: [(.pre c, 1)] := by simp [Tree.flat]
  rw [h1, saveAndFlip_node o' l r _ _ _ _ (by simp [Tree.flat]) rfl, ok_bind]
  have h2 : (Tree.op o l r).flat.length - 1 + 1 = (Tree.mk o' l r).flat.length := by
    rw [Tree.length_mk]; simp [Tree.flat, Nat.add_assoc]
  rw [h2, List.take_left]

/-- Other trees are not touched. -/
theorem rpu_leave (fuel : Nat) (t : Tree) (h : ∀ c s, t ≠ .pre c s) (hf : t.Fine) : removePrefixUnary (fuel + 1) t.flat = .ok t.flat := by
  have hp := t.flat_pos
  rw [removePrefixUnary, sub_ok hp, ok_bind]
  have h1 : get t.flat (t.flat.length - 1) = .ok t.root := by
    rw [t.flat_eq]; exact get_at _ _ _ _ (by simp)
  rw [h1, ok_bind]
  cases t with
  | val v => rfl
  | pre c s => exact absurd rfl (h c s)
  | var _ _ | idx _ _ _ | arr _ _ => exact hf.elim
  | op c l r =>
    have hl := l.flat_pos
    simp only [Tree.root]
    rw [sub_ok (by simp [Tree.flat]; omega), ok_bind]
    have h2 : get (Tree.op c l r).flat ((Tree.op c l r).flat.length - 1 - (r.flat.length + 1)) = .ok l.root := by
      have : (Tree.op c l r).flat = l.stem ++ l.root :: (r.flat ++ [(.op c, r.flat.length + 1)]) := by
        simp only [Tree.flat]; rw [l.flat_eq]; simp
      rw [this]
      exact get_at _ _ _ _ (by simp)
    rw [h2, ok_bind]

theorem isAddsub_pm (c : Char) (h : c = '+' ∨ c = '-') : isAddsub c = true := by rcases h with rfl | rfl <;> rfl

/-- `remove_prefix_unary` keeps the value and the properties. -/
theorem rpu_spec (ρ : Nat → Int64 → Int64) : ∀ (n : Nat) (t : Tree) (fuel : Nat) (v : Int64), t.flat.length ≤ n → t.flat.length ≤ fuel → t.Fine → t.eval ρ = some v →
    ∃ t' : Tree, removePrefixUnary fuel t.flat = .ok t'.flat ∧ t'.Fine ∧ t'.eval ρ = some v ∧ t'.flat.length ≤ t.flat.length ∧ t'.nots ≤ t.nots ∧
      ((∃ c s, t = .pre c s ∧ (c = '!' ∨ c = 'G')) → t'.flipped = false) ∧
      ((∃ c s, t = .pre c s) → (∃ x, t' = .val x) ∨ (∃ c s, t' = .pre c s) ∨ t'.flat.length < t.flat.length)
  | 0, t, fuel, v, h, _, _, _ => by have := t.flat_pos; omega
  | n + 1, t, 0, v, _, h, _, _ => by have := t.flat_pos; omega
  | n + 1, t, fuel + 1, v, hn, hfl, hF, hv => by
    by_cases hpre : ∃ c s, t = .pre c s
    · obtain ⟨c, s, rfl⟩ := hpre
      have hlen : (Tree.pre c s).flat.length = s.flat.length + 1 := by simp [Tree.flat]
      rw [hlen] at hn hfl
      obtain ⟨hFs, hc⟩ := hF
      simp only [Tree.eval] at hv
      cases hsv : s.eval ρ with
      | none => rw [hsv] at hv; cases hv
      | some x =>
      rw [hsv] at hv
      simp only [Option.bind_some] at hv
      have hap : applyPrefix c x = .ok v := by
        cases h : applyPrefix c x with
        | error e => rw [h] at hv; cases hv
        | ok w => rw [h] at hv; simp only [Except.toOption, Option.some.injEq] at hv; rw [hv]
      cases s with
      | var _ _ | idx _ _ _ | arr _ _ => exact hFs.elim
      | val y =>
        simp only [Tree.eval, Option.some.injEq] at hsv
        subst hsv
        exact ⟨.val v, rpu_val fuel c y v hap, trivial, rfl, by simp [Tree.flat], by simp [Tree.nots], fun _ => rfl, fun _ => Or.inl ⟨_, rfl⟩⟩
      | op o l r =>
        -- an operator below
        by_cases hcomm : isComm2 o c = true
        · rcases hc with ⟨hpm, hnf, _⟩ | ⟨rfl, _⟩ | ⟨rfl, _⟩
          · have ho : o = '+' ∨ o = '-' := by
              have h1 : isAddsub o = true := by
                simp only [isComm2, Bool.or_eq_true, Bool.and_eq_true] at hcomm
                rcases hcomm with h | ⟨_, h⟩
                · exact h.1
                · rw [beq_iff_eq] at h; subst h; exact isAddsub_pm _ hpm
              simp only [Tree.flipped, Bool.or_eq_false_iff, beq_eq_false_iff_ne] at hnf
              rcases (isAddsub_iff o).1 h1 with h | h | h | h
              · exact Or.inl h
              · exact Or.inr h
              · exact absurd h hnf.1
              · exact absurd h hnf.2
            have key : ∃ o', fuseSignOp c o = .ok o' ∧ (Tree.op o' l r).eval ρ = some v := by
              simp only [Tree.eval] at hsv ⊢
              cases hl : l.eval ρ with
              | none => rw [hl] at hsv; cases hsv
              | some a =>
                cases hr : r.eval ρ with
                | none => rw [hl, hr] at hsv; cases hsv
                | some b =>
                  rw [hl, hr] at hsv
                  simp only [Option.bind_some] at hsv ⊢
                  rcases hpm with rfl | rfl <;> rcases ho with rfl | rfl
                  · exact ⟨'+', rfl, by rw [hsv]; simpa [applyPrefix] using hap⟩
                  · exact ⟨'-', rfl, by rw [hsv]; simpa [applyPrefix] using hap⟩
                  · refine ⟨'#', rfl, ?_⟩
                    simp [applyOp, applyPrefix, Except.toOption] at hsv hap ⊢
                    rw [hsv, hap]
                  · refine ⟨'~', rfl, ?_⟩
                    simp only [applyOp, applyPrefix, Except.toOption] at hsv hap ⊢
                    simp at hsv hap
                    simp [← hap, ← hsv]
            obtain ⟨o', h1, h2⟩ := key
            refine ⟨Tree.mk o' l r, rpu_op_flip fuel c o l r hcomm o' h1, ?_, by rw [Tree.eval_mk]; exact h2, ?_, ?_, ?_, fun _ => Or.inr (Or.inr ?_)⟩
            · unfold Tree.mk
              split
              · split <;> first | exact hFs | exact ⟨hFs.1, trivial⟩ | exact hFs.2.elim
              · split
                · split <;> first | exact hFs | exact ⟨hFs.1, trivial⟩ | exact hFs.2.elim
                · exact hFs
            · rw [Tree.length_mk]; simp [Tree.flat]; omega
            · have : (Tree.mk o' l r).nots = 0 := by
                unfold Tree.mk
                split
                · split <;> rfl
                · split
                  · split <;> rfl
                  · rfl
              omega
            · rintro ⟨c', s', h3, h4⟩
              cases h3
              rcases hpm with rfl | rfl <;> rcases h4 with h4 | h4 <;> cases h4
            · rw [Tree.length_mk]; simp [Tree.flat]; omega
          · exfalso
            simp only [isComm2, Bool.or_eq_true, Bool.and_eq_true] at hcomm
            rcases hcomm with h | ⟨h1, h⟩
            · exact absurd h.2 (by decide)
            · rw [beq_iff_eq] at h; subst h; exact absurd h1 (by decide)
          · exfalso
            simp only [isComm2, Bool.or_eq_true, Bool.and_eq_true] at hcomm
            rcases hcomm with h | ⟨h1, h⟩
            · exact absurd h.2 (by decide)
            · rw [beq_iff_eq] at h; subst h; exact absurd h1 (by decide)
        · have hcomm' : isComm2 o c = false := by simpa using hcomm
          refine ⟨.pre c (.op o l r), rpu_op_keep fuel c o l r hcomm', ⟨hFs, hc⟩, ?_, Nat.le_refl _, Nat.le_refl _, fun _ => rfl, fun _ => Or.inr (Or.inl ⟨_, _, rfl⟩)⟩
          rw [Tree.eval, hsv]
          simp [hap, Except.toOption]
      | pre s1 u =>
        have hlen' : (Tree.pre s1 u).flat.length = u.flat.length + 1 := by simp [Tree.flat]
        rw [hlen'] at hn hfl
        simp only [Tree.eval] at hsv
        cases huv : u.eval ρ with
        | none => rw [huv] at hsv; cases hsv
        | some z =>
        rw [huv] at hsv
        simp only [Option.bind_some] at hsv
        have hap1 : applyPrefix s1 z = .ok x := by
          cases h : applyPrefix s1 z with
          | error e => rw [h] at hsv; cases hsv
          | ok w => rw [h] at hsv; simp only [Except.toOption, Option.some.injEq] at hsv; rw [hsv]
        by_cases heq : s1 = c
        · subst heq
          -- the two cancel
          have hpm : s1 = '+' ∨ s1 = '-' := by
            rcases hc with ⟨h, _⟩ | ⟨rfl, h⟩ | ⟨rfl, o, l, r, h⟩
            · exact h
            · simp [Tree.nots] at h
            · cases h
          have hz : u.eval ρ = some v := by
            rw [huv]
            rcases hpm with rfl | rfl
            · simp [applyPrefix] at hap hap1; rw [hap1, hap]
            · simp [applyPrefix] at hap hap1; rw [← hap, ← hap1]; simp
          obtain ⟨t', h1, h2, h3, h4, h5, h6, h7⟩ := rpu_spec ρ n u fuel v (by omega) (by omega) hFs.1 hz
          refine ⟨t', by rw [rpu_same]; exact h1, h2, h3, by omega, by simp only [Tree.nots]; omega, ?_, fun _ => Or.inr (Or.inr (by omega))⟩
          rintro ⟨c', s', h8, h9⟩
          cases h8
          rcases hpm with rfl | rfl <;> rcases h9 with h9 | h9 <;> cases h9
        · by_cases hadd : isAddsub s1 = true ∧ isAddsub c = true
          · -- one sign remains
            have hcpm : c = '+' ∨ c = '-' := by
              rcases hc with ⟨h, _⟩ | ⟨rfl, h⟩ | ⟨rfl, h⟩
              · exact h
              · exact absurd hadd.2 (by decide)
              · exact absurd hadd.2 (by decide)
            have hs1 : s1 = '+' ∨ s1 = '-' := by
              rcases hFs.2 with ⟨h, _⟩ | ⟨rfl, h⟩ | ⟨rfl, h⟩
              · exact h
              · exact absurd hadd.1 (by decide)
              · exact absurd hadd.1 (by decide)
            have hu : u.flipped = false ∧ u.nots ≤ 1 := by
              rcases hFs.2 with ⟨_, h⟩ | ⟨rfl, h⟩ | ⟨rfl, h⟩
              · exact h
              · exact absurd hadd.1 (by decide)
              · exact absurd hadd.1 (by decide)
            have key : fuseSign2 s1 c = .ok '-' ∧ v = -z := by
              rcases hcpm with rfl | rfl <;> rcases hs1 with rfl | rfl
              · exact absurd rfl heq
              · simp [applyPrefix] at hap hap1; exact ⟨rfl, by rw [← hap, hap1]⟩
              · simp [applyPrefix] at hap hap1; exact ⟨rfl, by rw [← hap, hap1]⟩
              · exact absurd rfl heq
            obtain ⟨t', h1, h2, h3, h4, h5, h6, h7⟩ := rpu_spec ρ n (.pre '-' u) fuel v (by simp [Tree.flat]; omega) (by simp [Tree.flat]; omega)
              ⟨hFs.1, Or.inl ⟨Or.inr rfl, hu⟩⟩ (by simp [Tree.eval, huv, applyPrefix, Except.toOption, key.2])
            have hl2 : (Tree.pre '-' u).flat.length = u.flat.length + 1 := by simp [Tree.flat]
            rw [hl2] at h4
            refine ⟨t', by rw [rpu_fuse fuel c s1 u heq hadd.1 hadd.2 '-' key.1]; exact h1, h2, h3, by omega, ?_, ?_, fun _ => Or.inr (Or.inr (by omega))⟩
            · simp only [Tree.nots] at h5 ⊢
              have : ('-' : Char) ≠ '!' := by decide
              simp only [this, if_false] at h5
              omega
            · rintro ⟨c', s', h8, h9⟩
              cases h8
              rcases hcpm with rfl | rfl <;> rcases h9 with h9 | h9 <;> cases h9
          · -- the inner one is simplified alone
            obtain ⟨t', h1, h2, h3, h4, h5, h6, h7⟩ := rpu_spec ρ n (.pre s1 u) fuel x (by omega) (by omega) hFs (by simp [Tree.eval, huv, hap1, Except.toOption])
            refine ⟨.pre c t', ?_, ⟨h2, ?_⟩, by simp [Tree.eval, h3, hap, Except.toOption], ?_, ?_, fun _ => rfl, fun _ => Or.inr (Or.inl ⟨_, _, rfl⟩)⟩
            · rw [rpu_other fuel c s1 u heq hadd t'.flat h1]; rfl
            · rcases hc with ⟨h, h', h''⟩ | ⟨rfl, h⟩ | ⟨rfl, o, l, r, h⟩
              · refine Or.inl ⟨h, ?_, by omega⟩
                apply h6
                refine ⟨s1, u, rfl, ?_⟩
                rcases hFs.2 with ⟨h, _⟩ | ⟨h, _⟩ | ⟨h, _⟩
                · exact absurd ⟨isAddsub_pm _ h, isAddsub_pm _ ‹_›⟩ hadd
                · exact Or.inl h
                · exact Or.inr h
              · exact Or.inr (Or.inl ⟨rfl, by omega⟩)
              · cases h
            · simp only [Tree.flat, List.length_append, List.length_cons, List.length_nil] at h4 ⊢
              omega
            · simp only [Tree.nots] at h5 ⊢; omega
    · have hpre' : ∀ c s, t ≠ .pre c s := fun c s h => hpre ⟨c, s, h⟩
      exact ⟨t, rpu_leave fuel t hpre' hF, hF, hv, Nat.le_refl _, Nat.le_refl _, fun ⟨c, s, h, _⟩ => absurd h (hpre' c s), fun ⟨c, s, h⟩ => absurd h (hpre' c s)⟩

/-! ## `simplify_rpn` -/

theorem squash_consts (c : Char) (x y v : Int64) (h : applyOp c x y = .ok v) :
    sortAndSquash 3 (Tree.op c (.val x) (.val y)).flat = .ok (Tree.val v).flat := by
  have hf : (Tree.op c (.val x) (.val y)).flat = [(.val x, 0), (.val y, 0), (.op c, 2)] := rfl
  rw [hf]
  have h1 : rotateLeft 3 [(.val x, 0), (.val y, 0), (.op c, 2)] = .ok (false, [(.val x, 0), (.val y, 0), (.op c, 2)]) := rfl
  have h2 : sortTokens [(.val x, 0), (.val y, 0), (.op c, 2)] = .ok (false, [(.val x, 0), (.val y, 0), (.op c, 2)]) := by
    have : sortTokens [(.val x, 0), (.val y, 0), (.op c, 2)] = sortPlain [(.val x, 0), (.val y, 0), (.op c, 2)] 2 0 (.val x) (.val y) c := rfl
    have hr : ∀ x, sortRank (.val x) = 0xffffffff := fun _ => rfl
    rw [this]
    unfold sortPlain
    simp only [hr, gt_iff_lt, Nat.lt_irrefl, if_false, ite_self]
  have h3 : foldConstants [(.val x, 0), (.val y, 0), (.op c, 2)] = .ok [(.val v, 0)] := by
    have : foldConstants [(.val x, 0), (.val y, 0), (.op c, 2)] =
        (do .ok ((← put [(.val x, 0), (.val y, 0), (.op c, 2)] 0 (.val (← applyOp c x y), 0)).take (0 + 1))) := rfl
    rw [this, h]
    rfl
  have h4 : removeIdentity [(.val v, 0)] = .ok [(.val v, 0)] := rfl
  rw [sortAndSquash, show sub [((.val x : Token), 0), (.val y, 0), (.op c, 2)].length 1 = .ok 2 from rfl, ok_bind, if_neg (by decide)]
  rw [show [((.val x : Token), 0), (.val y, 0), (.op c, 2)].length = 3 from rfl, h1]
  simp only [ok_bind, Bool.false_eq_true, if_false, h2, h3, h4]
  rfl

theorem removePrefixBinary_consts (c : Char) (x y : Int64) :
    removePrefixBinary (Tree.op c (.val x) (.val y)).flat = .ok (Tree.mk c (.val x) (.val y)).flat := by
  by_cases ha : isAddsub c = true
  · rcases (isAddsub_iff c).1 ha with rfl | rfl | rfl | rfl <;> rfl
  · have hm : Tree.mk c (.val x) (.val y) = .op c (.val x) (.val y) := by
      unfold Tree.mk
      rw [if_neg (by rintro rfl; exact ha rfl), if_neg (by rintro rfl; exact ha rfl)]
    rw [hm]
    have : removePrefixBinary (Tree.op c (.val x) (.val y)).flat =
        (if isAddsub c then removePrefixBinary (Tree.op c (.val x) (.val y)).flat else .ok (Tree.op c (.val x) (.val y)).flat) := by
      rw [if_neg ha]
      unfold removePrefixBinary
      simp only [Tree.flat, sub, get]
      simp [ok_bind, ha]
    rw [this, if_neg ha]

theorem mk_consts (c : Char) (x y : Int64) : ∃ c' y', Tree.mk c (.val x) (.val y) = .op c' (.val x) (.val y') := by
  unfold Tree.mk
  split
  · exact ⟨_, _, rfl⟩
  · split
    · exact ⟨_, _, rfl⟩
    · exact ⟨_, _, rfl⟩

theorem toOption_some {α : Type} {x : Except Err α} {v : α} (h : x.toOption = some v) : x = .ok v := by
  cases x with
  | error e => cases h
  | ok w => simp only [Except.toOption, Option.some.injEq] at h; rw [h]

/-- Simplification of constant trees. -/
theorem fold_spec (ρ : Nat → Int64 → Int64) : ∀ (n : Nat) (t : Tree) (fuel : Nat) (v : Int64), t.flat.length ≤ n → 2 * t.flat.length ≤ fuel → t.Fine → t.eval ρ = some v →
    simplify fuel t.flat = .ok (Tree.val v).flat
  | 0, t, fuel, v, h, _, _, _ => by have := t.flat_pos; omega
  | n + 1, t, 0, v, _, h, _, _ => by have := t.flat_pos; omega
  | n + 1, t, fuel + 1, v, hn, hfl, hF, hv => by
    cases t with
    | var _ _ | idx _ _ _ | arr _ _ => exact hF.elim
    | val x =>
      simp only [Tree.eval, Option.some.injEq] at hv
      subst hv
      rw [simplify, if_neg (Tree.flat_ne _)]
      rfl
    | op c l r =>
      have hlp := l.flat_pos
      have hrp := r.flat_pos
      have hlen : (Tree.op c l r).flat.length = l.flat.length + r.flat.length + 1 := by simp [Tree.flat]; omega
      rw [hlen] at hn hfl
      simp only [Tree.eval] at hv
      cases hl : l.eval ρ with
      | none => rw [hl] at hv; cases hv
      | some x =>
      cases hr : r.eval ρ with
      | none => rw [hl, hr] at hv; cases hv
      | some y =>
      rw [hl, hr] at hv
      simp only [Option.bind_some] at hv
      have hop := toOption_some hv
      have ihl := fold_spec ρ n l fuel x (by omega) (by omega) hF.1 hl
      have ihr := fold_spec ρ n r fuel y (by omega) (by omega) hF.2 hr
      have hg : get (Tree.op c l r).flat ((Tree.op c l r).flat.length - 1) = .ok (.op c, r.flat.length + 1) := by
        rw [hlen]
        exact get_at (l.flat ++ r.flat) [] _ _ (by simp)
      rw [simplify, if_neg (Tree.flat_ne _)]
      simp only []
      rw [if_neg (by omega), hg, ok_bind]
      simp only []
      have hdb : downBinary (simplify fuel) (Tree.op c l r).flat ((Tree.op c l r).flat.length - 1) (.op c, r.flat.length + 1) = .ok (Tree.mk c (.val x) (.val y)).flat := by
        rw [downBinary, sub_ok (by simp only [hlen]; omega), ok_bind]
        have h1 : (Tree.op c l r).flat.length - 1 - (r.flat.length + 1) + 1 = l.flat.length := by omega
        simp only []
        rw [h1]
        have h2 : (Tree.op c l r).flat.take l.flat.length = l.flat := by
          simp only [Tree.flat]; rw [List.append_assoc, List.take_left]
        have h3 : ((Tree.op c l r).flat.take ((Tree.op c l r).flat.length - 1)).drop l.flat.length = r.flat := by
          have h4 : (Tree.op c l r).flat.length - 1 = (l.flat ++ r.flat).length := by simp [hlen]
          rw [h4]
          simp only [Tree.flat]
          rw [List.take_left, List.drop_left]
        rw [h2, h3, ihl, ihr, ok_bind, ok_bind]
        exact removePrefixBinary_consts c x y
      rw [hdb, ok_bind]
      obtain ⟨c', y', hm⟩ := mk_consts c x y
      have hev : applyOp c' x y' = .ok v := by
        have h1 := Tree.eval_mk ρ c (.val x) (.val y)
        rw [hm] at h1
        simp only [Tree.eval, Option.bind_some] at h1
        rw [hop] at h1
        exact toOption_some h1
      rw [hm]
      exact squash_consts c' x y' v hev
    | pre c s =>
      have hsp := s.flat_pos
      have hlen : (Tree.pre c s).flat.length = s.flat.length + 1 := by simp [Tree.flat]
      obtain ⟨t', h1, h2, h3, h4, h5, h6, h7⟩ := rpu_spec ρ _ (.pre c s) (Tree.pre c s).flat.length v (Nat.le_refl _) (Nat.le_refl _) hF hv
      have hg : get (Tree.pre c s).flat ((Tree.pre c s).flat.length - 1) = .ok (.pre c, 1) := get_at s.flat [] _ _ (by simp [hlen])
      rw [simplify, if_neg (Tree.flat_ne _)]
      simp only []
      rw [if_neg (by omega), hg, ok_bind]
      simp only []
      have hdu : downUnary (simplify fuel) (Tree.pre c s).flat = .ok (Tree.val v).flat := by
        rw [downUnary, h1, ok_bind]
        simp only []
        cases t' with
        | var _ _ | idx _ _ _ | arr _ _ => exact h2.elim
        | val x =>
          simp only [Tree.eval, Option.some.injEq] at h3
          subst h3
          rfl
        | op c' l r =>
          have hlt : (Tree.op c' l r).flat.length < (Tree.pre c s).flat.length := by
            rcases h7 ⟨c, s, rfl⟩ with ⟨x, hx⟩ | ⟨c, s, hx⟩ | h
            · cases hx
            · cases hx
            · exact h
          have ih := fold_spec ρ n (.op c' l r) fuel v (by omega) (by omega) h2 h3
          have hlp := l.flat_pos
          have hlen' : (Tree.op c' l r).flat.length = l.flat.length + r.flat.length + 1 := by simp [Tree.flat]; omega
          have hg' : get (Tree.op c' l r).flat ((Tree.op c' l r).flat.length - 1) = .ok (.op c', r.flat.length + 1) := by
            rw [hlen']
            exact get_at (l.flat ++ r.flat) [] _ _ (by simp)
          rw [if_neg (by omega), hg', ok_bind]
          exact ih
        | pre c' q =>
          have hqp := q.flat_pos
          have hlen' : (Tree.pre c' q).flat.length = q.flat.length + 1 := by simp [Tree.flat]
          simp only [Tree.eval] at h3
          cases hq : q.eval ρ with
          | none => rw [hq] at h3; cases h3
          | some w =>
          rw [hq] at h3
          simp only [Option.bind_some] at h3
          have hap := toOption_some h3
          have ih := fold_spec ρ n q fuel w (by omega) (by omega) h2.1 hq
          have hg' : get (Tree.pre c' q).flat ((Tree.pre c' q).flat.length - 1) = .ok (.pre c', 1) := get_at q.flat [] _ _ (by simp [hlen'])
          rw [if_neg (by omega), hg', ok_bind]
          simp only []
          have h8 : (Tree.pre c' q).flat.take ((Tree.pre c' q).flat.length - 1) = q.flat := by
            rw [hlen', Nat.add_sub_cancel]; simp only [Tree.flat]; rw [List.take_left]
          rw [h8, ih, ok_bind]
          exact rpu_val 1 c' w v hap
      rw [hdu, ok_bind]
      rfl

/-- A constant tree is evaluated. -/
theorem canonize_const (ρ : Nat → Int64 → Int64) (t : Tree) (hF : t.Fine) (v : Int64) (hv : t.eval ρ = some v) : canonize t.flat = .ok [(.val v, 0)] := by
  unfold canonize
  rw [fold_spec ρ _ t _ v (Nat.le_refl _) (by omega) hF hv, ok_bind]
  rfl

end Nd.Eval
