import Verif.Proof.Yard
import Verif.Proof.Trees
/-!
# Two's complement arithmetic agrees with the integers where the results are in range
-/
namespace Nd.Eval
open Nd Nd.Spec

theorem fit_some {v w : Int} (h : fit v = some w) : v = w ∧ -2 ^ 63 ≤ v ∧ v < 2 ^ 63 := by
  unfold fit at h
  split at h
  · rename_i hc; simp only [Option.some.injEq] at h; exact ⟨h, hc⟩
  · cases h

theorem bmod_fit {v : Int} (h1 : -2 ^ 63 ≤ v) (h2 : v < 2 ^ 63) : v.bmod (2 ^ 64) = v :=
  Int.bmod_eq_of_le (by omega) (by omega)

theorem range (x : Int64) : -2 ^ 63 ≤ x.toInt ∧ x.toInt < 2 ^ 63 := ⟨Int64.le_toInt x, Int64.toInt_lt x⟩

theorem toInt_neg' (x : Int64) : (-x).toInt = (-x.toInt).bmod (2 ^ 64) := Int64.toInt_neg x

theorem toInt_not' (x : Int64) : (~~~x).toInt = -x.toInt - 1 := by
  have h : ~~~x = -x - 1 := by
    apply Int64.toBitVec.inj
    simp only [Int64.toBitVec_not, Int64.toBitVec_sub, Int64.toBitVec_neg]
    rw [BitVec.not_eq_neg_add]; rfl
  rw [h, Int64.toInt_sub, toInt_neg']
  have := range x
  rw [show (1 : Int64).toInt = 1 by decide, Int.sub_eq_add_neg, Int.bmod_add_bmod]
  exact bmod_fit (by omega) (by omega)

theorem ofInt_toInt (x : Int64) : BitVec.ofInt 64 x.toInt = x.toBitVec := by
  rw [Int64.toInt, BitVec.ofInt_toInt]

/-- Unary operators. -/
theorem un_value (u : UnOp) (x : Int64) (v : Int) (h : u.apply x.toInt = some v) : ∃ w, applyPrefix (unMark u) x = .ok w ∧ w.toInt = v := by
  cases u with
  | plus => simp only [UnOp.apply, Option.some.injEq] at h; exact ⟨x, rfl, h⟩
  | minus =>
    obtain ⟨rfl, h1, h2⟩ := fit_some h
    exact ⟨-x, rfl, by rw [toInt_neg', bmod_fit h1 h2]⟩
  | tilde =>
    obtain ⟨rfl, h1, h2⟩ := fit_some h
    exact ⟨~~~x, rfl, toInt_not' x⟩
  | bang =>
    obtain ⟨rfl, h1, h2⟩ := fit_some h
    exact ⟨~~~x, rfl, toInt_not' x⟩

theorem amount (y : Int64) (h0 : 0 ≤ y.toInt) (h1 : y.toInt < 64) : (Int64.ofNat (y.toInt.toNat % 64)).toBitVec.smod 64 = y.toInt.toNat := by
  rw [Nat.mod_eq_of_lt (by omega)]
  generalize hn : y.toInt.toNat = n
  have : n < 64 := by omega
  clear hn h0 h1
  revert n
  decide

theorem toInt_shl (x y : Int64) (h0 : 0 ≤ y.toInt) (h1 : y.toInt < 64) : (shl x y).toInt = (x.toInt * 2 ^ y.toInt.toNat).bmod (2 ^ 64) := by
  unfold shl
  rw [Int64.toInt, Int64.toBitVec_shiftLeft]
  have h2 : (Int64.ofNat (y.toInt.toNat % 64)).toBitVec.smod 64 = BitVec.ofNat 64 y.toInt.toNat := by
    rw [amount y h0 h1]; rfl
  rw [h2]
  rw [BitVec.shiftLeft_eq', BitVec.toInt_shiftLeft]
  rw [BitVec.toNat_ofNat, Nat.mod_eq_of_lt (show y.toInt.toNat < 2 ^ 64 by omega), Nat.shiftLeft_eq]
  have h3 : x.toInt = (x.toBitVec.toNat : Int).bmod (2 ^ 64) := by rw [Int64.toInt, BitVec.toInt_eq_toNat_bmod]
  rw [h3]
  simp [Int.bmod_mul_bmod]

theorem toInt_shr (x y : Int64) (h0 : 0 ≤ y.toInt) (h1 : y.toInt < 64) : (shr x y).toInt = x.toInt / 2 ^ y.toInt.toNat := by
  unfold shr
  rw [Int64.toInt, Int64.toBitVec_shiftRight]
  have h2 : (Int64.ofNat (y.toInt.toNat % 64)).toBitVec.smod 64 = BitVec.ofNat 64 y.toInt.toNat := by
    rw [amount y h0 h1]; rfl
  rw [h2]
  rw [BitVec.sshiftRight_eq', BitVec.toInt_sshiftRight]
  rw [BitVec.toNat_ofNat, Nat.mod_eq_of_lt (show y.toInt.toNat < 2 ^ 64 by omega), Int.shiftRight_eq_div_pow]
  rfl

theorem zero_le_iff (y : Int64) : 0 ≤ y ↔ 0 ≤ y.toInt := by rw [Int64.le_iff_toInt_le]; rfl

theorem eq_zero_iff (y : Int64) : y = 0 ↔ y.toInt = 0 := by rw [← Int64.toInt_inj]; rfl

/-- Binary operators. -/
theorem bin_value (ρ : Nat → Int64 → Int64) (o : BinOp) (l r : Tree) (x y : Int64) (hl : l.eval ρ = some x) (hr : r.eval ρ = some y) (v : Int)
    (h : o.apply x.toInt y.toInt = some v)
    (hn : Expr.isCompare o = true → -2 ^ 63 < x.toInt - y.toInt ∧ x.toInt - y.toInt < 2 ^ 63) :
    ∃ w, (binTree o l r).eval ρ = some w ∧ w.toInt = v := by
  have hx := range x
  have hy := range y
  have key : ∀ (c : Char) (w : Int64), applyOp c x y = .ok w → (Tree.op c l r).eval ρ = some w := by
    intro c w hc
    simp only [Tree.eval, hl, hr, Option.bind_some, hc]
    rfl
  cases o with
  | add =>
    obtain ⟨rfl, h1, h2⟩ := fit_some h
    exact ⟨x + y, key _ _ rfl, by rw [Int64.toInt_add, bmod_fit h1 h2]⟩
  | sub =>
    obtain ⟨rfl, h1, h2⟩ := fit_some h
    exact ⟨x - y, key _ _ rfl, by rw [Int64.toInt_sub, bmod_fit h1 h2]⟩
  | mul =>
    obtain ⟨rfl, h1, h2⟩ := fit_some h
    exact ⟨x * y, key _ _ rfl, by rw [Int64.toInt_mul, bmod_fit h1 h2]⟩
  | div =>
    simp only [BinOp.apply] at h
    split at h
    · cases h
    · rename_i h0
      obtain ⟨rfl, h1, h2⟩ := fit_some h
      refine ⟨x / y, key _ _ ?_, by rw [Int64.toInt_div, bmod_fit h1 h2]⟩
      have : ¬ (y = 0 ∨ (x = Int64.minValue ∧ y = -1)) := by
        rintro (h3 | ⟨rfl, rfl⟩)
        · exact h0 ((eq_zero_iff y).1 h3)
        · revert h2; decide
      simp [opToken, applyOp, this]
  | rem =>
    simp only [BinOp.apply] at h
    split at h
    · cases h
    · rename_i h0
      cases h3 : fit (x.toInt.tdiv y.toInt) with
      | none => rw [h3] at h; cases h
      | some q =>
      rw [h3] at h
      simp only [Option.map_some, Option.some.injEq] at h
      obtain ⟨-, h1, h2⟩ := fit_some h3
      refine ⟨x % y, key _ _ ?_, by rw [Int64.toInt_mod, h]⟩
      have : ¬ (y = 0 ∨ (x = Int64.minValue ∧ y = -1)) := by
        rintro (h3 | ⟨rfl, rfl⟩)
        · exact h0 ((eq_zero_iff y).1 h3)
        · revert h2; decide
      simp [opToken, applyOp, this]
  | shl =>
    simp only [BinOp.apply] at h
    split at h
    · rename_i h0
      obtain ⟨rfl, h1, h2⟩ := fit_some h
      refine ⟨shl x y, key _ _ ?_, by rw [toInt_shl x y h0.1 h0.2, bmod_fit h1 h2]⟩
      simp [opToken, applyOp, (zero_le_iff y).2 h0.1]
    · cases h
  | shr =>
    simp only [BinOp.apply] at h
    split at h
    · rename_i h0
      simp only [Option.some.injEq] at h
      refine ⟨shr x y, key _ _ ?_, by rw [toInt_shr x y h0.1 h0.2, h]⟩
      simp [opToken, applyOp, (zero_le_iff y).2 h0.1]
    · cases h
  | and =>
    simp only [BinOp.apply, ofInt_toInt, Option.some.injEq] at h
    exact ⟨x &&& y, key _ _ rfl, by rw [← h]; rfl⟩
  | xor =>
    simp only [BinOp.apply, ofInt_toInt, Option.some.injEq] at h
    exact ⟨x ^^^ y, key _ _ rfl, by rw [← h]; rfl⟩
  | or =>
    simp only [BinOp.apply, ofInt_toInt, Option.some.injEq] at h
    exact ⟨x ||| y, key _ _ rfl, by rw [← h]; rfl⟩
  | lt =>
    obtain ⟨h1, h2⟩ := hn rfl
    simp only [BinOp.apply, Option.some.injEq] at h
    refine ⟨if 0 ≤ -(x - y) + (-1) then 1 else 0, ?_, ?_⟩
    · simp only [binTree, Tree.eval, hl, hr, Option.bind_some]; rfl
    · have h3 : (-(x - y) + (-1)).toInt = y.toInt - x.toInt - 1 := by
        rw [Int64.toInt_add, toInt_neg', Int64.toInt_sub, bmod_fit (v := x.toInt - y.toInt) (by omega) (by omega), bmod_fit (v := -(x.toInt - y.toInt)) (by omega) (by omega)]
        rw [show (-1 : Int64).toInt = -1 by decide]
        rw [bmod_fit (by omega) (by omega)]; omega
      simp only [zero_le_iff, h3, ← h]
      by_cases hc : x.toInt < y.toInt
      · rw [if_pos hc, if_pos (by omega)]; decide
      · rw [if_neg hc, if_neg (by omega)]; decide
  | le =>
    obtain ⟨h1, h2⟩ := hn rfl
    simp only [BinOp.apply, Option.some.injEq] at h
    refine ⟨if 0 ≤ -(x - y) then 1 else 0, ?_, ?_⟩
    · simp only [binTree, Tree.eval, hl, hr, Option.bind_some]; rfl
    · have h3 : (-(x - y)).toInt = y.toInt - x.toInt := by
        rw [toInt_neg', Int64.toInt_sub, bmod_fit (v := x.toInt - y.toInt) (by omega) (by omega), bmod_fit (v := -(x.toInt - y.toInt)) (by omega) (by omega)]; omega
      simp only [zero_le_iff, h3, ← h]
      by_cases hc : x.toInt ≤ y.toInt
      · rw [if_pos hc, if_pos (by omega)]; decide
      · rw [if_neg hc, if_neg (by omega)]; decide
  | gt =>
    obtain ⟨h1, h2⟩ := hn rfl
    simp only [BinOp.apply, Option.some.injEq] at h
    refine ⟨if 0 ≤ (x - y) + (-1) then 1 else 0, ?_, ?_⟩
    · simp only [binTree, Tree.eval, hl, hr, Option.bind_some]; rfl
    · have h3 : ((x - y) + (-1)).toInt = x.toInt - y.toInt - 1 := by
        rw [Int64.toInt_add, Int64.toInt_sub, bmod_fit (v := x.toInt - y.toInt) (by omega) (by omega)]
        rw [show (-1 : Int64).toInt = -1 by decide]
        rw [bmod_fit (by omega) (by omega)]; omega
      simp only [zero_le_iff, h3, ← h]
      by_cases hc : x.toInt > y.toInt
      · rw [if_pos hc, if_pos (by omega)]; decide
      · rw [if_neg hc, if_neg (by omega)]; decide
  | ge =>
    obtain ⟨h1, h2⟩ := hn rfl
    simp only [BinOp.apply, Option.some.injEq] at h
    refine ⟨if 0 ≤ (x - y) then 1 else 0, ?_, ?_⟩
    · simp only [binTree, Tree.eval, hl, hr, Option.bind_some]; rfl
    · have h3 : (x - y).toInt = x.toInt - y.toInt := by
        rw [Int64.toInt_sub, bmod_fit (v := x.toInt - y.toInt) (by omega) (by omega)]
      simp only [zero_le_iff, h3, ← h]
      by_cases hc : x.toInt ≥ y.toInt
      · rw [if_pos hc, if_pos (by omega)]; decide
      · rw [if_neg hc, if_neg (by omega)]; decide

/-- The lookup function provides the values of the environment. -/
structure Agrees (vars : Vars) (ρ : Env) (f : Nat → Int64 → Int64) : Prop where
  plain : ∀ n v, ρ.plain n = some v → (f (ident vars n) 0).toInt = v
  array : ∀ n (i : Int64) v, ρ.array n i.toInt = some v → (f (ident vars n) i).toInt = v

/-- The tree of an expression has the value of the expression. -/
theorem tree_value (vars : Vars) (ρ : Env) (f : Nat → Int64 → Int64) (ha : Agrees vars ρ f) (e : Expr) (hn : e.Narrow ρ) (v : Int) (h : e.value ρ = some v) :
    ∃ w, (toTree vars e).eval f = some w ∧ w.toInt = v := by
  induction e generalizing v with
  | num l =>
    obtain ⟨rfl, h1, h2⟩ := fit_some h
    refine ⟨_, rfl, ?_⟩
    rw [Int64.toInt_ofNat']
    exact bmod_fit h1 h2
  | var n =>
    refine ⟨_, rfl, ?_⟩
    rw [Int64.one_mul]
    exact ha.plain _ _ h
  | idx n e ih =>
    simp only [Expr.value] at h
    cases he : e.value ρ with
    | none => rw [he] at h; cases h
    | some i =>
      rw [he] at h
      obtain ⟨w, h1, rfl⟩ := ih hn i he
      refine ⟨f (ident vars n) w, ?_, ha.array _ _ _ h⟩
      simp only [toTree, Tree.eval, h1, Option.map_some]
  | par e ih => exact ih hn v h
  | un u e ih =>
    simp only [Expr.value] at h
    cases he : e.value ρ with
    | none => rw [he] at h; cases h
    | some i =>
      rw [he] at h
      obtain ⟨w, h1, rfl⟩ := ih hn i he
      obtain ⟨w', h2, h3⟩ := un_value u w v h
      refine ⟨w', ?_, h3⟩
      simp only [toTree, Tree.eval, h1, Option.bind_some, h2]
      rfl
  | bin o l r ihl ihr =>
    simp only [Expr.value] at h
    obtain ⟨n1, n2, n3⟩ := hn
    cases hl : l.value ρ with
    | none => rw [hl] at h; cases h
    | some x =>
    cases hr : r.value ρ with
    | none => rw [hl, hr] at h; cases h
    | some y =>
      rw [hl, hr] at h
      obtain ⟨a, h1, rfl⟩ := ihl n1 x hl
      obtain ⟨b, h2, rfl⟩ := ihr n2 y hr
      exact bin_value f o _ _ a b h1 h2 v h (fun hc => n3 hc _ _ hl hr)

end Nd.Eval
