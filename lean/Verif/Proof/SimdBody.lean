import Verif.Proof.Simd
/-!
# What the vectorised array parsers compute
-/
namespace Nd
open Spec Vec

/-! ## Delimiters -/

/-- The position of the first `delim` in a chunk. -/
def refFind (c : Nat → Byte) (delim : Byte) : Nat := (List.range 48).findIdx fun i => decide (c i = delim)

theorem refFind_spec (c : Nat → Byte) (delim : Byte) : refFind c delim ≤ 48 ∧ (∀ j < refFind c delim, c j ≠ delim) ∧
    (refFind c delim < 48 → c (refFind c delim) = delim) := by
  have hle : refFind c delim ≤ 48 := by
    have := List.findIdx_le_length (p := fun i => decide (c i = delim)) (xs := List.range 48)
    simpa [refFind] using this
  refine ⟨hle, fun j hj => ?_, fun h => ?_⟩
  · have := List.not_of_lt_findIdx (xs := List.range 48) (p := fun i => decide (c i = delim)) hj
    simpa using this
  · have := List.findIdx_getElem (xs := List.range 48) (p := fun i => decide (c i = delim)) (w := by simpa [refFind] using h)
    simpa [refFind] using this

theorem refFind_unique {c : Nat → Byte} {delim : Byte} {d : Nat} (h0 : d ≤ 48) (h1 : ∀ j < d, c j ≠ delim) (h2 : d < 48 → c d = delim) :
    refFind c delim = d := by
  obtain ⟨g0, g1, g2⟩ := refFind_spec c delim
  rcases Nat.lt_trichotomy (refFind c delim) d with h | h | h
  · exact absurd (g2 (by omega)) (h1 _ h)
  · exact h
  · exact absurd (h2 (by omega)) (g1 _ h)

theorem flag_ge (b : Bool) : decide (flag b ≥ 0x80) = b := by cases b <;> decide

theorem Avx2.findDelim_eq (x0 x1 x2 x3 : Vec) (c : Nat → Byte) (delim : Byte) (h0 : ∀ i < 16, x0 i = c i) (h1 : ∀ i < 16, x1 i = c (12 + i))
    (h2 : ∀ i < 16, x2 i = c (24 + i)) (h3 : ∀ i < 16, x3 i = c (36 + i)) : Avx2.findDelim x0 x1 x2 x3 delim = refFind c delim := by
  obtain ⟨g0, g1, g2⟩ := refFind_spec c delim
  generalize refFind c delim = d at *
  have key : ∀ (x : Vec) (k i : Nat), (∀ i < 16, x i = c (k + i)) →
      (movemask (eq x (splat delim))).testBit i = (decide (i < 16) && decide (c (k + i) = delim)) := by
    intro x k i h
    rw [testBit_movemask]
    by_cases hi : i < 16
    · simp only [eq, flag_ge, splat, h i hi]
    · simp [hi]
  have hb : ∀ i < 48, (shl64 (shl64 (movemask (eq x3 (splat delim))) 12 ||| movemask (eq x2 (splat delim))) 24 |||
      shl64 (movemask (eq x1 (splat delim))) 12 ||| movemask (eq x0 (splat delim)) ||| 1 <<< 48).testBit i = decide (c i = delim) := by
    intro i hi
    simp only [Nat.testBit_or, testBit_shl64, key x3 36 _ h3, key x2 24 _ h2, key x1 12 _ h1,
      key x0 0 _ (fun i hi => by rw [Nat.zero_add]; exact h0 i hi)]
    have h48 : (1 <<< 48 : Nat).testBit i = false := by
      rw [Nat.testBit_shiftLeft]; simp [show ¬ 48 ≤ i by omega]
    rw [h48, Bool.or_false]
    by_cases e : c i = delim
    · simp only [e, decide_true]
      rcases Nat.lt_or_ge i 12 with a | a
      · simp [show i < 16 by omega, e]
      rcases Nat.lt_or_ge i 24 with b | b
      · simp [show i < 64 by omega, a, show i - 12 < 16 by omega, show 12 + (i - 12) = i by omega, e]
      rcases Nat.lt_or_ge i 36 with f | f
      · simp [show i < 64 by omega, b, show i - 24 < 16 by omega, show 24 + (i - 24) = i by omega, e]
      · simp [show i < 64 by omega, b, show i - 24 < 64 by omega, show 12 ≤ i - 24 by omega, show i - 24 - 12 < 16 by omega,
          show 36 + (i - 24 - 12) = i by omega, e]
    · rw [show decide (c i = delim) = false by simpa using e]
      have n0 : (decide (i < 16) && decide (c (0 + i) = delim)) = false := by simp [e]
      have n1 : (decide (i < 64) && decide (12 ≤ i) && (decide (i - 12 < 16) && decide (c (12 + (i - 12)) = delim))) = false := by
        by_cases a : 12 ≤ i
        · simp [show 12 + (i - 12) = i by omega, e]
        · simp [a]
      have n2 : (decide (i < 64) && decide (24 ≤ i) && (decide (i - 24 < 64) && decide (12 ≤ i - 24) &&
          (decide (i - 24 - 12 < 16) && decide (c (36 + (i - 24 - 12)) = delim)) || decide (i - 24 < 16) && decide (c (24 + (i - 24)) = delim))) = false := by
        by_cases a : 24 ≤ i
        · rw [show 24 + (i - 24) = i by omega]
          by_cases b : 12 ≤ i - 24
          · simp [show 36 + (i - 24 - 12) = i by omega, e]
          · simp [b, e]
        · simp [a]
      rw [n0, n1, n2]; rfl
  unfold Avx2.findDelim
  apply ctz64_eq (by omega)
  · rcases Nat.lt_or_ge d 48 with h | h
    · rw [hb d h]; simpa using g2 h
    · have : d = 48 := by omega
      subst this
      rw [Nat.testBit_or, show (1 <<< 48 : Nat).testBit 48 = true by decide]; simp
  · intro j hj
    rw [hb j (by omega)]
    simpa using g1 j hj

theorem minv_spec (x : Vec) : (∀ i < 16, minv x ≤ x i) ∧ (minv x = 0xff ∨ ∃ i < 16, minv x = x i) := by
  have : ∀ (l : List Nat) (m : Byte), let r := l.foldl (fun m i => if x i ≤ m then x i else m) m
      r ≤ m ∧ (∀ i ∈ l, r ≤ x i) ∧ (r = m ∨ ∃ i ∈ l, r = x i) := by
    intro l
    induction l with
    | nil => intro m; exact ⟨UInt8.le_refl _, by simp, Or.inl rfl⟩
    | cons a l ih =>
      intro m
      simp only [List.foldl_cons]
      obtain ⟨h1, h2, h3⟩ := ih (if x a ≤ m then x a else m)
      generalize l.foldl (fun m i => if x i ≤ m then x i else m) (if x a ≤ m then x a else m) = r at *
      by_cases ha : x a ≤ m
      · rw [if_pos ha] at h1 h3
        refine ⟨UInt8.le_trans h1 ha, fun i hi => ?_, ?_⟩
        · rcases List.mem_cons.1 hi with rfl | hi
          · exact h1
          · exact h2 i hi
        · rcases h3 with h3 | ⟨i, hi, h3⟩
          · right; exact ⟨a, by simp, h3⟩
          · right; exact ⟨i, by simp [hi], h3⟩
      · rw [if_neg ha] at h1 h3
        refine ⟨h1, fun i hi => ?_, ?_⟩
        · rcases List.mem_cons.1 hi with rfl | hi
          · exact UInt8.le_trans h1 (by simp only [UInt8.le_iff_toNat_le] at ha ⊢; omega)
          · exact h2 i hi
        · rcases h3 with h3 | ⟨i, hi, h3⟩
          · exact Or.inl h3
          · right; exact ⟨i, by simp [hi], h3⟩
  obtain ⟨_, h2, h3⟩ := this (List.range 16) 0xff
  refine ⟨fun i hi => h2 i (by simpa using hi), ?_⟩
  rcases h3 with h3 | ⟨i, hi, h3⟩
  · exact Or.inl h3
  · exact Or.inr ⟨i, by simpa using hi, h3⟩

theorem min_toNat (x y : Vec) (i : Nat) : (Vec.min x y i).toNat = Nat.min (x i).toNat (y i).toNat := by
  simp only [Vec.min, UInt8.le_iff_toNat_le]
  split
  · exact (Nat.min_eq_left (by assumption)).symm
  · exact (Nat.min_eq_right (by omega)).symm

theorem orn_toNat (index x : Vec) (delim : Byte) (i : Nat) :
    (orn index (eq (splat delim) x) i).toNat = if x i = delim then (index i).toNat else 255 := by
  have h1 : ∀ j : Byte, j ||| ~~~(0xff : Byte) = j := by apply forall_byte; decide +kernel
  have h2 : ∀ j : Byte, j ||| ~~~(0 : Byte) = 255 := by apply forall_byte; decide +kernel
  by_cases h : x i = delim
  · rw [if_pos h, show orn index (eq (splat delim) x) i = index i ||| ~~~(flag (decide (delim = x i))) from rfl,
      show decide (delim = x i) = true by simp [h]]
    exact congrArg _ (h1 _)
  · rw [if_neg h, show orn index (eq (splat delim) x) i = index i ||| ~~~(flag (decide (delim = x i))) from rfl,
      show decide (delim = x i) = false by simpa using fun e => h e.symm]
    exact congrArg UInt8.toNat (h2 _)

theorem Neon.findDelim_eq (x0 x1 x2 : Vec) (c : Nat → Byte) (delim : Byte) (h0 : ∀ i < 16, x0 i = c (3 * i)) (h1 : ∀ i < 16, x1 i = c (3 * i + 1))
    (h2 : ∀ i < 16, x2 i = c (3 * i + 2)) : Neon.findDelim x0 x1 x2 delim = refFind c delim := by
  unfold Neon.findDelim
  simp only
  generalize hI : Vec.const [0, 3, 6, 9, 12, 15, 18, 21, 24, 27, 30, 33, 36, 39, 42, 45] = I
  have hIdx : ∀ i < 16, (I i).toNat = 3 * i ∧ (add I (splat 1) i).toNat = 3 * i + 1 ∧ (add (add I (splat 1)) (splat 1) i).toNat = 3 * i + 2 := by
    rw [← hI]; decide +kernel
  generalize hX : Vec.min (Vec.min (orn I (eq (splat delim) x0)) (orn (add I (splat 1)) (eq (splat delim) x1)))
    (orn (add (add I (splat 1)) (splat 1)) (eq (splat delim) x2)) = X
  -- one lane: the smallest position of its three characters that matches
  have hlane : ∀ i < 16, (∀ k < 3, c (3 * i + k) = delim → (X i).toNat ≤ 3 * i + k) ∧
      ((X i).toNat = 255 ∨ ∃ k < 3, (X i).toNat = 3 * i + k ∧ c (3 * i + k) = delim) := by
    intro i hi
    obtain ⟨i0, i1, i2⟩ := hIdx i hi
    have hv : (X i).toNat = Nat.min (Nat.min (if c (3 * i) = delim then 3 * i else 255) (if c (3 * i + 1) = delim then 3 * i + 1 else 255))
        (if c (3 * i + 2) = delim then 3 * i + 2 else 255) := by
      rw [← hX, min_toNat, min_toNat, orn_toNat, orn_toNat, orn_toNat, i0, i1, i2, h0 i hi, h1 i hi, h2 i hi]
    rw [hv]
    constructor
    · intro k hk hc
      rcases k with _ | _ | _ | k
      · rw [Nat.add_zero] at hc; rw [if_pos hc]
        exact Nat.le_trans (Nat.min_le_left _ _) (Nat.min_le_left _ _)
      · rw [if_pos hc]
        exact Nat.le_trans (Nat.min_le_left _ _) (Nat.min_le_right _ _)
      · rw [if_pos hc]
        exact Nat.min_le_right _ _
      · omega
    · have pick : ∀ a b : Nat, Nat.min a b = a ∨ Nat.min a b = b := fun a b => by
        rcases Nat.le_total a b with h | h
        · exact Or.inl (Nat.min_eq_left h)
        · exact Or.inr (Nat.min_eq_right h)
      have fin : ∀ k < 3, (if c (3 * i + k) = delim then 3 * i + k else 255) = 255 ∨
          ∃ k' < 3, (if c (3 * i + k) = delim then 3 * i + k else 255) = 3 * i + k' ∧ c (3 * i + k') = delim := by
        intro k hk
        by_cases h : c (3 * i + k) = delim
        · rw [if_pos h]; exact Or.inr ⟨k, hk, rfl, h⟩
        · rw [if_neg h]; exact Or.inl rfl
      rcases pick (Nat.min (if c (3 * i) = delim then 3 * i else 255) (if c (3 * i + 1) = delim then 3 * i + 1 else 255))
        (if c (3 * i + 2) = delim then 3 * i + 2 else 255) with h | h
      · rw [h]
        rcases pick (if c (3 * i) = delim then 3 * i else 255) (if c (3 * i + 1) = delim then 3 * i + 1 else 255) with h | h
        · rw [h]; exact fin 0 (by omega)
        · rw [h]; exact fin 1 (by omega)
      · rw [h]; exact fin 2 (by omega)
  obtain ⟨g0, g1, g2⟩ := refFind_spec c delim
  obtain ⟨m1, m2⟩ := minv_spec X
  have hnum : (minv X).toNat = 255 ∨ ((minv X).toNat < 48 ∧ c (minv X).toNat = delim) := by
    rcases m2 with h | ⟨i, hi, h⟩
    · left; rw [h]; rfl
    · rcases (hlane i hi).2 with h' | ⟨k, hk, h', h''⟩
      · left; rw [h]; exact h'
      · right; rw [h, h']; exact ⟨by omega, h''⟩
  have hmin : ∀ j < 48, c j = delim → (minv X).toNat ≤ j := by
    intro j hj hc
    have := (hlane (j / 3) (by omega)).1 (j % 3) (by omega) (by rw [show 3 * (j / 3) + j % 3 = j by omega]; exact hc)
    have h2 := m1 (j / 3) (by omega)
    rw [UInt8.le_iff_toNat_le] at h2
    omega
  symm
  by_cases h : minv X = 255
  · rw [if_pos h]
    apply refFind_unique (Nat.le_refl _)
    · intro j hj hc
      have := hmin j hj hc
      rw [h] at this
      have : (255 : Byte).toNat = 255 := rfl
      omega
    · intro hc; omega
  · rw [if_neg h]
    rcases hnum with h' | ⟨h', h''⟩
    · exact absurd (UInt8.toNat.inj h') h
    · apply refFind_unique (by omega)
      · intro j hj hc
        have := hmin j (by omega) hc
        omega
      · intro _; exact h''

theorem iff_not {a b : Prop} : (¬ a ↔ ¬ b) ↔ (a ↔ b) :=
  ⟨fun h => ⟨fun ha => Classical.not_not.1 fun hb => h.2 hb ha, fun hb => Classical.not_not.1 fun ha => h.1 ha hb⟩, fun h => by rw [h]⟩

/-! ## Columns -/

/-- A column is a pair of digits, or blank. -/
def isPair (a b : Byte) : Bool := isValidHex a && isValidHex b
def isBlank (a b : Byte) : Bool := isDelim a && isDelim b

/-- The columns `0 .. n` of a chunk; `c` gives its characters. -/
def refMulti : Nat → (Nat → Byte) → Option Bytes
  | 0, _ => some []
  | n + 1, c =>
    if (isPair (c 0) (c 1) || isBlank (c 0) (c 1)) && (decide (n = 0) || decide (c 2 = 32)) then
      match refMulti n (fun i => c (i + 3)) with
      | none => none
      | some d => some (if isBlank (c 0) (c 1) then [] else ((toHex (c 0)) <<< 4 ||| toHex (c 1)) :: d)
    else none

/-- A chunk is accepted if all columns are. -/
def colsOk (c : Nat → Byte) (n : Nat) : Prop :=
  ∀ k < n, (isPair (c (3 * k)) (c (3 * k + 1)) || isBlank (c (3 * k)) (c (3 * k + 1))) = true ∧ (k + 1 < n → c (3 * k + 2) = 32)

theorem colsOk_succ (c : Nat → Byte) (n : Nat) : colsOk c (n + 1) ↔
    ((isPair (c 0) (c 1) || isBlank (c 0) (c 1)) && (decide (n = 0) || decide (c 2 = 32))) = true ∧ colsOk (fun i => c (i + 3)) n := by
  simp only [Bool.and_eq_true, Bool.or_eq_true, decide_eq_true_eq]
  constructor
  · intro h
    refine ⟨⟨by simpa using (h 0 (by omega)).1, ?_⟩, fun k hk => ?_⟩
    · rcases Nat.eq_zero_or_pos n with h0 | h0
      · exact Or.inl h0
      · exact Or.inr ((h 0 (by omega)).2 (by omega))
    · have := h (k + 1) (by omega)
      exact ⟨this.1, fun h' => this.2 (by omega)⟩
  · rintro ⟨⟨h1, h2⟩, h3⟩ k hk
    rcases k with _ | k
    · refine ⟨by simpa using h1, fun h => ?_⟩
      rcases h2 with h2 | h2
      · omega
      · exact h2
    · have := h3 k (by omega)
      exact ⟨this.1, fun h' => this.2 (by omega)⟩

theorem refMulti_none (n : Nat) : ∀ c : Nat → Byte, refMulti n c = none ↔ ¬ colsOk c n := by
  induction n with
  | zero => intro c; simp [refMulti, colsOk]
  | succ n ih =>
    intro c
    rw [colsOk_succ]
    unfold refMulti
    by_cases h : ((isPair (c 0) (c 1) || isBlank (c 0) (c 1)) && (decide (n = 0) || decide (c 2 = 32))) = true
    · rw [if_pos h]
      have := ih fun i => c (i + 3)
      cases hr : refMulti n (fun i => c (i + 3)) with
      | none => simp only [true_iff]; exact fun h' => this.1 hr h'.2
      | some d =>
        simp only [reduceCtorEq, false_iff, Classical.not_not]
        refine ⟨h, ?_⟩
        by_cases hc : colsOk (fun i => c (i + 3)) n
        · exact hc
        · rw [this.2 hc] at hr; cases hr
    · rw [if_neg h]
      simp only [true_iff]
      exact fun h' => h h'.1

/-- The elements of an accepted chunk: those before the first blank column. -/
theorem refMulti_some (n : Nat) : ∀ (c : Nat → Byte) (m : Nat), colsOk c n → m ≤ n → (∀ k < m, isBlank (c (3 * k)) (c (3 * k + 1)) = false) →
    (m < n → isBlank (c (3 * m)) (c (3 * m + 1)) = true) →
    refMulti n c = some ((List.range m).map fun k => (toHex (c (3 * k))) <<< 4 ||| toHex (c (3 * k + 1))) := by
  induction n with
  | zero => intro c m _ h _ _; have : m = 0 := by omega
            subst this; rfl
  | succ n ih =>
    intro c m hok hm h1 h2
    obtain ⟨h3, h4⟩ := (colsOk_succ c n).1 hok
    unfold refMulti
    rw [if_pos h3]
    rcases m with _ | m
    · have hb := h2 (by omega)
      simp only [Nat.mul_zero, Nat.zero_add] at hb
      cases hr : refMulti n (fun i => c (i + 3)) with
      | none => exact absurd h4 ((refMulti_none n _).1 hr)
      | some d => simp [hb]
    · have hb := h1 0 (by omega)
      simp only [Nat.mul_zero, Nat.zero_add] at hb
      rw [ih (fun i => c (i + 3)) m h4 (by omega) (fun k hk => h1 (k + 1) (by omega)) (fun h => h2 (by omega))]
      simp only [hb, Bool.false_eq_true, if_false, Option.some.injEq]
      rw [List.range_succ_eq_map, List.map_cons, List.map_map]
      rfl

/-- The number of columns before the first blank one, below `n`. -/
theorem first_blank (c : Nat → Byte) (n : Nat) : ∃ m ≤ n, (∀ k < m, isBlank (c (3 * k)) (c (3 * k + 1)) = false) ∧
    (m < n → isBlank (c (3 * m)) (c (3 * m + 1)) = true) := by
  induction n with
  | zero => exact ⟨0, by omega, fun k hk => absurd hk (by omega), fun h => by omega⟩
  | succ n ih =>
    obtain ⟨m, h1, h2, h3⟩ := ih
    rcases Nat.lt_or_ge m n with h | h
    · exact ⟨m, by omega, h2, fun _ => h3 h⟩
    · have : m = n := by omega
      subst this
      by_cases hb : isBlank (c (3 * m)) (c (3 * m + 1)) = true
      · exact ⟨m, by omega, h2, fun _ => hb⟩
      · refine ⟨m + 1, by omega, fun k hk => ?_, fun h => by omega⟩
        rcases Nat.lt_or_ge k m with h' | h'
        · exact h2 k h'
        · have : k = m := by omega
          subst this; simpa using hb

/-- Both implementations of `parse_multi`, given what their masks mean. -/
theorem multi_eq (c : Nat → Byte) (n : Nat) (fails : Prop) [Decidable fails] (hex : Vec) (cnt : Nat)
    (hf : fails ↔ ¬ colsOk c n)
    (hcnt : ∀ m ≤ n, (∀ k < m, isBlank (c (3 * k)) (c (3 * k + 1)) = false) → (m < n → isBlank (c (3 * m)) (c (3 * m + 1)) = true) → cnt = m)
    (hhex : ∀ m, (∀ k < m, isPair (c (3 * k)) (c (3 * k + 1)) = true) → m ≤ n → ∀ k < m, hex k = (toHex (c (3 * k))) <<< 4 ||| toHex (c (3 * k + 1))) :
    (if fails then none else some (hex.toBytes cnt)) = refMulti n c := by
  by_cases h : fails
  · rw [if_pos h]; exact ((refMulti_none n c).2 (hf.1 h)).symm
  · rw [if_neg h]
    have hok : colsOk c n := Classical.not_not.1 fun h' => h (hf.2 h')
    obtain ⟨m, h1, h2, h3⟩ := first_blank c n
    rw [refMulti_some n c m hok h1 h2 h3, hcnt m h1 h2 h3]
    simp only [toBytes, Option.some.injEq]
    apply List.map_congr_left
    intro k hk
    rw [List.mem_range] at hk
    refine hhex m (fun k hk => ?_) h1 k hk
    have := (hok k (by omega)).1
    rw [h2 k hk, Bool.or_false] at this
    exact this

theorem testBit_below (e i : Nat) (he : e ≤ 64) : (2 ^ 64 - 1 <<< e).testBit i = (decide (e ≤ i) && decide (i < 64)) := by
  have h1 : 2 ^ 64 - 1 <<< e = 2 ^ e * (2 ^ (64 - e) - 1) := by
    rw [Nat.shiftLeft_eq, Nat.one_mul, Nat.mul_sub, ← Nat.pow_add, show e + (64 - e) = 64 by omega, Nat.mul_one]
  rw [h1, Nat.testBit_two_pow_mul, Nat.testBit_two_pow_sub_one]
  by_cases h : e ≤ i
  · simp [h]; omega
  · simp [h]

theorem sll16_pair (x : Vec) (i : Nat) (h : ∀ j ≤ i, x j < 16) : sll16 x 4 i = x i <<< 4 := by
  have key : ∀ lo hi : Byte, UInt8.ofNat ((lo.toNat + 256 * hi.toNat) <<< 4 >>> (8 * 0)) = lo <<< 4 ∧
      (lo < 16 → UInt8.ofNat ((lo.toNat + 256 * hi.toNat) <<< 4 >>> (8 * 1)) = hi <<< 4) := by
    intro lo hi
    have h1 := lo.toNat_lt
    have h2 := hi.toNat_lt
    refine ⟨?_, fun h3 => ?_⟩ <;> apply UInt8.toNat.inj <;>
      simp only [UInt8.toNat_ofNat', UInt8.toNat_shiftLeft, Nat.shiftRight_eq_div_pow, Nat.shiftLeft_eq, show (4 : Byte).toNat % 8 = 4 from rfl]
    · omega
    · have : lo.toNat < 16 := by simpa [UInt8.lt_iff_toNat_lt] using h3
      omega
  unfold sll16 ofWords word
  dsimp only
  rcases Nat.mod_two_eq_zero_or_one i with hi | hi
  · rw [hi, show 2 * (i / 2) = i by omega]; exact (key _ _).1
  · rw [hi, show 2 * (i / 2) + 1 = i by omega]; exact (key _ _).2 (h _ (by omega))

theorem pair_lt {x : Byte} (h : isValidHex x = true) : (Avx2.lane x).1 < 16 := (Avx2.lane_spec x).small (Or.inl h)

theorem Avx2.gathered (x0 x1 x2 x3 : Vec) (c : Nat → Byte) (h0 : ∀ i < 16, x0 i = c i) (h1 : ∀ i < 16, x1 i = c (12 + i))
    (h2 : ∀ i < 16, x2 i = c (24 + i)) (h3 : ∀ i < 16, x3 i = c (36 + i)) : ∀ k < 16,
    unpackLo64 (unpackLo32 (shuffle x0 gather) (shuffle x1 gather)) (unpackLo32 (shuffle x2 gather) (shuffle x3 gather)) k = c (3 * k) ∧
    unpackHi64 (unpackLo32 (shuffle x0 gather) (shuffle x1 gather)) (unpackLo32 (shuffle x2 gather) (shuffle x3 gather)) k = c (3 * k + 1) ∧
    unpackLo64 (unpackHi32 (shuffle x0 gather) (shuffle x1 gather)) (unpackHi32 (shuffle x2 gather) (shuffle x3 gather)) k = c (3 * k + 2) := by
  intro k hk
  rcases k with _ | _ | _ | _ | _ | _ | _ | _ | _ | _ | _ | _ | _ | _ | _ | _ | k
  · exact ⟨h0 0 (by omega), h0 1 (by omega), h0 2 (by omega)⟩
  · exact ⟨h0 3 (by omega), h0 4 (by omega), h0 5 (by omega)⟩
  · exact ⟨h0 6 (by omega), h0 7 (by omega), h0 8 (by omega)⟩
  · exact ⟨h0 9 (by omega), h0 10 (by omega), h0 11 (by omega)⟩
  · exact ⟨h1 0 (by omega), h1 1 (by omega), h1 2 (by omega)⟩
  · exact ⟨h1 3 (by omega), h1 4 (by omega), h1 5 (by omega)⟩
  · exact ⟨h1 6 (by omega), h1 7 (by omega), h1 8 (by omega)⟩
  · exact ⟨h1 9 (by omega), h1 10 (by omega), h1 11 (by omega)⟩
  · exact ⟨h2 0 (by omega), h2 1 (by omega), h2 2 (by omega)⟩
  · exact ⟨h2 3 (by omega), h2 4 (by omega), h2 5 (by omega)⟩
  · exact ⟨h2 6 (by omega), h2 7 (by omega), h2 8 (by omega)⟩
  · exact ⟨h2 9 (by omega), h2 10 (by omega), h2 11 (by omega)⟩
  · exact ⟨h3 0 (by omega), h3 1 (by omega), h3 2 (by omega)⟩
  · exact ⟨h3 3 (by omega), h3 4 (by omega), h3 5 (by omega)⟩
  · exact ⟨h3 6 (by omega), h3 7 (by omega), h3 8 (by omega)⟩
  · exact ⟨h3 9 (by omega), h3 10 (by omega), h3 11 (by omega)⟩
  · omega

theorem Avx2.parseMulti_eq (x0 x1 x2 x3 : Vec) (c : Nat → Byte) (n : Nat) (hn : n ≤ 16) (h0 : ∀ i < 16, x0 i = c i) (h1 : ∀ i < 16, x1 i = c (12 + i))
    (h2 : ∀ i < 16, x2 i = c (24 + i)) (h3 : ∀ i < 16, x3 i = c (36 + i)) : Avx2.parseMulti x0 x1 x2 x3 n = refMulti n c := by
  have hg := Avx2.gathered x0 x1 x2 x3 c h0 h1 h2 h3
  unfold Avx2.parseMulti
  simp only
  generalize unpackLo64 (unpackLo32 (shuffle x0 gather) (shuffle x1 gather)) (unpackLo32 (shuffle x2 gather) (shuffle x3 gather)) = l at hg
  generalize unpackHi64 (unpackLo32 (shuffle x0 gather) (shuffle x1 gather)) (unpackLo32 (shuffle x2 gather) (shuffle x3 gather)) = h at hg
  generalize unpackLo64 (unpackHi32 (shuffle x0 gather) (shuffle x1 gather)) (unpackHi32 (shuffle x2 gather) (shuffle x3 gather)) = s at hg
  have hl := fun i => Avx2.toHex_spec l i
  have hh := fun i => Avx2.toHex_spec h i
  have hlt : ∀ x : Vec, (Avx2.toHex x).2.1 < 2 ^ 16 ∧ (Avx2.toHex x).2.2 < 2 ^ 16 := fun x => ⟨bits_lt _ 16, bits_lt _ 16⟩
  have hll := hlt l
  have hlh := hlt h
  generalize Avx2.toHex l = tl at hl hll
  generalize Avx2.toHex h = th at hh hlh
  obtain ⟨xh, vh, sh⟩ := tl
  obtain ⟨xl, vl, sl⟩ := th
  simp only at hl hh hll hlh ⊢
  have hnull : ∀ i, (sh &&& sl).testBit i = (decide (i < 16) && isBlank (c (3 * i)) (c (3 * i + 1))) := by
    intro i
    rw [Nat.testBit_and, (hl i).2.2, (hh i).2.2]
    by_cases hi : i < 16
    · rw [(hg i hi).1, (hg i hi).2.1]; simp [hi, isBlank]
    · simp [hi]
  have hval : ∀ i, (vh &&& vl).testBit i = (decide (i < 16) && isPair (c (3 * i)) (c (3 * i + 1))) := by
    intro i
    rw [Nat.testBit_and, (hl i).2.1, (hh i).2.1]
    by_cases hi : i < 16
    · rw [(hg i hi).1, (hg i hi).2.1]; simp [hi, isPair]
    · simp [hi]
  have hsep : ∀ i < 16, (shl64 (movemask (eq s (splat 32))) 1 ||| 1).testBit i = (decide (i = 0) || decide (c (3 * (i - 1) + 2) = 32)) := by
    intro i hi
    rw [Nat.testBit_or, testBit_shl64, testBit_movemask]
    rcases i with _ | i
    · simp
    · simp only [Nat.add_sub_cancel, eq, flag_ge, splat, (hg i (by omega)).2.2]
      simp [show i + 1 < 64 by omega, show i < 16 by omega, Nat.testBit_succ]
  have hmask := fun i => testBit_below n i (by omega)
  have hml : 2 ^ 64 - 1 <<< n < 2 ^ 64 := by
    have : 1 <<< n = 2 ^ n := by rw [Nat.shiftLeft_eq, Nat.one_mul]
    have h2 : 0 < 2 ^ n := Nat.two_pow_pos n
    omega
  generalize 2 ^ 64 - 1 <<< n = mask at hmask hml
  generalize hsp : shl64 (movemask (eq s (splat 32))) 1 ||| 1 = sp at hsep
  have hnl : sh &&& sl < 2 ^ 64 := Nat.lt_of_le_of_lt (Nat.and_le_left) (Nat.lt_of_lt_of_le hll.2 (by decide))
  have hvl : vh &&& vl < 2 ^ 64 := Nat.lt_of_le_of_lt (Nat.and_le_left) (Nat.lt_of_lt_of_le hll.1 (by decide))
  apply multi_eq
  · -- acceptance
    rw [ne_eq, or_full (Nat.lt_of_le_of_lt Nat.and_le_left (Nat.or_lt_two_pow hvl hnl)) hml, iff_not]
    simp only [Nat.testBit_and, Nat.testBit_or, hval, hnull, hmask]
    constructor
    · intro H k hk
      have a := H k (by omega)
      rw [hsep k (by omega), show decide (n ≤ k) = false by simpa using hk] at a
      simp only [show decide (k < 16) = true by simp; omega, Bool.true_and, Bool.false_and, Bool.or_false, Bool.and_eq_true] at a
      refine ⟨a.1, fun hk2 => ?_⟩
      have b := H (k + 1) (by omega)
      rw [hsep (k + 1) (by omega), show decide (n ≤ k + 1) = false by simpa using hk2] at b
      simp only [Bool.false_and, Bool.or_false, Bool.and_eq_true] at b
      simpa using b.2
    · intro H i hi
      by_cases hin : n ≤ i
      · simp [hin, hi]
      · have a := H i (by omega)
        rw [hsep i (by omega)]
        have hse : (decide (i = 0) || decide (c (3 * (i - 1) + 2) = 32)) = true := by
          rcases i with _ | i
          · rfl
          · have := (H i (by omega)).2 (by omega)
            simpa using this
        simp [a.1, hse, show i < 16 by omega]
  · -- the number of elements
    intro m hm hb1 hb2
    apply ctz64_eq (by omega)
    · rw [Nat.testBit_or, hnull, hmask]
      rcases Nat.lt_or_ge m n with h | h
      · simp [hb2 h, show m < 16 by omega]
      · simp [h, show m < 64 by omega]
    · intro j hj
      rw [Nat.testBit_or, hnull, hmask, hb1 j hj, show decide (n ≤ j) = false by simp; omega]
      simp
  · -- the elements
    intro m hp hm k hk
    have hsmall : ∀ j ≤ k, xh j < 16 := by
      intro j hj
      rw [(hl j).1, (hg j (by omega)).1]
      have := hp j (by omega)
      simp only [isPair, Bool.and_eq_true] at this
      exact pair_lt this.1
    have hpk := hp k hk
    simp only [isPair, Bool.and_eq_true] at hpk
    show xl k ||| sll16 xh 4 k = _
    rw [sll16_pair xh k hsmall, (hl k).1, (hh k).1, (hg k (by omega)).1, (hg k (by omega)).2.1, (lane_spec _).value hpk.1, (lane_spec _).value hpk.2,
      UInt8.or_comm]

/-- Eight flags gathered into the highest byte. -/
theorem Neon.gather8 : ∀ b0 b1 b2 b3 b4 b5 b6 b7 : Bool, ∀ i : Fin 64,
    ((((flag b0).toNat + (flag b1).toNat * 256 + (flag b2).toNat * 256 ^ 2 + (flag b3).toNat * 256 ^ 3 + (flag b4).toNat * 256 ^ 4 +
      (flag b5).toNat * 256 ^ 5 + (flag b6).toNat * 256 ^ 6 + (flag b7).toNat * 256 ^ 7) &&& 0x0102040810204080) * 0x0101010101010101 % 2 ^ 64 &&&
        0xff00000000000000).testBit (63 - i.val) = [b0, b1, b2, b3, b4, b5, b6, b7].getD i.val false := by decide +kernel

theorem flag_of {v : Byte} (hv : v = 0 ∨ v = 0xff) : v = flag (decide (v ≥ 0x80)) := by
  rcases hv with rfl | rfl <;> rfl

theorem Neon.half (x : Vec) (k : Nat) (hx : ∀ i < 8, x (8 * k + i) = 0 ∨ x (8 * k + i) = 0xff) (i : Nat) (hi : i < 64) :
    ((x.u64 k &&& 0x0102040810204080) * 0x0101010101010101 % 2 ^ 64 &&& 0xff00000000000000).testBit (63 - i) =
      (decide (i < 8) && decide (x (8 * k + i) ≥ 0x80)) := by
  have e : x.u64 k = (flag (decide (x (8 * k + 0) ≥ 0x80))).toNat + (flag (decide (x (8 * k + 1) ≥ 0x80))).toNat * 256 +
      (flag (decide (x (8 * k + 2) ≥ 0x80))).toNat * 256 ^ 2 + (flag (decide (x (8 * k + 3) ≥ 0x80))).toNat * 256 ^ 3 +
      (flag (decide (x (8 * k + 4) ≥ 0x80))).toNat * 256 ^ 4 + (flag (decide (x (8 * k + 5) ≥ 0x80))).toNat * 256 ^ 5 +
      (flag (decide (x (8 * k + 6) ≥ 0x80))).toNat * 256 ^ 6 + (flag (decide (x (8 * k + 7) ≥ 0x80))).toNat * 256 ^ 7 := by
    rw [← flag_of (hx 0 (by omega)), ← flag_of (hx 1 (by omega)), ← flag_of (hx 2 (by omega)), ← flag_of (hx 3 (by omega)),
      ← flag_of (hx 4 (by omega)), ← flag_of (hx 5 (by omega)), ← flag_of (hx 6 (by omega)), ← flag_of (hx 7 (by omega))]
    simp only [u64, little, Nat.pow_zero, Nat.mul_one, Nat.pow_one, Nat.zero_add]
  rw [e, Neon.gather8 _ _ _ _ _ _ _ _ ⟨i, hi⟩]
  rcases i with _ | _ | _ | _ | _ | _ | _ | _ | i
  · rfl
  · rfl
  · rfl
  · rfl
  · rfl
  · rfl
  · rfl
  · rfl
  · rw [show decide (i + 1 + 1 + 1 + 1 + 1 + 1 + 1 + 1 < 8) = false by simp]
    rfl

theorem Neon.toMask_spec (x : Vec) (hx : ∀ i < 16, x i = 0 ∨ x i = 0xff) (i : Nat) (hi : i < 64) :
    (toMask x).testBit (63 - i) = (decide (i < 16) && decide (x i ≥ 0x80)) := by
  unfold toMask
  simp only
  rw [Nat.testBit_or, Nat.testBit_shiftRight, half x 0 (fun i hi => hx _ (by omega)) i hi]
  rcases Nat.lt_or_ge i 8 with h | h
  · have : ((x.u64 1 &&& 0x0102040810204080) * 0x0101010101010101 % 2 ^ 64 &&& 0xff00000000000000).testBit (8 + (63 - i)) = false := by
      apply Nat.testBit_lt_two_pow
      refine Nat.lt_of_le_of_lt Nat.and_le_left (Nat.lt_of_lt_of_le (Nat.mod_lt _ (by decide)) ?_)
      exact Nat.pow_le_pow_right (by decide) (by omega)
    rw [this]
    simp [h, show i < 16 by omega]
  · have := half x 1 (fun i hi => hx _ (by omega)) (i - 8) (by omega)
    rw [show 8 + (63 - i) = 63 - (i - 8) by omega, this, show 8 * 1 + (i - 8) = i by omega]
    have h1 : decide (i < 8) = false := by simp; omega
    have h2 : decide (i - 8 < 8) = decide (i < 16) := by simp; omega
    rw [h1, h2]; simp

theorem Neon.toMask_lt (x : Vec) : toMask x < 2 ^ 64 := by
  unfold toMask
  simp only
  refine Nat.or_lt_two_pow (Nat.lt_of_le_of_lt (Nat.shiftRight_le _ _) ?_) ?_ <;>
    exact Nat.lt_of_le_of_lt Nat.and_le_left (Nat.mod_lt _ (by decide))

theorem and_flag {a b : Byte} (ha : a = 0 ∨ a = 0xff) (hb : b = 0 ∨ b = 0xff) : (a &&& b = 0 ∨ a &&& b = 0xff) ∧
    decide (a &&& b ≥ 0x80) = (decide (a ≥ 0x80) && decide (b ≥ 0x80)) := by
  rcases ha with rfl | rfl <;> rcases hb with rfl | rfl <;> decide

/-- Bits counted from the top. -/
theorem forall_top {P : Nat → Prop} : (∀ i < 64, P i) ↔ ∀ i < 64, P (63 - i) := by
  constructor
  · exact fun h i hi => h _ (by omega)
  · intro h i hi
    have := h (63 - i) (by omega)
    rwa [show 63 - (63 - i) = i by omega] at this

theorem Neon.parseMulti_eq (x0 x1 x2 : Vec) (c : Nat → Byte) (n : Nat) (hn : n ≤ 16) (h0 : ∀ i < 16, x0 i = c (3 * i)) (h1 : ∀ i < 16, x1 i = c (3 * i + 1))
    (h2 : ∀ i < 16, x2 i = c (3 * i + 2)) : Neon.parseMulti x0 x1 x2 n = refMulti n c := by
  unfold Neon.parseMulti
  simp only
  have hl := fun i => Neon.toHex_spec x0 i
  have hh := fun i => Neon.toHex_spec x1 i
  generalize Neon.toHex x0 = tl at hl
  generalize Neon.toHex x1 = th at hh
  obtain ⟨xh, vh, sh⟩ := tl
  obtain ⟨xl, vl, sl⟩ := th
  simp only at hl hh ⊢
  have hnull : ∀ i < 64, (toMask (Vec.and sh sl)).testBit (63 - i) = (decide (i < 16) && isBlank (c (3 * i)) (c (3 * i + 1))) := by
    intro i hi
    have key := fun i => and_flag (lane_spec (x0 i)).sflag (lane_spec (x1 i)).sflag
    have e : ∀ i, Vec.and sh sl i = (lane (x0 i)).2.2 &&& (lane (x1 i)).2.2 := fun i => by rw [← (hl i).2.2, ← (hh i).2.2]; rfl
    rw [toMask_spec _ (fun i _ => by rw [e]; exact (key i).1) i hi, e, (key i).2, (lane_spec _).space, (lane_spec _).space]
    by_cases h : i < 16
    · rw [h0 i h, h1 i h]; rfl
    · simp [h]
  have hval : ∀ i < 64, (toMask (Vec.and vh vl)).testBit (63 - i) = (decide (i < 16) && isPair (c (3 * i)) (c (3 * i + 1))) := by
    intro i hi
    have key := fun i => and_flag (lane_spec (x0 i)).vflag (lane_spec (x1 i)).vflag
    have e : ∀ i, Vec.and vh vl i = (lane (x0 i)).2.1 &&& (lane (x1 i)).2.1 := fun i => by rw [← (hl i).2.1, ← (hh i).2.1]; rfl
    rw [toMask_spec _ (fun i _ => by rw [e]; exact (key i).1) i hi, e, (key i).2, (lane_spec _).valid, (lane_spec _).valid]
    by_cases h : i < 16
    · rw [h0 i h, h1 i h]; rfl
    · simp [h]
  have hsep : ∀ i < 16, (toMask (eq x2 (splat 32)) >>> 1 ||| 0x8000000000000000).testBit (63 - i) = (decide (i = 0) || decide (c (3 * (i - 1) + 2) = 32)) := by
    intro i hi
    rw [Nat.testBit_or, Nat.testBit_shiftRight, show (0x8000000000000000 : Nat) = 2 ^ 63 from rfl, Nat.testBit_two_pow]
    rcases i with _ | i
    · simp
    · have hf : ∀ i, eq x2 (splat 32) i = 0 ∨ eq x2 (splat 32) i = 0xff := by
        intro i
        show flag _ = 0 ∨ flag _ = 0xff
        cases decide (x2 i = splat 32 i) <;> simp [flag]
      have := toMask_spec (eq x2 (splat 32)) (fun i _ => hf i) i (by omega)
      rw [show 1 + (63 - (i + 1)) = 63 - i by omega, this]
      simp only [Nat.add_sub_cancel, eq, flag_ge, splat, h2 i (by omega)]
      have a1 : decide (63 = 63 - (i + 1)) = false := by simp; omega
      have a2 : decide (i + 1 = 0) = false := by simp
      have a3 : decide (i < 16) = true := by simp; omega
      rw [a1, a2, a3]; simp
  have hmask : ∀ i < 64, (0xffffffffffffffff >>> n).testBit (63 - i) = decide (n ≤ i) := by
    intro i hi
    rw [Nat.testBit_shiftRight, show (0xffffffffffffffff : Nat) = 2 ^ 64 - 1 from rfl, Nat.testBit_two_pow_sub_one]
    simp only [decide_eq_decide]; omega
  have hml : 0xffffffffffffffff >>> n < 2 ^ 64 := Nat.lt_of_le_of_lt (Nat.shiftRight_le _ _) (by decide)
  generalize 0xffffffffffffffff >>> n = mask at hmask hml
  have hnl := toMask_lt (Vec.and sh sl)
  have hvl := toMask_lt (Vec.and vh vl)
  generalize toMask (eq x2 (splat 32)) >>> 1 ||| 0x8000000000000000 = sp at hsep
  generalize toMask (Vec.and sh sl) = nul at *
  generalize toMask (Vec.and vh vl) = val at *
  apply multi_eq
  · rw [ne_eq, or_full (Nat.lt_of_le_of_lt Nat.and_le_left (Nat.or_lt_two_pow hvl hnl)) hml, iff_not, forall_top]
    constructor
    · intro H k hk
      have a := H k (by omega)
      rw [Nat.testBit_and, Nat.testBit_or, hval k (by omega), hnull k (by omega), hmask k (by omega),
        hsep k (by omega), show decide (n ≤ k) = false by simpa using hk] at a
      simp only [show decide (k < 16) = true by simp; omega, Bool.true_and, Bool.or_false, Bool.and_eq_true] at a
      refine ⟨a.1, fun hk2 => ?_⟩
      have b := H (k + 1) (by omega)
      rw [Nat.testBit_and, hmask (k + 1) (by omega), hsep (k + 1) (by omega), show decide (n ≤ k + 1) = false by simpa using hk2] at b
      simp only [Bool.or_false, Bool.and_eq_true] at b
      simpa using b.2
    · intro H i hi
      rw [hmask i hi]
      by_cases hin : n ≤ i
      · simp [hin]
      · have a := H i (by omega)
        rw [Nat.testBit_and, Nat.testBit_or, hval i hi, hnull i hi, hsep i (by omega)]
        have hse : (decide (i = 0) || decide (c (3 * (i - 1) + 2) = 32)) = true := by
          rcases i with _ | i
          · rfl
          · have := (H i (by omega)).2 (by omega)
            simpa using this
        rw [hse, show decide (i < 16) = true by simp; omega]
        simp [a.1]
  · intro m hm hb1 hb2
    apply clz64_eq (by omega)
    · rw [Nat.testBit_or, hnull m (by omega), hmask m (by omega)]
      rcases Nat.lt_or_ge m n with h | h
      · simp [hb2 h, show m < 16 by omega]
      · simp [h]
    · intro j hj
      rw [Nat.testBit_or, hnull j (by omega), hmask j (by omega), hb1 j hj, show decide (n ≤ j) = false by simp; omega]
      simp
  · intro m hp hm k hk
    have hpk := hp k hk
    simp only [isPair, Bool.and_eq_true] at hpk
    show xl k ||| xh k <<< 4 = _
    rw [(hl k).1, (hh k).1, h0 k (by omega), h1 k (by omega), (lane_spec _).value hpk.1, (lane_spec _).value hpk.2, UInt8.or_comm]

end Nd
