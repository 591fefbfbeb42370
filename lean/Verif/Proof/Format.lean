import Verif.Model.Format
import Verif.Proof.Roomy
/-!
# Formatted lines are lines of the record format
-/
namespace Nd
open Spec

/-! ## Documented arrays are read as documented -/

namespace Spec

theorem StrictColumns.columns {arr d : Bytes} (h : StrictColumns arr d) : Columns arr d := by
  induction h with
  | spaces n =>
    match n with
    | 0 => exact .nil
    | 1 => exact .stray 32
    | n + 2 => exact .blank _
  | last a b x y ha hb => exact .last a b x y ha hb
  | col a b x y rest d ha hb _ ih => exact .col a b x y rest d ha hb ih

theorem StrictColumns.split : ∀ (k : Nat) (arr d : Bytes), StrictColumns arr d → 3 * k ≤ arr.length →
    ∃ d1 d2, StrictColumns (arr.take (3 * k)) d1 ∧ StrictColumns (arr.drop (3 * k)) d2 ∧ d = d1 ++ d2
  | 0, arr, d, h, _ => ⟨[], d, by simpa using StrictColumns.spaces 0, by simpa using h, rfl⟩
  | k + 1, arr, d, h, hk => by
    cases h with
    | spaces n =>
      simp only [List.length_replicate] at hk
      refine ⟨[], [], ?_, ?_, rfl⟩
      · rw [List.take_replicate]; exact .spaces _
      · rw [List.drop_replicate]; exact .spaces _
    | last a b x y ha hb => simp at hk; omega
    | col a b x y rest d ha hb hr =>
      simp only [List.length_cons] at hk
      obtain ⟨d1, d2, h1, h2, rfl⟩ := StrictColumns.split k rest d hr (by omega)
      refine ⟨_ :: d1, d2, ?_, ?_, rfl⟩
      · exact .col a b x y _ d1 ha hb h1
      · exact h2

theorem StrictColumns.short {arr d : Bytes} (h : StrictColumns arr d) (hl : arr.length ≤ 1) : d = [] := by
  cases h with
  | spaces n => rfl
  | last a b x y ha hb => simp at hl
  | col a b x y rest d ha hb _ => simp at hl

theorem VecColumns.spaces : ∀ n : Nat, VecColumns (List.replicate n 32) []
  | 0 => .short _ (by simp)
  | 1 => .short _ (by simp)
  | 2 => .lastBlank 32 32 [] (Or.inl rfl) (Or.inl rfl) (by simp)
  | 3 => .lastBlank 32 32 [32] (Or.inl rfl) (Or.inl rfl) (by simp)
  | 4 => .lastBlank 32 32 [32, 32] (Or.inl rfl) (Or.inl rfl) (by simp)
  | n + 5 => .blank 32 32 _ _ (Or.inl rfl) (Or.inl rfl) (by simp) (VecColumns.spaces (n + 2))

theorem StrictColumns.vec {arr d : Bytes} (h : StrictColumns arr d) : VecColumns arr d := by
  induction h with
  | spaces n => exact .spaces n
  | last a b x y ha hb => exact .last a b x y [] ha hb (by simp)
  | col a b x y rest d ha hb hr ih =>
    by_cases hl : 2 ≤ rest.length
    · exact .col a b x y rest d ha hb hl ih
    · rw [hr.short (by omega)]
      exact .last a b x y _ ha hb (by simp; omega)

theorem StrictColumns.blocks {cols : Bytes → Bytes → Prop} (m : Nat) (hm : 0 < m) (hc : ∀ arr d, StrictColumns arr d → cols arr d) :
    ∀ (n : Nat) (arr d : Bytes), arr.length ≤ n → StrictColumns arr d → Blocks (3 * m) cols arr d
  | 0, arr, d, hn, h => .last arr d (by omega) (hc _ _ h)
  | n + 1, arr, d, hn, h => by
    by_cases hl : arr.length < 3 * m
    · exact .last arr d hl (hc _ _ h)
    · obtain ⟨d1, d2, h1, h2, rfl⟩ := StrictColumns.split m arr d h (by omega)
      rw [← List.take_append_drop (3 * m) arr]
      refine .more _ _ d1 d2 (by simp; omega) (hc _ _ h1) (StrictColumns.blocks m hm hc n _ d2 (by simp; omega) h2)

theorem StrictColumns.windows (I : Impl) {arr d : Bytes} (h : StrictColumns arr d) : Windows I arr d := by
  cases I
  · exact StrictColumns.blocks 64 (by decide) (fun _ _ h => h.columns) _ arr d (Nat.le_refl _) h
  · exact StrictColumns.blocks 16 (by decide) (fun _ _ h => h.vec) _ arr d (Nat.le_refl _) h
  · exact StrictColumns.blocks 16 (by decide) (fun _ _ h => h.vec) _ arr d (Nat.le_refl _) h

theorem _root_.Nd.win_strict (I : Impl) {arr d : Bytes} (h : StrictColumns arr d) : win I arr = some d := by
  have hv : ∀ t d, vecCols t = some d ↔ VecColumns t d := fun t d => vecCols_iff _ t d (Nat.le_refl _)
  cases I
  · exact (parseCols_iff _ _).2 h.columns
  · exact (blocks_iff (by decide) hv _ _ _ (Nat.le_refl _)).2 (h.windows .avx2)
  · exact (blocks_iff (by decide) hv _ _ _ (Nat.le_refl _)).2 (h.windows .neon)

theorem Line.mono {cols cols' : Bytes → Bytes → Prop} (hc : ∀ a d, cols a d → cols' a d) {fo fs l r} (h : Line cols fo fs l r) :
    Line cols' fo fs l r := by
  cases h with
  | header o s off span h1 h2 h3 => exact .header o s off span h1 h2 h3
  | array o s arr tail off span d h1 h2 h3 h4 h5 => exact .array o s arr tail off span d h1 h2 (hc _ _ h3) h4 h5

theorem Line.windows (I : Impl) {fo fs l r} (h : Line StrictColumns fo fs l r) : Line (Windows I) fo fs l r :=
  h.mono fun _ _ h => h.windows I

theorem Reading.windows (I : Impl) {fo fs : Field} {ls : List Bytes} {rs : List Rec} (h : Reading (Line StrictColumns fo fs) ls rs false) :
    Reading (Line (Windows I) fo fs) ls rs false := by
  generalize hb : false = b at h
  induction h with
  | nil => exact .nil
  | bad => cases hb
  | good l ls r rs b hl _ ih => exact .good _ _ _ _ _ (hl.windows I) (ih hb)

theorem number_append (base : Nat) (ds : List Nat) (d : Nat) : number base (ds ++ [d]) = number base ds * base + d := by
  simp [number]

end Spec

namespace Format

theorem hexVal_hexDigit (y : Nat) (h : y < 16) : hexVal (hexDigit y) = some y := by
  revert y; decide

theorem hexDigit_text (y : Nat) (h : y < 16) : hexDigit y ≠ 10 ∧ hexDigit y ≠ 124 ∧ hexDigit y ≠ 32 := by
  revert y; decide

/-- The digits of `val`, most significant first. -/
def nibbles (n val : Nat) : List Nat := (List.range n).map fun i => (val >>> (4 * (n - i - 1))) &&& 0x0f

theorem nibbles_lt (n val : Nat) : ∀ d ∈ nibbles n val, d < 16 := by
  intro d hd
  simp only [nibbles, List.mem_map] at hd
  obtain ⟨i, _, rfl⟩ := hd
  exact Nat.lt_of_le_of_lt Nat.and_le_right (by decide)

theorem and_15 (n : Nat) : n &&& 0x0f = n % 16 := Nat.and_two_pow_sub_one_eq_mod n 4

theorem nibbles_succ (n val : Nat) : nibbles (n + 1) val = nibbles n (val / 16) ++ [val % 16] := by
  unfold nibbles
  rw [List.range_succ, List.map_append]
  congr 1
  · apply List.map_congr_left
    intro i hi
    have hi := List.mem_range.1 hi
    have : 4 * (n + 1 - i - 1) = 4 + 4 * (n - i - 1) := by omega
    rw [this, Nat.shiftRight_add, show val >>> 4 = val / 16 from Nat.shiftRight_eq_div_pow val 4]
  · simp [and_15]

theorem number_nibbles : ∀ (n val : Nat), number 16 (nibbles n val) = val % 16 ^ n
  | 0, val => by simp [nibbles, number, Nat.mod_one]
  | n + 1, val => by
    rw [nibbles_succ, number_append, number_nibbles n]
    rw [Nat.pow_succ, Nat.mul_comm (16 ^ n) 16, Nat.mod_mul]
    omega

theorem hexSingle_eq (val n : Nat) : hexSingle val n = (nibbles (2 * n) val).map hexDigit ++ [32] := by
  simp [hexSingle, nibbles]

theorem digits_map (ds : List Nat) (h : ∀ d ∈ ds, d < 16) : Digits hexVal (ds.map hexDigit) ds := by
  unfold Digits
  rw [List.map_map]
  apply List.map_congr_left
  intro d hd
  exact hexVal_hexDigit d (h d hd)

theorem nibbles_length (n val : Nat) : (nibbles n val).length = n := by simp [nibbles]

theorem fieldText_hex (n val : Nat) (hn : n ≤ 15) : FieldText .hex ((nibbles n val).map hexDigit) (val % 16 ^ n) :=
  ⟨nibbles n val, digits_map _ (nibbles_lt n val), by simpa [nibbles_length] using hn, (number_nibbles n val).symm⟩

/-- The width of the length field suffices for every length. -/
theorem activeBytes_spec (len : Nat) (h : len < 2 ^ 64) :
    2 ≤ activeBytes len ∧ activeBytes len ≤ 8 ∧ len < 16 ^ (2 * activeBytes len) ∧ (len < 2 ^ 56 → activeBytes len ≤ 7) := by
  have hne : len ||| 0xffff ≠ 0 := by
    intro h0
    have : (0xffff : Nat) ≤ len ||| 0xffff := Nat.right_le_or
    omega
  have hlt : len ||| 0xffff < 2 ^ 64 := Nat.or_lt_two_pow h (by decide)
  have h1 : Nat.log2 (len ||| 0xffff) < 64 := (Nat.log2_lt hne).2 hlt
  have h2 : ¬ Nat.log2 (len ||| 0xffff) < 15 := by
    rw [Nat.log2_lt hne]
    have : (0xffff : Nat) ≤ len ||| 0xffff := Nat.right_le_or
    omega
  have h3 : len ||| 0xffff < 2 ^ (Nat.log2 (len ||| 0xffff) + 1) := (Nat.log2_lt hne).1 (by omega)
  have h4 : len ≤ len ||| 0xffff := Nat.left_le_or
  have ha : activeBytes len = Nat.log2 (len ||| 0xffff) / 8 + 1 := by unfold activeBytes; omega
  refine ⟨by omega, by omega, ?_, ?_⟩
  · have h16 : (16 : Nat) = 2 ^ 4 := by decide
    rw [h16, ← Nat.pow_mul]
    exact Nat.lt_of_le_of_lt h4 (Nat.lt_of_lt_of_le h3 (Nat.pow_le_pow_right (by decide) (by omega)))
  · intro h56
    have := (Nat.log2_lt hne).2 (Nat.or_lt_two_pow h56 (by decide) : len ||| 0xffff < 2 ^ 56)
    omega

theorem byte_nibbles (x : Byte) : hexVal (hexDigit (x >>> 4).toNat) = some (x.toNat / 16) ∧
    hexVal (hexDigit (x &&& 0x0f).toNat) = some (x.toNat % 16) ∧ UInt8.ofNat (16 * (x.toNat / 16) + x.toNat % 16) = x ∧
    hexDigit (x >>> 4).toNat ≠ 10 ∧ hexDigit (x &&& 0x0f).toNat ≠ 10 ∧ hexDigit (x >>> 4).toNat ≠ 124 ∧ hexDigit (x &&& 0x0f).toNat ≠ 124 := by
  revert x; apply forall_byte; decide +kernel

theorem hexBody_cons (x : Byte) (xs : Bytes) :
    hexBody (x :: xs) = hexDigit (x >>> 4).toNat :: hexDigit (x &&& 0x0f).toNat :: 32 :: hexBody xs := rfl

theorem hexBody_length : ∀ src : Bytes, (hexBody src).length = 3 * src.length
  | [] => rfl
  | x :: xs => by rw [hexBody_cons]; simp only [List.length_cons, hexBody_length xs]; omega

theorem hexBody_strict (n : Nat) : ∀ src : Bytes, StrictColumns (hexBody src ++ List.replicate n 32) src
  | [] => .spaces n
  | x :: xs => by
    rw [hexBody_cons]
    obtain ⟨h1, h2, h3, _⟩ := byte_nibbles x
    have := StrictColumns.col _ _ _ _ _ _ h1 h2 (hexBody_strict n xs)
    rw [h3] at this
    exact this

theorem hexBody_text : ∀ src : Bytes, 10 ∉ hexBody src ∧ 124 ∉ hexBody src
  | [] => by simp [hexBody]
  | x :: xs => by
    obtain ⟨_, _, _, h1, h2, h3, h4⟩ := byte_nibbles x
    obtain ⟨i1, i2⟩ := hexBody_text xs
    rw [hexBody_cons]
    simp only [List.mem_cons, not_or]
    exact ⟨⟨h1.symm, h2.symm, by decide, i1⟩, h3.symm, h4.symm, by decide, i2⟩

theorem mosaic_text (src : Bytes) : 10 ∉ mosaic src := by
  simp only [mosaic, List.mem_map, not_exists, not_and]
  intro x hx
  clear hx src
  revert x; apply forall_byte; decide +kernel

theorem mosaic_length (src : Bytes) : (mosaic src).length = src.length := by simp [mosaic]

/-- The part of a line from the array on. -/
theorem lineBody_eq (src : Bytes) (width : Nat) : ∃ arr mos : Bytes, lineBody src width = arr ++ 124 :: 32 :: mos ++ [10] ∧
    StrictColumns arr src ∧ 10 ∉ arr ∧ 124 ∉ arr ∧ 10 ∉ mos :=
  ⟨hexBody src ++ List.replicate (3 * (width - src.length)) 32, mosaic src ++ List.replicate (width - src.length) 32,
    by simp [lineBody, List.append_assoc], hexBody_strict _ src,
    by simp [(hexBody_text src).1, List.mem_replicate], by simp [(hexBody_text src).2, List.mem_replicate],
    by simp [mosaic_text, List.mem_replicate]⟩

theorem hexDigits_text (n val : Nat) : 10 ∉ (nibbles n val).map hexDigit := by
  intro h
  obtain ⟨d, hd, he⟩ := List.mem_map.1 h
  exact (hexDigit_text d (nibbles_lt n val d hd)).1 he

/-- A line in hexadecimal style, without its line break, is a documented line that denotes the formatted slice. -/
theorem lineHhh_spec (src : Bytes) (offset width : Nat) (h : src.length < 2 ^ 56) :
    ∃ l : Bytes, lineHhh src offset width = l ++ [10] ∧ 10 ∉ l ∧
      Line StrictColumns .hex .hex l { offset := offset % 2 ^ 48, span := src.length, data := src } := by
  obtain ⟨arr, mos, hb, hs, n1, n2, n3⟩ := lineBody_eq src width
  obtain ⟨_, _, a3, a4⟩ := activeBytes_spec src.length (by omega)
  have a4 := a4 h
  refine ⟨(nibbles 12 offset).map hexDigit ++ 32 :: ((nibbles (2 * activeBytes src.length) src.length).map hexDigit ++
    32 :: 124 :: 32 :: (arr ++ 124 :: (32 :: mos))), ?_, ?_, ?_⟩
  · unfold lineHhh
    rw [hexSingle_eq, hexSingle_eq, hb]
    simp [List.append_assoc]
  · simp only [List.mem_append, List.mem_cons, not_or]
    exact ⟨hexDigits_text _ _, by decide, hexDigits_text _ _, by decide, by decide, by decide, n1, by decide, by decide, n3⟩
  · have h1 := fieldText_hex 12 offset (by decide)
    have h2 := fieldText_hex (2 * activeBytes src.length) src.length (by omega)
    rw [Nat.mod_eq_of_lt a3] at h2
    exact .array _ _ arr _ _ _ src h1 h2 hs n2 (Or.inr ⟨_, rfl⟩)

/-! ## Decimal style -/

theorem decVal_digit (d : Nat) (h : d < 10) : decVal (UInt8.ofNat (48 + d)) = some d ∧ UInt8.ofNat (48 + d) ≠ 10 ∧ UInt8.ofNat (48 + d) ≠ 32 := by
  revert d; decide

theorem decLoop_spec : ∀ (fuel val : Nat), val < 10 ^ fuel → ∃ ds : List Nat, Digits decVal (decLoop fuel val).reverse ds ∧
    number 10 ds = val ∧ 10 ∉ decLoop fuel val ∧ (decLoop fuel val = [] ↔ val = 0)
  | 0, val, h => by
    have : val = 0 := by omega
    subst this
    exact ⟨[], rfl, rfl, by simp [decLoop], by simp [decLoop]⟩
  | fuel + 1, val, h => by
    unfold decLoop
    by_cases h0 : val > 0
    · rw [if_pos h0]
      have hlt : val / 10 < 10 ^ fuel := by
        rw [Nat.pow_succ] at h
        exact Nat.div_lt_of_lt_mul (by omega)
      obtain ⟨ds, h1, h2, h3, _⟩ := decLoop_spec fuel (val / 10) hlt
      obtain ⟨d1, d2, _⟩ := decVal_digit (val % 10) (Nat.mod_lt _ (by decide))
      refine ⟨ds ++ [val % 10], ?_, ?_, ?_, ?_⟩
      · unfold Digits at h1 ⊢
        rw [List.reverse_cons, List.map_append, List.map_append, h1]
        rw [List.map_singleton, List.map_singleton, d1]
      · rw [number_append, h2]; omega
      · simp only [List.mem_cons, not_or]; exact ⟨d2.symm, h3⟩
      · simp; omega
    · rw [if_neg h0]
      exact ⟨[], rfl, by simp [number]; omega, by simp, by simp; omega⟩

theorem decSingle_spec (val : Nat) (h : val < 2 ^ 64) : ∃ t : Bytes, decSingle val = t ++ [32] ∧ 10 ∉ t ∧ FieldText .dec t val := by
  obtain ⟨ds, h1, h2, h3, h4⟩ := decLoop_spec 31 val (by omega)
  unfold decSingle
  by_cases h0 : decLoop 31 val = []
  · rw [if_pos h0]
    refine ⟨[48], rfl, by decide, [0], by unfold Digits; decide, ?_⟩
    have := h4.1 h0
    subst this
    decide
  · rw [if_neg h0]
    refine ⟨_, rfl, by simpa using h3, ds, h1, ?_⟩
    rw [h2, Nat.mod_eq_of_lt h]

theorem lineDdh_spec (src : Bytes) (offset width : Nat) (ho : offset < 2 ^ 64) (h : src.length < 2 ^ 64) :
    ∃ l : Bytes, lineDdh src offset width = l ++ [10] ∧ 10 ∉ l ∧
      Line StrictColumns .dec .dec l { offset := offset, span := src.length, data := src } := by
  obtain ⟨arr, mos, hb, hs, n1, n2, n3⟩ := lineBody_eq src width
  obtain ⟨to, e1, t1, f1⟩ := decSingle_spec offset ho
  obtain ⟨tl, e2, t2, f2⟩ := decSingle_spec src.length h
  refine ⟨to ++ 32 :: (tl ++ 32 :: 124 :: 32 :: (arr ++ 124 :: (32 :: mos))), ?_, ?_, ?_⟩
  · unfold lineDdh
    rw [e1, e2, hb]
    simp [List.append_assoc]
  · simp only [List.mem_append, List.mem_cons, not_or]
    exact ⟨t1, by decide, t2, by decide, by decide, by decide, n1, by decide, by decide, n3⟩
  · exact .array _ _ arr _ _ _ src f1 f2 hs n2 (Or.inr ⟨_, rfl⟩)

/-! ## The reserved region suffices -/

theorem lineBody_length (src : Bytes) (width : Nat) (h : src.length ≤ width) : (lineBody src width).length = 4 * width + 3 := by
  simp [lineBody, hexBody_length, mosaic_length]; omega

theorem lineHhh_length (src : Bytes) (offset width : Nat) (h : src.length ≤ width) :
    (lineHhh src offset width).length = 19 + 2 * activeBytes src.length + 4 * width := by
  simp [lineHhh, lineBody_length _ _ h, hexSingle]; omega

theorem lineHhh_fits (src : Bytes) (offset width : Nat) (h : src.length ≤ width) :
    (lineHhh src offset width).length ≤ reserve width := by
  rw [lineHhh_length _ _ _ h]
  unfold reserve activeBytes
  omega

theorem decLoop_length : ∀ (fuel val n : Nat), val < 10 ^ n → (decLoop fuel val).length ≤ n
  | 0, _, _, _ => by simp [decLoop]
  | fuel + 1, val, n, h => by
    unfold decLoop
    by_cases h0 : val > 0
    · rw [if_pos h0]
      match n, h with
      | 0, h => omega
      | n + 1, h =>
        have hlt : val / 10 < 10 ^ n := by
          rw [Nat.pow_succ] at h
          exact Nat.div_lt_of_lt_mul (by omega)
        have := decLoop_length fuel (val / 10) n hlt
        simp; omega
    · rw [if_neg h0]; simp

theorem decSingle_length (val : Nat) (h : val < 2 ^ 64) : (decSingle val).length ≤ 21 := by
  have := decLoop_length 31 val 20 (by omega)
  unfold decSingle
  split
  · decide
  · simp; omega

theorem lineDdh_fits (src : Bytes) (offset width : Nat) (ho : offset < 2 ^ 64) (hl : src.length < 2 ^ 64) (h : src.length ≤ width) :
    (lineDdh src offset width).length ≤ reserve width := by
  have h1 := decSingle_length offset ho
  have h2 := decSingle_length src.length hl
  have h3 : (lineDdh src offset width).length = (decSingle offset).length + (decSingle src.length).length + 2 + (4 * width + 3) := by
    simp [lineDdh, lineBody_length _ _ h]; omega
  rw [h3]; unfold reserve; omega

end Format
end Nd
