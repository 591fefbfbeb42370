import Verif.Model.SimdFormat
import Verif.Proof.Simd
import Verif.Proof.Format
/-!
# The stores of the formatters
-/
namespace Nd
open Spec
namespace Format

theorem put_some {cap p n : Nat} (v m : Vec) (h : p + n ≤ cap) : put cap p n v m = some fun i => if p ≤ i ∧ i < p + n then v (i - p) else m i := if_pos h

/-- The character `j` of the number `val` printed with `a` bytes. -/
def digitAt (val a j : Nat) : Byte := if j < 2 * a then hexDigit (val >>> (4 * (2 * a - j - 1)) &&& 0x0f) else 32

/-- The character `k` of a column. -/
def colAt (x : Byte) (k : Nat) : Byte := if k = 0 then hexDigit (x >>> 4).toNat else if k = 1 then hexDigit (x &&& 0x0f).toNat else 32

/-- A character of the mosaic. -/
def dotAt (x : Byte) : Byte := if x < 32 ∨ x ≥ 127 then 46 else x

/-! ### Numbers -/

theorem testBit_f0 {i : Nat} (hi : i < 64) : (0xf0f0f0f0f0f0f0f0 : Nat).testBit i = decide (4 ≤ i % 8) := by
  have : ∀ i : Fin 64, (0xf0f0f0f0f0f0f0f0 : Nat).testBit i.1 = decide (4 ≤ i.1 % 8) := by decide +kernel
  exact this ⟨i, hi⟩

theorem testBit_not64 {x i : Nat} (hx : x < 2 ^ 64) (hi : i < 64) : (not64 x).testBit i = !x.testBit i := by
  unfold not64
  rw [show 2 ^ 64 - 1 - x = 2 ^ 64 - (x + 1) by omega, Nat.testBit_two_pow_sub_succ hx]
  simp [hi]

theorem lane (v a k : Nat) (ha : a ≤ 7) (hk : k < 8) :
    Vec.ofU64 (not64 (swap64 (shl64 (v ||| 0xf0f0f0f0f0f0f0f0) (64 - 8 * a)))) k =
      if k < a then UInt8.ofNat (15 - v >>> (8 * (a - 1 - k)) % 16) else 255 := by
  have hs : swap64 (shl64 (v ||| 0xf0f0f0f0f0f0f0f0) (64 - 8 * a)) < 2 ^ 64 := Vec.little_lt _ 8
  have hbit : ∀ i < 8, (Vec.ofU64 (not64 (swap64 (shl64 (v ||| 0xf0f0f0f0f0f0f0f0) (64 - 8 * a)))) k).toNat.testBit i =
      !(decide (k < a) && (v.testBit (8 * (a - 1 - k) + i) || decide (4 ≤ i))) := by
    intro i hi
    unfold Vec.ofU64
    rw [if_pos hk]
    have : (UInt8.ofNat (not64 (swap64 (shl64 (v ||| 0xf0f0f0f0f0f0f0f0) (64 - 8 * a))) >>> (8 * k))).toNat =
        (not64 (swap64 (shl64 (v ||| 0xf0f0f0f0f0f0f0f0) (64 - 8 * a))) >>> (8 * k)) % 2 ^ 8 := by simp
    rw [this, Nat.testBit_mod_two_pow, Nat.testBit_shiftRight, testBit_not64 hs (by omega), testBit_swap64, testBit_shl64, Nat.testBit_or,
      show (8 * k + i) / 8 = k by omega, show (8 * k + i) % 8 = i by omega]
    by_cases hka : k < a
    · rw [testBit_f0 (by omega), show 8 * (7 - k) + i - (64 - 8 * a) = 8 * (a - 1 - k) + i by omega, show (8 * (a - 1 - k) + i) % 8 = i by omega]
      simp only [hi, hka, decide_true, Bool.true_and, show 8 * k + i < 64 by omega, show 8 * (7 - k) + i < 64 by omega, show 64 - 8 * a ≤ 8 * (7 - k) + i by omega]
    · have : ¬ (64 - 8 * a ≤ 8 * (7 - k) + i) := by omega
      simp [hi, hka, this]
  apply UInt8.toNat_inj.1
  apply Nat.eq_of_testBit_eq
  intro i
  by_cases hi : i < 8
  · rw [hbit i hi]
    by_cases hka : k < a
    · rw [if_pos hka]
      have hx : (v >>> (8 * (a - 1 - k)) % 16).testBit i = (decide (i < 4) && v.testBit (8 * (a - 1 - k) + i)) := by
        rw [show (16 : Nat) = 2 ^ 4 by rfl, Nat.testBit_mod_two_pow, Nat.testBit_shiftRight]
      have key : ∀ x : Fin 16, ∀ i : Fin 8, (UInt8.ofNat (15 - x.1)).toNat.testBit i.1 = !(x.1.testBit i.1 || decide (4 ≤ i.1)) := by decide +kernel
      have := key ⟨v >>> (8 * (a - 1 - k)) % 16, Nat.mod_lt _ (by decide)⟩ ⟨i, hi⟩
      simp only at this
      rw [this, hx]
      simp only [hka, decide_true, Bool.true_and]
      by_cases h4 : 4 ≤ i
      · simp [h4]
      · simp [h4, show i < 4 by omega]
    · rw [if_neg hka]
      have key : ∀ i : Fin 8, (255 : Byte).toNat.testBit i.1 = true := by decide
      rw [key ⟨i, hi⟩]
      simp [hka]
  · have : ∀ b : Byte, b.toNat.testBit i = false := fun b =>
      Nat.testBit_lt_two_pow (Nat.lt_of_lt_of_le b.toNat_lt (Nat.pow_le_pow_right (by decide) (by omega)))
    rw [this, this]

theorem complements_low (v a k : Nat) (ha : a ≤ 7) (hk : k < 8) : (complements v a).1 k = if k < a then UInt8.ofNat (15 - v >>> (8 * (a - 1 - k)) % 16) else 255 :=
  lane v a k ha hk

theorem complements_high (v a k : Nat) (ha : a ≤ 7) (hk : k < 8) : (complements v a).2 k = if k < a then UInt8.ofNat (15 - v >>> (8 * (a - 1 - k) + 4) % 16) else 255 := by
  have := lane (v >>> 4) a k ha hk
  rw [← Nat.shiftRight_add, Nat.add_comm] at this
  exact this

/-- What both vectorised versions have to do with a lane. -/
theorem single_lanes (t : Byte → Byte) (ht : ∀ x < 16, t (UInt8.ofNat (15 - x)) = hexDigit x) (ht' : t 255 = 32) (v a j : Nat) (ha : a ≤ 7) (hj : j < 16) :
    (if j % 2 = 0 then t ((complements v a).2 (j / 2)) else t ((complements v a).1 (j / 2))) = digitAt v a j := by
  unfold digitAt
  rw [show (0x0f : Nat) = 2 ^ 4 - 1 by rfl, Nat.and_two_pow_sub_one_eq_mod]
  by_cases h2 : j < 2 * a
  · rw [if_pos h2]
    by_cases he : j % 2 = 0
    · rw [if_pos he, complements_high v a _ ha (by omega), if_pos (by omega), ht _ (Nat.mod_lt _ (by decide)), show 8 * (a - 1 - j / 2) + 4 = 4 * (2 * a - j - 1) by omega]
    · rw [if_neg he, complements_low v a _ ha (by omega), if_pos (by omega), ht _ (Nat.mod_lt _ (by decide)), show 8 * (a - 1 - j / 2) = 4 * (2 * a - j - 1) by omega]
  · rw [if_neg h2]
    by_cases he : j % 2 = 0
    · rw [if_pos he, complements_high v a _ ha (by omega), if_neg (by omega), ht']
    · rw [if_neg he, complements_low v a _ ha (by omega), if_neg (by omega), ht']

theorem singleAvx2_eq (v a j : Nat) (ha : a ≤ 7) (hj : j < 16) : singleAvx2 v a j = digitAt v a j := by
  rw [← single_lanes (fun b => (if b ≥ 0x80 then 0 else Vec.const [0x46, 0x45, 0x44, 0x43, 0x42, 0x41, 0x19, 0x18, 0x17, 0x16, 0x15, 0x14, 0x13, 0x12, 0x11, 0x10] (b &&& 0x0f).toNat) + 32)
    (by decide +kernel) (by decide) v a j ha hj]
  unfold singleAvx2 Vec.add Vec.unpackLo8 Vec.shuffle Vec.splat
  try dsimp only
  split <;> rfl

theorem singleNeon_eq (v a j : Nat) (ha : a ≤ 7) (hj : j < 16) : singleNeon v a j = digitAt v a j := by
  rw [← single_lanes (fun b => if b ≥ 16 then 32 else Vec.const [102, 101, 100, 99, 98, 97, 57, 56, 55, 54, 53, 52, 51, 50, 49, 48] b.toNat)
    (by decide +kernel) (by decide) v a j ha hj]
  unfold singleNeon st2 Vec.tbx Vec.splat
  try dsimp only

theorem hexSingle_chars (v a : Nat) : hexSingle v a = (List.range (2 * a + 1)).map (digitAt v a) := by
  unfold hexSingle
  rw [List.range_succ, List.map_append]
  congr 1
  · apply List.map_congr_left
    intro j hj
    rw [digitAt, if_pos (List.mem_range.1 hj)]
  · rw [List.map_singleton, digitAt, if_neg (by omega)]

theorem const_map (f : Nat → Byte) (n j : Nat) (hj : j < n) : Vec.const ((List.range n).map f) j = f j := by
  unfold Vec.const
  rw [List.getD_eq_getElem?_getD, List.getElem?_map, List.getElem?_range hj]
  rfl

theorem single_spec (I : Impl) (cap p val a : Nat) (m : Vec) (ha : a ≤ 7) (hc : p + 32 ≤ cap) :
    ∃ m', single I cap p val a m = some m' ∧ (∀ i < p, m' i = m i) ∧ ∀ j ≤ 2 * a, m' (p + j) = digitAt val a j := by
  have key : ∀ (n : Nat) (v : Vec), 2 * a < n → n ≤ 32 → (∀ j ≤ 2 * a, v j = digitAt val a j) →
      ∃ m', put cap p n v m = some m' ∧ (∀ i < p, m' i = m i) ∧ ∀ j ≤ 2 * a, m' (p + j) = digitAt val a j := by
    intro n v h1 h2 hv
    refine ⟨_, put_some v m (by omega), fun i hi => if_neg (by omega), fun j hj => ?_⟩
    try dsimp only
    rw [if_pos (by omega), show p + j - p = j by omega, hv j hj]
  cases I
  · refine key _ _ (by omega) (by omega) fun j hj => ?_
    rw [hexSingle_chars, const_map _ _ _ (by omega)]
  · exact key _ _ (by omega) (by omega) fun j hj => singleAvx2_eq val a j ha (by omega)
  · exact key _ _ (by omega) (by omega) fun j hj => singleNeon_eq val a j ha (by omega)

/-! ### Blocks -/

theorem blocks16_spec (stream : Bytes) {n cap : Nat} {blk : Vec → Nat → Vec → Option Vec} {g : Vec → Vec} (hn : 0 < n)
    (hblk : ∀ x p m, p + n ≤ cap → ∃ m', blk x p m = some m' ∧ (∀ i < p, m' i = m i) ∧ ∀ j < n, m' (p + j) = g x j) :
    ∀ (k pos p : Nat) (m : Vec), p + n * k ≤ cap → pos + 16 * k ≤ stream.length →
      ∃ m', blocks16 stream n blk k pos p m = some m' ∧ (∀ i < p, m' i = m i) ∧ ∀ j < n * k, m' (p + j) = g (Vec.load stream (pos + 16 * (j / n))) (j % n)
  | 0, pos, p, m, _, _ => ⟨m, rfl, fun _ _ => rfl, fun j hj => by omega⟩
  | k + 1, pos, p, m, hc, hl => by
    rw [Nat.mul_succ] at hc
    obtain ⟨m1, h1, h2, h3⟩ := hblk (Vec.load stream pos) p m (by omega)
    obtain ⟨m2, h4, h5, h6⟩ := blocks16_spec stream hn hblk k (pos + 16) (p + n) m1 (by omega) (by omega)
    refine ⟨m2, ?_, fun i hi => (h5 i (by omega)).trans (h2 i hi), fun j hj => ?_⟩
    · unfold blocks16 load16
      rw [if_pos (by omega)]
      simp only [Option.bind_eq_bind, Option.bind_some, h1, h4]
    · rw [Nat.mul_succ] at hj
      by_cases hjn : j < n
      · rw [h5 _ (by omega), h3 j hjn, Nat.div_eq_of_lt hjn, Nat.mod_eq_of_lt hjn]; rfl
      · have := h6 (j - n) (by omega)
        rw [show p + n + (j - n) = p + j by omega] at this
        rw [this, show j / n = (j - n) / n + 1 from Nat.div_eq_sub_div hn (by omega), show j % n = (j - n) % n from Nat.mod_eq_sub_mod (by omega), show pos + 16 + 16 * ((j - n) / n) = pos + 16 * ((j - n) / n + 1) by omega]

/-! ### Arrays -/

theorem bodyNeon_eq (x : Vec) (j : Nat) : bodyNeon x j = colAt (x (j / 3)) (j % 3) := by
  have h1 : ∀ b : Byte, (if b >>> 4 ≥ 16 then 0 else Vec.const [48, 49, 50, 51, 52, 53, 54, 55, 56, 57, 97, 98, 99, 100, 101, 102] (b >>> 4).toNat) = hexDigit (b >>> 4).toNat := by
    apply forall_byte; decide +kernel
  have h2 : ∀ b : Byte, (if b &&& 0x0f ≥ 16 then 0 else Vec.const [48, 49, 50, 51, 52, 53, 54, 55, 56, 57, 97, 98, 99, 100, 101, 102] (b &&& 0x0f).toNat) = hexDigit (b &&& 0x0f).toNat := by
    apply forall_byte; decide +kernel
  unfold bodyNeon st3 colAt Vec.tbl Vec.shr8 Vec.and Vec.splat
  try dsimp only
  rw [h1, h2]

/-- The digits before they are put in place. -/
theorem digits_avx2 (x : Vec) (i : Nat) (hi : i < 32) :
    Vec.shuffle256 (Vec.const digits256) (Vec.and (Vec.or (Vec.sll16 (Vec.widen x) 4) (Vec.widen x)) (Vec.splat 0x0f)) i + (32 : Byte) =
      if i % 2 = 0 then hexDigit (x (i / 2) &&& 0x0f).toNat else hexDigit (x (i / 2) >>> 4).toNat := by
  have hw : (Vec.widen x).word (i / 2) = (x (i / 2)).toNat := by
    unfold Vec.word Vec.widen
    rw [if_pos (by omega), if_neg (by omega), show 2 * (i / 2) / 2 = i / 2 by omega]
    simp
  have hx : Vec.and (Vec.or (Vec.sll16 (Vec.widen x) 4) (Vec.widen x)) (Vec.splat 0x0f) i = if i % 2 = 0 then x (i / 2) &&& 0x0f else x (i / 2) >>> 4 := by
    show (UInt8.ofNat ((Vec.widen x).word (i / 2) <<< 4 >>> (8 * (i % 2))) ||| Vec.widen x i) &&& 0x0f = _
    rw [hw]
    unfold Vec.widen
    generalize x (i / 2) = b
    by_cases he : i % 2 = 0
    · rw [if_pos he, if_pos he, he]
      revert b; apply forall_byte; decide +kernel
    · rw [if_neg he, if_neg he, show i % 2 = 1 by omega]
      revert b; apply forall_byte; decide +kernel
  have ht : ∀ k < 2, ∀ b : Fin 16, Vec.const digits256 (16 * k + (UInt8.ofNat b.1 &&& 0x0f).toNat) + (32 : Byte) = hexDigit b.1 := by decide +kernel
  have hs : ∀ c : Byte, c < 16 → (if c ≥ 0x80 then 0 else Vec.const digits256 (16 * (i / 16) + (c &&& 0x0f).toNat)) + (32 : Byte) = hexDigit c.toNat := by
    intro c hc
    have hc' : c.toNat < 16 := UInt8.lt_iff_toNat_lt.1 hc
    rw [if_neg (by intro h; have := UInt8.le_iff_toNat_le.1 h; simp at this; omega)]
    have := ht (i / 16) (by omega) ⟨c.toNat, hc'⟩
    simpa using this
  unfold Vec.shuffle256
  rw [hx]
  have hl : ∀ b : Byte, b &&& 0x0f < 16 ∧ b >>> 4 < 16 := by apply forall_byte; decide +kernel
  split
  · exact hs _ (hl _).1
  · exact hs _ (hl _).2

theorem index1_low : ∀ i < 16, Vec.const index1 i = if i % 3 = 2 then 0x80 else UInt8.ofNat (2 * (i / 3) + 1 - i % 3) := by decide +kernel
theorem index2_low : ∀ i < 16, Vec.const index2 i = if (16 + i) % 3 = 2 then 0x80 else UInt8.ofNat (2 * ((16 + i) / 3) + 1 - (16 + i) % 3 - 8) := by decide +kernel
theorem index1_high : ∀ i < 16, Vec.const index1 (16 + i) = if (32 + i) % 3 = 2 then 0x80 else UInt8.ofNat (2 * ((32 + i) / 3) + 1 - (32 + i) % 3 - 16) := by decide +kernel

theorem permute_low (x : Vec) (i : Nat) (hi : i < 16) : Vec.permute64 x 0xe9 i = x (8 + i) := by
  have : ∀ i < 16, 8 * (0xe9 >>> (2 * (i / 8)) % 4) + i % 8 = 8 + i := by decide
  unfold Vec.permute64
  rw [this i hi]

/-- A shuffle that puts the digits in place: character `j` of the block comes from lane `base + i` of the digits `x`. -/
theorem place (x idx d : Vec) (i j base : Nat) (hx : ∀ k < 16, x (16 * (i / 16) + k) = d (base + k)) (hb : j % 3 ≠ 2 → base ≤ 2 * (j / 3) + 1 - j % 3)
    (hb' : j % 3 ≠ 2 → 2 * (j / 3) + 1 - j % 3 < base + 16) (hi : idx i = if j % 3 = 2 then 0x80 else UInt8.ofNat (2 * (j / 3) + 1 - j % 3 - base)) (src : Vec)
    (hd : ∀ k < 32, d k + (32 : Byte) = if k % 2 = 0 then hexDigit (src (k / 2) &&& 0x0f).toNat else hexDigit (src (k / 2) >>> 4).toNat) (hj : j < 48) :
    Vec.shuffle256 x idx i + (32 : Byte) = colAt (src (j / 3)) (j % 3) := by
  unfold Vec.shuffle256 colAt
  rw [hi]
  by_cases h2 : j % 3 = 2
  · rw [if_pos h2, if_pos (by decide), if_neg (by omega), if_neg (by omega)]; rfl
  · rw [if_neg h2]
    have hk : 2 * (j / 3) + 1 - j % 3 - base < 16 := by have := hb' h2; omega
    have hc : ∀ k < 16, ¬ (UInt8.ofNat k ≥ 0x80) ∧ (UInt8.ofNat k &&& 0x0f).toNat = k := by decide +kernel
    obtain ⟨c1, c2⟩ := hc _ hk
    have := hb h2
    rw [if_neg c1, c2, hx _ hk, hd _ (by omega), show base + (2 * (j / 3) + 1 - j % 3 - base) = 2 * (j / 3) + 1 - j % 3 by omega]
    by_cases h0 : j % 3 = 0
    · rw [if_neg (by omega), if_pos h0, show (2 * (j / 3) + 1 - j % 3) / 2 = j / 3 by omega]
    · rw [if_pos (by omega), if_neg h0, if_pos (by omega), show (2 * (j / 3) + 1 - j % 3) / 2 = j / 3 by omega]

theorem bodyAvx2_eq (x : Vec) : (∀ i < 16, Vec.half (bodyAvx2 x).1 0 i = colAt (x (i / 3)) (i % 3)) ∧
    (∀ i < 16, Vec.half (bodyAvx2 x).2 0 i = colAt (x ((16 + i) / 3)) ((16 + i) % 3)) ∧ (∀ i < 16, Vec.half (bodyAvx2 x).1 1 i = colAt (x ((32 + i) / 3)) ((32 + i) % 3)) := by
  have hd := digits_avx2 x
  generalize hD : Vec.shuffle256 (Vec.const digits256) (Vec.and (Vec.or (Vec.sll16 (Vec.widen x) 4) (Vec.widen x)) (Vec.splat 0x0f)) = d at hd
  have h1 : (bodyAvx2 x).1 = fun i => Vec.shuffle256 d (Vec.const index1) i + (32 : Byte) := by rw [← hD]; rfl
  have h2 : (bodyAvx2 x).2 = fun i => Vec.shuffle256 (Vec.permute64 d 0xe9) (Vec.const index2) i + (32 : Byte) := by rw [← hD]; rfl
  rw [h1, h2]
  unfold Vec.half
  refine ⟨fun i hi => ?_, fun i hi => ?_, fun i hi => ?_⟩
  · try dsimp only
    refine place d _ d (16 * 0 + i) i 0 (fun k hk => by rw [show (16 * 0 + i) / 16 = 0 by omega]) (by omega) (by omega) ?_ x hd (by omega)
    rw [show 16 * 0 + i = i by omega, Nat.sub_zero]; exact index1_low i hi
  · try dsimp only
    refine place _ _ d (16 * 0 + i) (16 + i) 8 (fun k hk => by rw [show (16 * 0 + i) / 16 = 0 by omega, show 16 * 0 + k = k by omega, permute_low d k hk]) (by omega) (by omega) ?_ x hd (by omega)
    rw [show 16 * 0 + i = i by omega]; exact index2_low i hi
  · try dsimp only
    refine place d _ d (16 * 1 + i) (32 + i) 16 (fun k hk => by rw [show (16 * 1 + i) / 16 = 1 by omega]) (by omega) (by omega) ?_ x hd (by omega)
    rw [show 16 * 1 + i = 16 + i by omega]; exact index1_high i hi

theorem hexBody_eq (src : Bytes) : hexBody src = (List.range (3 * src.length)).map fun j => colAt (src.getD (j / 3) 0) (j % 3) := by
  induction src with
  | nil => rfl
  | cons x xs ih =>
    have : 3 * (x :: xs).length = 3 + 3 * xs.length := by simp only [List.length_cons]; omega
    rw [this, List.range_add, List.map_append, List.map_map]
    show [hexDigit (x >>> 4).toNat, hexDigit (x &&& 0x0f).toNat, 32] ++ hexBody xs = _
    rw [ih]
    congr 1
    apply List.map_congr_left
    intro j _
    simp only [Function.comp]
    rw [show (3 + j) / 3 = j / 3 + 1 by omega, show (3 + j) % 3 = j % 3 by omega]
    rfl

theorem getD_slice (stream : Bytes) (pos len k : Nat) (h : k < len) : ((stream.drop pos).take len).getD k 0 = stream.getD (pos + k) 0 := by
  rw [List.getD_eq_getElem?_getD, List.getD_eq_getElem?_getD, List.getElem?_take_of_lt h, List.getElem?_drop]

theorem body_spec (I : Impl) (cap p : Nat) (stream : Bytes) (pos len : Nat) (m : Vec) (hc : p + 48 * ((len + 15) / 16) ≤ cap) (hs : pos + len ≤ stream.length)
    (hs' : I ≠ .portable → pos + len + 15 ≤ stream.length) :
    ∃ m', body I cap p stream pos len m = some m' ∧ (∀ i < p, m' i = m i) ∧ ∀ j < 3 * len, m' (p + j) = colAt (stream.getD (pos + j / 3) 0) (j % 3) := by
  have vec : I ≠ .portable → ∀ (blk : Vec → Nat → Vec → Option Vec) (hblk : ∀ x p m, p + 48 ≤ cap → ∃ m', blk x p m = some m' ∧ (∀ i < p, m' i = m i) ∧ ∀ j < 48, m' (p + j) = colAt (x (j / 3)) (j % 3)),
      ∃ m', blocks16 stream 48 blk ((len + 0x0f) >>> 4) pos p m = some m' ∧ (∀ i < p, m' i = m i) ∧ ∀ j < 3 * len, m' (p + j) = colAt (stream.getD (pos + j / 3) 0) (j % 3) := by
    intro hI blk hblk
    have hk : (len + 0x0f) >>> 4 = (len + 15) / 16 := by rw [Nat.shiftRight_eq_div_pow]
    have := hs' hI
    obtain ⟨m', h1, h2, h3⟩ := blocks16_spec stream (g := fun x j => colAt (x (j / 3)) (j % 3)) (by decide) hblk ((len + 0x0f) >>> 4) pos p m (by omega) (by omega)
    refine ⟨m', h1, h2, fun j hj => ?_⟩
    rw [h3 j (by omega)]
    unfold Vec.load
    rw [show j % 48 % 3 = j % 3 by omega, show pos + 16 * (j / 48) + j % 48 / 3 = pos + j / 3 by omega]
  cases I
  · refine ⟨_, put_some _ _ (by omega), fun i hi => if_neg (by omega), fun j hj => ?_⟩
    try dsimp only
    rw [if_pos (by omega), show p + j - p = j by omega, hexBody_eq, const_map, getD_slice _ _ _ _ (by omega)]
    rw [List.length_take, List.length_drop]
    omega
  · refine vec (by decide) _ fun x p m hp => ?_
    obtain ⟨b1, b2, b3⟩ := bodyAvx2_eq x
    try dsimp only
    rw [put_some _ _ (by omega)]
    simp only [Option.bind_eq_bind, Option.bind_some]
    rw [put_some _ _ (by omega)]
    simp only [Option.bind_some]
    rw [put_some _ _ (by omega)]
    refine ⟨_, rfl, fun i hi => ?_, fun j hj => ?_⟩
    · try dsimp only
      rw [if_neg (by omega), if_neg (by omega), if_neg (by omega)]
    · try dsimp only
      by_cases h1 : j < 16
      · rw [if_neg (by omega), if_neg (by omega), if_pos (by omega), show p + j - p = j by omega, b1 j h1]
      · by_cases h2 : j < 32
        · rw [if_neg (by omega), if_pos (by omega), show p + j - (p + 16) = j - 16 by omega, b2 _ (by omega), show 16 + (j - 16) = j by omega]
        · rw [if_pos (by omega), show p + j - (p + 32) = j - 32 by omega, b3 _ (by omega), show 32 + (j - 32) = j by omega]
  · refine vec (by decide) _ fun x p m hp => ?_
    refine ⟨_, put_some _ _ hp, fun i hi => if_neg (by omega), fun j hj => ?_⟩
    try dsimp only
    rw [if_pos (by omega), show p + j - p = j by omega, bodyNeon_eq]

/-! ### Mosaics -/

theorem mosaicAvx2_eq (x : Vec) (i : Nat) : mosaicAvx2 x i = dotAt (x i) := by
  have : ∀ b : Byte, (if Vec.flag (decide ((b + 1).toInt8 > (32 : Byte).toInt8)) ≥ 0x80 then b else 46) = dotAt b := by apply forall_byte; decide +kernel
  exact this (x i)

theorem mosaicNeon_eq (x : Vec) (i : Nat) : mosaicNeon x i = dotAt (x i) := by
  have : ∀ b : Byte, (Vec.flag (decide ((b + 1).toInt8 > (32 : Byte).toInt8)) &&& b) ||| (~~~(Vec.flag (decide ((b + 1).toInt8 > (32 : Byte).toInt8))) &&& 46) = dotAt b := by
    apply forall_byte; decide +kernel
  exact this (x i)

theorem mosaic_eq (src : Bytes) : mosaic src = (List.range src.length).map fun j => dotAt (src.getD j 0) := by
  apply List.ext_getElem
  · simp [mosaic]
  · intro i h1 h2
    simp [mosaic, dotAt] at h1 ⊢
    simp [h1]

theorem mosaic_spec (I : Impl) (cap p : Nat) (stream : Bytes) (pos len : Nat) (m : Vec) (hc : p + 16 * ((len + 15) / 16) ≤ cap) (hs : pos + len ≤ stream.length)
    (hs' : I ≠ .portable → pos + len + 15 ≤ stream.length) :
    ∃ m', mosaicAt I cap p stream pos len m = some m' ∧ (∀ i < p, m' i = m i) ∧ ∀ j < len, m' (p + j) = dotAt (stream.getD (pos + j) 0) := by
  have vec : I ≠ .portable → ∀ (f : Vec → Vec) (hf : ∀ x i, f x i = dotAt (x i)),
      ∃ m', blocks16 stream 16 (fun x p m => put cap p 16 (f x) m) ((len + 0x0f) >>> 4) pos p m = some m' ∧ (∀ i < p, m' i = m i) ∧ ∀ j < len, m' (p + j) = dotAt (stream.getD (pos + j) 0) := by
    intro hI f hf
    have hk : (len + 0x0f) >>> 4 = (len + 15) / 16 := by rw [Nat.shiftRight_eq_div_pow]
    have := hs' hI
    obtain ⟨m', h1, h2, h3⟩ := blocks16_spec stream (cap := cap) (blk := fun x p m => put cap p 16 (f x) m) (g := f) (n := 16) (by decide) (fun x p m hp =>
      ⟨_, put_some _ _ hp, fun i hi => if_neg (by omega), fun j hj => by
        try dsimp only
        rw [if_pos (by omega), show p + j - p = j by omega]⟩) ((len + 0x0f) >>> 4) pos p m (by omega) (by omega)
    refine ⟨m', h1, h2, fun j hj => ?_⟩
    rw [h3 j (by omega), hf]
    unfold Vec.load
    rw [show pos + 16 * (j / 16) + j % 16 = pos + j by omega]
  cases I
  · refine ⟨_, put_some _ _ (by omega), fun i hi => if_neg (by omega), fun j hj => ?_⟩
    try dsimp only
    rw [if_pos (by omega), show p + j - p = j by omega, mosaic_eq, const_map, getD_slice _ _ _ _ (by omega)]
    rw [List.length_take, List.length_drop]
    omega
  · exact vec (by decide) _ mosaicAvx2_eq
  · exact vec (by decide) _ mosaicNeon_eq

/-! ### Lines -/

theorem blanks_spec (cap b mo : Nat) : ∀ (n i : Nat) (m : Vec), b + 3 * (i + n) ≤ cap → mo + (i + n) ≤ cap →
    ∃ m', blanks cap b mo n i m = some m' ∧
      ∀ t, m' t = if (b + 3 * i ≤ t ∧ t < b + 3 * (i + n)) ∨ (mo + i ≤ t ∧ t < mo + (i + n)) then 32 else m t
  | 0, i, m, _, _ => ⟨m, rfl, fun t => (if_neg (by omega)).symm⟩
  | n + 1, i, m, h1, h2 => by
    unfold blanks
    rw [put_some _ _ (by omega)]
    simp only [Option.bind_eq_bind, Option.bind_some]
    rw [put_some _ _ (by omega)]
    simp only [Option.bind_some]
    obtain ⟨m', h3, h4⟩ := blanks_spec cap b mo n (i + 1) (fun t => if mo + i ≤ t ∧ t < mo + i + 1 then Vec.splat 32 (t - (mo + i)) else
      if b + 3 * i ≤ t ∧ t < b + 3 * i + 3 then Vec.splat 32 (t - (b + 3 * i)) else m t) (by omega) (by omega)
    refine ⟨m', h3, fun t => ?_⟩
    rw [h4 t]
    unfold Vec.splat
    by_cases ha : (b + 3 * (i + 1) ≤ t ∧ t < b + 3 * (i + 1 + n)) ∨ (mo + (i + 1) ≤ t ∧ t < mo + (i + 1 + n))
    · rw [if_pos ha, if_pos (by omega)]
    · rw [if_neg ha]
      by_cases hb : mo + i ≤ t ∧ t < mo + i + 1
      · rw [if_pos hb, if_pos (by omega)]
      · rw [if_neg hb]
        by_cases hc : b + 3 * i ≤ t ∧ t < b + 3 * i + 3
        · rw [if_pos hc, if_pos (by omega)]
        · rw [if_neg hc, if_neg (by omega)]

theorem toBytes_add (v : Vec) (a b : Nat) : Vec.toBytes v (a + b) = Vec.toBytes v a ++ Vec.toBytes (fun i => v (a + i)) b := by
  unfold Vec.toBytes
  rw [List.range_add, List.map_append, List.map_map]; rfl

theorem toBytes_congr {v : Vec} {n : Nat} {f : Nat → Byte} (h : ∀ i < n, v i = f i) : Vec.toBytes v n = (List.range n).map f :=
  List.map_congr_left fun i hi => h i (List.mem_range.1 hi)

theorem toBytes_splat {v : Vec} {n : Nat} {b : Byte} (h : ∀ i < n, v i = b) : Vec.toBytes v n = List.replicate n b := by
  rw [toBytes_congr h, List.map_const', List.length_range]

theorem rest_spec (I : Impl) (cap p : Nat) (stream : Bytes) (pos len width : Nat) (m : Vec) (hw : len ≤ width)
    (hc : p + 3 + 4 * ((width + 15) / 16 * 16) ≤ cap) (hs : pos + len ≤ stream.length) (hs' : I ≠ .portable → pos + len + 15 ≤ stream.length) :
    ∃ m', rest I cap p stream pos len width m = some m' ∧ (∀ i < p, m' i = m i) ∧
      Vec.toBytes (fun i => m' (p + i)) (4 * width + 3) = lineBody ((stream.drop pos).take len) width := by
  have hl : ((stream.drop pos).take len).length = len := by rw [List.length_take, List.length_drop]; omega
  obtain ⟨m1, a1, a2, a3⟩ := body_spec I cap p stream pos len m (by omega) hs hs'
  have b1 := put_some (cap := cap) (p := p + 3 * width) (n := 2) (Vec.const [124, 32]) m1 (by omega)
  obtain ⟨m3, c1, c2, c3⟩ := mosaic_spec I cap (p + 3 * width + 2) stream pos len
    (fun i => if p + 3 * width ≤ i ∧ i < p + 3 * width + 2 then Vec.const [124, 32] (i - (p + 3 * width)) else m1 i) (by omega) hs hs'
  have d1 := put_some (cap := cap) (p := p + 3 * width + 2 + width) (n := 1) (Vec.const [10]) m3 (by omega)
  obtain ⟨m5, e1, e2⟩ := blanks_spec cap p (p + 3 * width + 2) (width - len) len
    (fun i => if p + 3 * width + 2 + width ≤ i ∧ i < p + 3 * width + 2 + width + 1 then Vec.const [10] (i - (p + 3 * width + 2 + width)) else m3 i) (by omega) (by omega)
  refine ⟨m5, ?_, fun i hi => ?_, ?_⟩
  · unfold rest
    simp only [Option.bind_eq_bind, a1, Option.bind_some, b1, c1, d1, e1]
  · rw [e2, if_neg (by omega), if_neg (by omega), c2 _ (by omega), if_neg (by omega), a2 i hi]
  · rw [show 4 * width + 3 = 3 * len + 3 * (width - len) + 2 + len + (width - len) + 1 by omega]
    simp only [toBytes_add]
    unfold lineBody
    rw [hl]
    congr 1
    · congr 1
      · congr 1
        · congr 1
          · congr 1
            · rw [hexBody_eq, hl]
              apply toBytes_congr
              intro j hj
              rw [e2, if_neg (by omega), if_neg (by omega), c2 _ (by omega), if_neg (by omega), a3 j hj, getD_slice _ _ _ _ (by omega)]
            · apply toBytes_splat
              intro j hj
              rw [e2, if_pos (by omega)]
          · show [_, _] = _
            dsimp only
            rw [e2, if_neg (by omega), if_neg (by omega), c2 _ (by omega), if_pos (by omega), e2, if_neg (by omega), if_neg (by omega), c2 _ (by omega), if_pos (by omega),
              show p + (3 * len + 3 * (width - len) + 0) - (p + 3 * width) = 0 by omega, show p + (3 * len + 3 * (width - len) + 1) - (p + 3 * width) = 1 by omega]
            rfl
        · rw [mosaic_eq, hl]
          apply toBytes_congr
          intro j hj
          rw [e2, if_neg (by omega), if_neg (by omega), show p + (3 * len + 3 * (width - len) + 2 + j) = p + 3 * width + 2 + j by omega, c3 j hj, getD_slice _ _ _ _ hj]
      · apply toBytes_splat
        intro j hj
        rw [e2, if_pos (by omega)]
    · show [_] = _
      dsimp only
      rw [e2, if_neg (by omega), if_pos (by omega), show p + (3 * len + 3 * (width - len) + 2 + len + (width - len) + 0) - (p + 3 * width + 2 + width) = 0 by omega]
      rfl

theorem clz64_eq_log2 {x : Nat} (h0 : x ≠ 0) (h : x < 2 ^ 64) : clz64 x = 63 - Nat.log2 x := by
  have hl : Nat.log2 x < 64 := (Nat.log2_lt h0).2 h
  apply clz64_eq (by omega)
  · rw [show 63 - (63 - Nat.log2 x) = Nat.log2 x by omega]
    exact Nat.testBit_log2 h0
  · intro j hj
    exact Nat.testBit_lt_two_pow ((Nat.log2_lt h0).1 (by omega))

theorem active_eq {len : Nat} (h : len < 2 ^ 64) : 8 - clz64 (len ||| 0xffff) / 8 = activeBytes len := by
  have h0 : len ||| 0xffff ≠ 0 := by
    intro h
    have := congrArg (fun x => Nat.testBit x 0) h
    simp at this
  rw [clz64_eq_log2 h0 (Nat.or_lt_two_pow h (by decide))]
  rfl

theorem storeHhh_spec (I : Impl) (stream : Bytes) (pos len offset width : Nat) (m : Vec) (hw : len ≤ width) (hlen : len < 2 ^ 56)
    (hs : pos + len ≤ stream.length) (hs' : I ≠ .portable → pos + len + 15 ≤ stream.length) :
    ∃ m', storeHhh I (reserve width) stream pos len offset width m = some ((lineHhh ((stream.drop pos).take len) offset width).length, m') ∧
      m'.toBytes (lineHhh ((stream.drop pos).take len) offset width).length = lineHhh ((stream.drop pos).take len) offset width := by
  have hl : ((stream.drop pos).take len).length = len := by rw [List.length_take, List.length_drop]; omega
  obtain ⟨a1, _, _, a2⟩ := activeBytes_spec len (by omega)
  have a2 := a2 hlen
  have hll : (lineHhh ((stream.drop pos).take len) offset width).length = 19 + 2 * activeBytes len + 4 * width := by rw [lineHhh_length _ _ _ (by omega), hl]
  have hR : reserve width = 4 * ((width + 15) / 16 * 16) + 256 := rfl
  obtain ⟨m1, b1, b2, b3⟩ := single_spec I (reserve width) 0 offset 6 m (by decide) (by omega)
  obtain ⟨m2, c1, c2, c3⟩ := single_spec I (reserve width) 13 len (activeBytes len) m1 a2 (by omega)
  have d1 := put_some (cap := reserve width) (p := 14 + 2 * activeBytes len) (n := 2) (Vec.const [124, 32]) m2 (by omega)
  obtain ⟨m4, e1, e2, e3⟩ := rest_spec I (reserve width) (16 + 2 * activeBytes len) stream pos len width
    (fun i => if 14 + 2 * activeBytes len ≤ i ∧ i < 14 + 2 * activeBytes len + 2 then Vec.const [124, 32] (i - (14 + 2 * activeBytes len)) else m2 i) hw (by omega) hs hs'
  refine ⟨m4, ?_, ?_⟩
  · unfold storeHhh
    rw [active_eq (by omega), hll]
    simp only [Option.bind_eq_bind, b1, Option.bind_some, c1, d1, e1]
  · rw [hll, show 19 + 2 * activeBytes len + 4 * width = (2 * 6 + 1) + (2 * activeBytes len + 1) + 2 + (4 * width + 3) by omega]
    rw [toBytes_add m4 (2 * 6 + 1 + (2 * activeBytes len + 1) + 2), toBytes_add m4 (2 * 6 + 1 + (2 * activeBytes len + 1)), toBytes_add m4 (2 * 6 + 1)]
    unfold lineHhh
    rw [hl]
    congr 1
    · congr 1
      · congr 1
        · rw [hexSingle_chars]
          apply toBytes_congr
          intro j hj
          rw [e2 _ (by omega), if_neg (by omega), c2 _ (by omega)]
          simpa using b3 j (by omega)
        · rw [hexSingle_chars]
          apply toBytes_congr
          intro j hj
          rw [e2 _ (by omega), if_neg (by omega), show 2 * 6 + 1 + j = 13 + j by omega, c3 j (by omega)]
      · show [_, _] = _
        dsimp only
        rw [e2 _ (by omega), if_pos (by omega), e2 _ (by omega), if_pos (by omega),
          show 2 * 6 + 1 + (2 * activeBytes len + 1) + 0 - (14 + 2 * activeBytes len) = 0 by omega, show 2 * 6 + 1 + (2 * activeBytes len + 1) + 1 - (14 + 2 * activeBytes len) = 1 by omega]
        rfl
    · rw [← e3]
      congr 1
      funext i
      rw [show 2 * 6 + 1 + (2 * activeBytes len + 1) + 2 + i = 16 + 2 * activeBytes len + i by omega]

theorem toBytes_const {v : Vec} {l : Bytes} (h : ∀ i < l.length, v i = Vec.const l i) : v.toBytes l.length = l := by
  rw [toBytes_congr h]
  apply List.ext_getElem
  · simp
  · intro i h1 h2
    simp [Vec.const, h2]

theorem storeDdh_spec (I : Impl) (stream : Bytes) (pos len offset width : Nat) (m : Vec) (hw : len ≤ width) (hlen : len < 2 ^ 64) (hoff : offset < 2 ^ 64)
    (hs : pos + len ≤ stream.length) (hs' : I ≠ .portable → pos + len + 15 ≤ stream.length) :
    ∃ m', storeDdh I (reserve width) stream pos len offset width m = some ((lineDdh ((stream.drop pos).take len) offset width).length, m') ∧
      m'.toBytes (lineDdh ((stream.drop pos).take len) offset width).length = lineDdh ((stream.drop pos).take len) offset width := by
  have hl : ((stream.drop pos).take len).length = len := by rw [List.length_take, List.length_drop]; omega
  have h1 := decSingle_length offset hoff
  have h2 := decSingle_length len hlen
  have hll : (lineDdh ((stream.drop pos).take len) offset width).length = (decSingle offset).length + (decSingle len).length + 2 + (4 * width + 3) := by
    unfold lineDdh
    rw [List.length_append, lineBody_length _ _ (by omega), hl]
    simp; omega
  have hR : reserve width = 4 * ((width + 15) / 16 * 16) + 256 := rfl
  have b1 := put_some (cap := reserve width) (p := 0) (n := (decSingle offset).length) (Vec.const (decSingle offset)) m (by omega)
  have c1 := fun m => put_some (cap := reserve width) (p := (decSingle offset).length) (n := (decSingle len).length) (Vec.const (decSingle len)) m (by omega)
  have d1 := fun m => put_some (cap := reserve width) (p := (decSingle offset).length + (decSingle len).length) (n := 2) (Vec.const [124, 32]) m (by omega)
  obtain ⟨m4, e1, e2, e3⟩ := rest_spec I (reserve width) ((decSingle offset).length + (decSingle len).length + 2) stream pos len width
    (fun i => if (decSingle offset).length + (decSingle len).length ≤ i ∧ i < (decSingle offset).length + (decSingle len).length + 2 then
        Vec.const [124, 32] (i - ((decSingle offset).length + (decSingle len).length))
      else if (decSingle offset).length ≤ i ∧ i < (decSingle offset).length + (decSingle len).length then Vec.const (decSingle len) (i - (decSingle offset).length)
      else if 0 ≤ i ∧ i < 0 + (decSingle offset).length then Vec.const (decSingle offset) (i - 0) else m i) hw (by omega) hs hs'
  refine ⟨m4, ?_, ?_⟩
  · unfold storeDdh
    simp only [Option.bind_eq_bind, b1, Option.bind_some, c1, d1, e1]
    rw [hll]
    congr 2
    omega
  · rw [hll]
    rw [toBytes_add m4 ((decSingle offset).length + (decSingle len).length + 2), toBytes_add m4 ((decSingle offset).length + (decSingle len).length), toBytes_add m4 (decSingle offset).length]
    unfold lineDdh
    rw [hl]
    congr 1
    · congr 1
      · congr 1
        · apply toBytes_const
          intro j hj
          rw [e2 _ (by omega), if_neg (by omega), if_neg (by omega), if_pos (by omega), Nat.sub_zero]
        · apply toBytes_const
          intro j hj
          rw [e2 _ (by omega), if_neg (by omega), if_pos (by omega), show (decSingle offset).length + j - (decSingle offset).length = j by omega]
      · show [_, _] = _
        dsimp only
        rw [e2 _ (by omega), if_pos (by omega), e2 _ (by omega), if_pos (by omega), Nat.add_sub_cancel_left, Nat.add_sub_cancel_left]
        rfl

end Format
end Nd
