import Verif.Proof.Parser
/-!
# What the vectorised parsers compute
-/
namespace Nd
open Spec Vec

/-! ## Bits and bytes -/

theorem Vec.bits_lt (p : Nat → Bool) : ∀ n, bits p n < 2 ^ n
  | 0 => by simp [bits]
  | n + 1 => by
    have := Vec.bits_lt p n
    simp only [bits, Nat.pow_succ]
    split <;> omega

theorem Vec.testBit_bits (p : Nat → Bool) (i : Nat) : ∀ n, (bits p n).testBit i = (decide (i < n) && p i)
  | 0 => by simp [bits]
  | n + 1 => by
    have ih := Vec.testBit_bits p i n
    have hlt := Vec.bits_lt p n
    simp only [bits]
    by_cases hp : p n = true
    · simp only [hp, if_true]
      rw [Nat.add_comm, show 2 ^ n + bits p n = 2 ^ n * 1 + bits p n by omega, Nat.testBit_two_pow_mul_add _ hlt]
      by_cases h : i < n
      · rw [if_pos h, ih]; simp [h, Nat.lt_succ_of_lt h]
      · rw [if_neg h]
        by_cases h2 : i = n
        · subst h2; simp [hp]
        · have : i - n ≠ 0 := by omega
          obtain ⟨k, hk⟩ : ∃ k, i - n = k + 1 := ⟨i - n - 1, by omega⟩
          rw [hk, show decide (i < n + 1) = false by simp; omega]
          simp [Nat.testBit_succ]
    · simp only [Bool.not_eq_true] at hp
      simp only [hp, Bool.false_eq_true, if_false, Nat.add_zero, ih]
      by_cases h : i < n
      · simp [h, Nat.lt_succ_of_lt h]
      · by_cases h2 : i = n
        · subst h2; simp [hp]
        · rw [show decide (i < n + 1) = false by simp; omega]; simp [h]

theorem Vec.testBit_movemask (x : Vec) (i : Nat) : (movemask x).testBit i = (decide (i < 16) && decide (x i ≥ 0x80)) :=
  Vec.testBit_bits _ i 16

theorem Vec.little_lt (x : Vec) : ∀ n, little x n < 2 ^ (8 * n)
  | 0 => by simp [little]
  | n + 1 => by
    have := Vec.little_lt x n
    have h2 := (x n).toNat_lt
    simp only [little]
    rw [show (256 : Nat) = 2 ^ 8 from rfl, ← Nat.pow_mul, show 8 * (n + 1) = 8 * n + 8 by omega, Nat.pow_add]
    generalize hP : 2 ^ (8 * n) = P at *
    generalize (x n).toNat = y at *
    have h3 : y * P ≤ 255 * P := Nat.mul_le_mul_right _ (by omega)
    omega

theorem Vec.testBit_little (x : Vec) (i : Nat) : ∀ n, (little x n).testBit i = (decide (i < 8 * n) && (x (i / 8)).toNat.testBit (i % 8))
  | 0 => by simp [little]
  | n + 1 => by
    have ih := Vec.testBit_little x i n
    have hlt := Vec.little_lt x n
    simp only [little]
    rw [show (256 : Nat) = 2 ^ 8 from rfl, ← Nat.pow_mul, Nat.add_comm, Nat.mul_comm, Nat.testBit_two_pow_mul_add _ hlt]
    by_cases h : i < 8 * n
    · rw [if_pos h, ih]
      simp [h, show i < 8 * (n + 1) by omega]
    · rw [if_neg h]
      by_cases h2 : i < 8 * (n + 1)
      · rw [show i / 8 = n by omega, show i % 8 = i - 8 * n by omega]; simp [h2]
      · rw [show decide (i < 8 * (n + 1)) = false by simpa using h2, Bool.false_and]
        apply Nat.testBit_lt_two_pow
        calc (x n).toNat < 2 ^ 8 := (x n).toNat_lt
          _ ≤ 2 ^ (i - 8 * n) := Nat.pow_le_pow_right (by omega) (by omega)

theorem Vec.testBit_u64 (x : Vec) (k i : Nat) : (x.u64 k).testBit i = (decide (i < 64) && (x (8 * k + i / 8)).toNat.testBit (i % 8)) :=
  Vec.testBit_little _ i 8

theorem testBit_shl64 (x k i : Nat) : (shl64 x k).testBit i = (decide (i < 64) && decide (k ≤ i) && x.testBit (i - k)) := by
  unfold shl64
  rw [Nat.testBit_mod_two_pow, Nat.testBit_shiftLeft]
  simp [Bool.and_assoc]

theorem testBit_swap64 (x i : Nat) : (swap64 x).testBit i = (decide (i < 64) && x.testBit (8 * (7 - i / 8) + i % 8)) := by
  unfold swap64
  rw [Vec.testBit_little]
  by_cases h : i < 64
  · rw [UInt8.toNat_ofNat', Nat.testBit_mod_two_pow, Nat.testBit_shiftRight]
    simp [h, Nat.mod_lt]
  · simp [show ¬ i < 8 * 8 by omega]

theorem ctz64_eq {m d : Nat} (hd : d < 64) (h : m.testBit d = true) (hn : ∀ j < d, m.testBit j = false) : ctz64 m = d := by
  unfold ctz64
  rw [List.findIdx_eq (by simpa using hd)]
  simp only [List.getElem_range]
  exact ⟨h, hn⟩

theorem clz64_eq {m d : Nat} (hd : d < 64) (h : m.testBit (63 - d) = true) (hn : ∀ j < d, m.testBit (63 - j) = false) : clz64 m = d := by
  unfold clz64
  rw [List.findIdx_eq (by simpa using hd)]
  simp only [List.getElem_range]
  exact ⟨h, hn⟩

theorem or_full {a m : Nat} (ha : a < 2 ^ 64) (hm : m < 2 ^ 64) :
    a ||| m = 0xffffffffffffffff ↔ ∀ i < 64, (a.testBit i || m.testBit i) = true := by
  constructor
  · intro h i hi
    rw [← Nat.testBit_or, h, show (0xffffffffffffffff : Nat) = 2 ^ 64 - 1 from rfl, Nat.testBit_two_pow_sub_one]
    simpa using hi
  · intro h
    apply Nat.eq_of_testBit_eq
    intro i
    rw [show (0xffffffffffffffff : Nat) = 2 ^ 64 - 1 from rfl, Nat.testBit_two_pow_sub_one, Nat.testBit_or]
    by_cases hi : i < 64
    · simpa [hi] using h i hi
    · have hp : 2 ^ 64 ≤ 2 ^ i := Nat.pow_le_pow_right (by omega) (by omega)
      rw [Nat.testBit_lt_two_pow (Nat.lt_of_lt_of_le ha hp), Nat.testBit_lt_two_pow (Nat.lt_of_lt_of_le hm hp)]
      simp [hi]

/-! ## Classification of characters -/

/-- The characters that end a number. -/
def isDelim (x : Byte) : Bool := decide (x = 32) || decide (x = 10) || decide (x = 58)

theorem nibble (x : Vec) (i : Nat) : Vec.and (srl16 x 4) (splat 0x0f) i = x i >>> 4 := by
  have key : ∀ lo hi : Byte, UInt8.ofNat ((lo.toNat + 256 * hi.toNat) >>> 4 >>> (8 * 0)) &&& (0x0f : Byte) = lo >>> 4 ∧
      UInt8.ofNat ((lo.toNat + 256 * hi.toNat) >>> 4 >>> (8 * 1)) &&& (0x0f : Byte) = hi >>> 4 := by
    intro lo hi
    have h1 := lo.toNat_lt
    have h2 := hi.toNat_lt
    constructor <;> apply UInt8.toNat.inj <;>
      simp only [UInt8.toNat_and, UInt8.toNat_ofNat', UInt8.toNat_shiftRight, Nat.shiftRight_eq_div_pow, show (0x0f : Byte).toNat = 2 ^ 4 - 1 from rfl,
        Nat.and_two_pow_sub_one_eq_mod, show (4 : Byte).toNat % 8 = 4 from rfl] <;> omega
  unfold Vec.and srl16 ofWords splat word
  dsimp only
  rcases Nat.mod_two_eq_zero_or_one i with h | h
  · rw [h, show 2 * (i / 2) = i by omega]; exact (key _ _).1
  · rw [h, show 2 * (i / 2) + 1 = i by omega]; exact (key _ _).2

/-- What `to_hex` does to one character. -/
structure HexLane (x v s h : Byte) : Prop where
  valid : decide (v ≥ 0x80) = isValidHex x
  space : decide (s ≥ 0x80) = isDelim x
  value : isValidHex x = true → h = toHex x
  small : isValidHex x = true ∨ isDelim x = true → h < 16
  vflag : v = 0 ∨ v = 0xff
  sflag : s = 0 ∨ s = 0xff

instance (x v s h : Byte) : Decidable (HexLane x v s h) :=
  decidable_of_iff (decide (v ≥ 0x80) = isValidHex x ∧ decide (s ≥ 0x80) = isDelim x ∧ (isValidHex x = true → h = toHex x) ∧
    (isValidHex x = true ∨ isDelim x = true → h < 16) ∧ (v = 0 ∨ v = 0xff) ∧ (s = 0 ∨ s = 0xff))
    ⟨fun ⟨a, b, c, d, e, f⟩ => ⟨a, b, c, d, e, f⟩, fun ⟨a, b, c, d, e, f⟩ => ⟨a, b, c, d, e, f⟩⟩

def Avx2.lane (x : Byte) : Byte × Byte × Byte :=
  let h := splat (x >>> 4)
  let x := splat x
  (subs x (shuffle hexBase h) 0, andnot (gtS (shuffle hexLb h) x) (gtS (shuffle hexUb h) x) 0, andnot (gtS (shuffle hexUb h) x) (gtS (shuffle hexSp h) x) 0)

theorem Avx2.lane_spec (x : Byte) : HexLane x (lane x).2.1 (lane x).2.2 (lane x).1 := by
  revert x; apply forall_byte; decide +kernel

theorem Avx2.toHex_spec (x : Vec) (i : Nat) : (Avx2.toHex x).1 i = (lane (x i)).1 ∧
    (Avx2.toHex x).2.1.testBit i = (decide (i < 16) && isValidHex (x i)) ∧
    (Avx2.toHex x).2.2.testBit i = (decide (i < 16) && isDelim (x i)) := by
  refine ⟨?_, ?_, ?_⟩
  · simp only [Avx2.toHex, Avx2.lane, subs, shuffle, nibble, splat]; rfl
  · rw [← (lane_spec (x i)).valid]
    simp only [Avx2.toHex, testBit_movemask, Avx2.lane, andnot, gtS, shuffle, nibble, splat]; rfl
  · rw [← (lane_spec (x i)).space]
    simp only [Avx2.toHex, testBit_movemask, Avx2.lane, andnot, gtS, shuffle, nibble, splat]; rfl

def Neon.lane (x : Byte) : Byte × Byte × Byte :=
  let h := splat (x >>> 4)
  let x := splat x
  (subs x (tbl hexBase h) 0, bic (geU x (tbl hexLb h)) (geU x (tbl hexUb h)) 0, bic (geU x (tbl hexUb h)) (geU x (tbl hexSp h)) 0)

theorem Neon.lane_spec (x : Byte) : HexLane x (lane x).2.1 (lane x).2.2 (lane x).1 := by
  revert x; apply forall_byte; decide +kernel

theorem Neon.toHex_spec (x : Vec) (i : Nat) : (Neon.toHex x).1 i = (lane (x i)).1 ∧
    (Neon.toHex x).2.1 i = (lane (x i)).2.1 ∧ (Neon.toHex x).2.2 i = (lane (x i)).2.2 := ⟨rfl, rfl, rfl⟩

/-! ## Numbers -/

/-- The digits of a number as `parse_hex_single` accumulates them. -/
def accum (l : Bytes) : Nat := l.foldl (fun a x => a * 16 + (toHex x).toNat) 0

theorem parseHexGo_eq (h i : Nat) (l : Bytes) : parseHexGo h i l =
    if l.findIdx isDelim < l.length ∧ ∀ x ∈ l.take (l.findIdx isDelim), isValidHex x = true then
      some ((l.take (l.findIdx isDelim)).foldl (fun a x => a * 16 + (toHex x).toNat) h, i + l.findIdx isDelim)
    else none := by
  induction l generalizing h i with
  | nil => simp [parseHexGo]
  | cons x xs ih =>
    unfold parseHexGo
    by_cases hx : x = 32 ∨ x = 10 ∨ x = 58
    · rw [if_pos hx]
      have : isDelim x = true := by simpa [isDelim, or_assoc] using hx
      simp [List.findIdx_cons, this]
    · rw [if_neg hx]
      have hd : isDelim x = false := by simpa [isDelim, not_or, and_assoc] using hx
      have hi : (x :: xs).findIdx isDelim = xs.findIdx isDelim + 1 := by simp [List.findIdx_cons, hd]
      rw [hi]
      by_cases hv : isValidHex x = true
      · simp only [hv, Bool.not_true, Bool.false_eq_true, if_false, ih]
        simp [hv, Nat.add_assoc, Nat.add_comm 1]
      · simp only [Bool.not_eq_true] at hv
        simp only [hv, Bool.not_false, if_true]
        rw [if_neg]
        rintro ⟨_, h⟩
        have := h x (by simp)
        rw [hv] at this; cases this

theorem toHex_lt {x : Byte} (h : isValidHex x = true) : (toHex x).toNat < 16 := by
  revert x; intro x; revert x; apply forall_byte; decide +kernel

theorem snoc_ind {α : Type u} {P : List α → Prop} (nil : P []) (append_singleton : ∀ l x, P l → P (l ++ [x])) (l : List α) : P l := by
  have : ∀ (n : Nat) (l : List α), l.length = n → P l := by
    intro n
    induction n with
    | zero => intro l h; rw [List.length_eq_zero_iff.1 h]; exact nil
    | succ n ih =>
      intro l h
      have hne : l ≠ [] := by rintro rfl; simp at h
      rw [← List.dropLast_concat_getLast hne]
      exact append_singleton _ _ (ih _ (by simp [h]))
  exact this _ l rfl

theorem testBit_accum (l : Bytes) (hv : ∀ x ∈ l, isValidHex x = true) (j : Nat) (hj : j < 4 * l.length) :
    (accum l).testBit j = (toHex (l.getD (l.length - 1 - j / 4) 0)).toNat.testBit (j % 4) := by
  induction l using snoc_ind generalizing j with
  | nil => simp at hj
  | append_singleton l x ih =>
    have hx := toHex_lt (hv x (by simp))
    have hacc : accum (l ++ [x]) = 2 ^ 4 * accum l + (toHex x).toNat := by
      simp only [accum, List.foldl_append, List.foldl_cons, List.foldl_nil]; omega
    rw [hacc, Nat.testBit_two_pow_mul_add _ hx]
    simp only [List.length_append, List.length_cons, List.length_nil] at hj ⊢
    by_cases h4 : j < 4
    · rw [if_pos h4, show j / 4 = 0 by omega, show j % 4 = j by omega,
        show l.length + (0 + 1) - 1 - 0 = l.length by omega]
      simp [List.getD]
    · rw [if_neg h4, ih (fun y hy => hv y (by simp [hy])) _ (by omega), show (j - 4) % 4 = j % 4 by omega]
      congr 3
      simp only [List.getD]
      rw [List.getElem?_append_left (by omega)]
      congr 2; omega

theorem accum_lt (l : Bytes) (hv : ∀ x ∈ l, isValidHex x = true) : accum l < 2 ^ (4 * l.length) := by
  induction l using snoc_ind with
  | nil => simp [accum]
  | append_singleton l x ih =>
    have hx := toHex_lt (hv x (by simp))
    have hacc : accum (l ++ [x]) = 16 * accum l + (toHex x).toNat := by
      simp only [accum, List.foldl_append, List.foldl_cons, List.foldl_nil]; omega
    have := ih fun y hy => hv y (by simp [hy])
    rw [hacc, List.length_append, List.length_singleton, show 4 * (l.length + 1) = 4 * l.length + 4 by omega, Nat.pow_add]
    omega

theorem getD_get (l : Bytes) (i : Nat) (h : i < l.length) : l.getD i 0 = l[i] := by
  simp [List.getD, List.getElem?_eq_getElem h]

/-- The first delimiter among 16 characters. -/
theorem findIdx_delim (l : Bytes) (x : Vec) (hl : l.length = 16) (hx : ∀ i < 16, x i = l.getD i 0) :
    (∀ i < 16, isDelim (x i) = false) ∧ l.findIdx isDelim = 16 ∨
    l.findIdx isDelim < 16 ∧ isDelim (x (l.findIdx isDelim)) = true ∧ ∀ i < l.findIdx isDelim, isDelim (x i) = false := by
  have hget : ∀ i (h : i < l.length), x i = l[i] := fun i h => by
    rw [hx i (by omega), getD_get _ _ h]
  by_cases h : l.findIdx isDelim < l.length
  · right
    refine ⟨by omega, ?_, fun i hi => ?_⟩
    · rw [hget _ h]; exact List.findIdx_getElem (w := h)
    · rw [hget i (by omega)]
      have := List.not_of_lt_findIdx hi
      simpa using this
  · left
    have hle := List.findIdx_le_length (p := isDelim) (xs := l)
    refine ⟨fun i hi => ?_, by omega⟩
    rw [hget i (by omega)]
    have := List.not_of_lt_findIdx (xs := l) (p := isDelim) (i := i) (by omega)
    simpa using this

theorem valid_take (l : Bytes) (x : Vec) (d : Nat) (hl : l.length = 16) (hd : d ≤ 16) (hx : ∀ i < 16, x i = l.getD i 0) :
    (∀ y ∈ l.take d, isValidHex y = true) ↔ ∀ i < d, isValidHex (x i) = true := by
  constructor
  · intro h i hi
    rw [hx i (by omega), getD_get _ _ (by omega)]
    exact h _ (List.mem_iff_getElem.2 ⟨i, by simp; omega, by simp⟩)
  · intro h y hy
    obtain ⟨i, hi, rfl⟩ := List.mem_iff_getElem.1 hy
    simp only [List.length_take] at hi
    have := h i (by omega)
    rw [hx i (by omega), getD_get _ _ (by omega)] at this
    simpa using this

/-- The digits in a 64-bit number, most significant first. -/
theorem hex_eq (l : Bytes) (x : Vec) (lane : Byte → Byte) (d V : Nat) (hl : l.length = 16) (hd : d ≤ 15) (hd0 : 0 < d) (hx : ∀ i < 16, x i = l.getD i 0)
    (hv : ∀ i < d, isValidHex (x i) = true) (hlane : ∀ i < d, lane (x i) = toHex (x i))
    (hV : V < 2 ^ 64) (hb : ∀ k < d, ∀ r < 4, V.testBit (60 - 4 * k + r) = (lane (x k)).toNat.testBit r) :
    V >>> (64 - 4 * d) = accum (l.take d) := by
  have hvt := (valid_take l x d hl (by omega) hx).2 hv
  have hlen : (l.take d).length = d := by simp; omega
  apply Nat.eq_of_testBit_eq
  intro j
  rw [Nat.testBit_shiftRight]
  by_cases hj : j < 4 * d
  · rw [testBit_accum _ hvt j (by omega), hlen]
    have hk : d - 1 - j / 4 < d := by omega
    have := hb (d - 1 - j / 4) hk (j % 4) (by omega)
    rw [show 64 - 4 * d + j = 60 - 4 * (d - 1 - j / 4) + j % 4 by omega, this, hlane _ hk, hx _ (by omega)]
    congr 3
    simp only [List.getD]
    rw [List.getElem?_take_of_lt hk]
  · rw [Nat.testBit_lt_two_pow (Nat.lt_of_lt_of_le hV (Nat.pow_le_pow_right (by omega) (by omega))),
      Nat.testBit_lt_two_pow (Nat.lt_of_lt_of_le (accum_lt _ hvt) (Nat.pow_le_pow_right (by omega) (by rw [hlen]; omega)))]

theorem high_bit {b : Byte} (h : b < 16) {r : Nat} (hr : 4 ≤ r) : b.toNat.testBit r = false := by
  apply Nat.testBit_lt_two_pow
  have : b.toNat < 16 := by simpa [UInt8.lt_iff_toNat_lt] using h
  exact Nat.lt_of_lt_of_le this (Nat.pow_le_pow_right (by omega) hr : 2 ^ 4 ≤ 2 ^ r)

/-- `parse_hex_single_avx2` computes what `parse_hex_single_naive` computes. -/
theorem Avx2.parseSingle_eq (src : Bytes) (h : 16 ≤ src.length) : Avx2.parseSingle src = parseHexSingle src := by
  have hl : (src.take 16).length = 16 := by simp; omega
  unfold Avx2.parseSingle parseHexSingle parseSingleImpl
  rw [parseHexGo_eq]
  generalize hx : load src 0 = x
  have hx : ∀ i < 16, x i = (src.take 16).getD i 0 := by
    intro i hi
    rw [← hx]
    simp only [load, Nat.zero_add, List.getD]
    rw [List.getElem?_take_of_lt hi]
  generalize src.take 16 = l at hl hx
  have hlane := fun i => (Avx2.toHex_spec x i)
  generalize Avx2.toHex x = t at hlane
  obtain ⟨xs, isValid, isSpace⟩ := t
  simp only at hlane ⊢
  rcases findIdx_delim l x hl hx with ⟨hno, hd⟩ | ⟨hd, hyes, hno⟩
  · have h0 : isSpace = 0 := by
      apply Nat.eq_of_testBit_eq
      intro i
      rw [(hlane i).2.2]
      by_cases hi : i < 16
      · simp [hno i hi]
      · simp [hi]
    rw [if_pos h0, if_neg (by rw [hd, hl]; simp)]
  · generalize hdd : l.findIdx isDelim = d at *
    have hctz : ctz64 isSpace = d := by
      apply ctz64_eq (by omega)
      · rw [(hlane d).2.2]; simp [hd, hyes]
      · intro j hj; rw [(hlane j).2.2]; simp [hno j hj]
    have h0 : isSpace ≠ 0 := by
      rintro rfl
      have := (hlane d).2.2
      simp [hd, hyes] at this
    rw [if_neg h0, hctz]
    have hmask : (isValid &&& (1 <<< d - 1) = 1 <<< d - 1) ↔ ∀ i < d, isValidHex (x i) = true := by
      rw [Nat.shiftLeft_eq, Nat.one_mul]
      constructor
      · intro h i hi
        have := congrArg (·.testBit i) h
        simp only [Nat.testBit_and, Nat.testBit_two_pow_sub_one, (hlane i).2.1] at this
        simpa [hi, show i < 16 by omega] using this
      · intro h
        apply Nat.eq_of_testBit_eq
        intro i
        simp only [Nat.testBit_and, Nat.testBit_two_pow_sub_one, (hlane i).2.1]
        by_cases hi : i < d
        · simp [hi, h i hi, show i < 16 by omega]
        · simp [hi]
    by_cases hd0 : d = 0
    · subst hd0
      simp [hl]
    · rw [if_neg hd0]
      by_cases hv : ∀ i < d, isValidHex (x i) = true
      · rw [if_neg (by rw [ne_eq, Decidable.not_not, hmask]; exact hv), if_pos ⟨by omega, (valid_take l x d hl (by omega) hx).2 hv⟩]
        have hsm : ∀ i ≤ d, (lane (x i)).1 < 16 := fun i hi => (lane_spec (x i)).small (by
          rcases Nat.lt_or_ge i d with h | h
          · exact Or.inl (hv i h)
          · have : i = d := by omega
            subst this; exact Or.inr hyes)
        have := hex_eq l x (fun b => (lane b).1) d
          (shl64 (u64 (shuffle xs (.const [14, 12, 10, 8, 6, 4, 2, 0, 15, 13, 11, 9, 7, 5, 3, 1])) 0) 4 |||
            u64 (shuffle xs (.const [14, 12, 10, 8, 6, 4, 2, 0, 15, 13, 11, 9, 7, 5, 3, 1])) 1) hl (by omega) (by omega) hx hv
          (fun i hi => (lane_spec (x i)).value (hv i hi)) ?_ ?_
        · rw [this]; simp [accum]
        · apply Nat.or_lt_two_pow
          · exact Nat.mod_lt _ (by decide)
          · exact Vec.little_lt _ 8
        · intro k hk r hr
          rw [Nat.testBit_or, testBit_shl64, Vec.testBit_u64, Vec.testBit_u64]
          have hsh : ∀ m < 8, shuffle xs (.const [14, 12, 10, 8, 6, 4, 2, 0, 15, 13, 11, 9, 7, 5, 3, 1]) (8 * 0 + m) = xs (14 - 2 * m) ∧
              shuffle xs (.const [14, 12, 10, 8, 6, 4, 2, 0, 15, 13, 11, 9, 7, 5, 3, 1]) (8 * 1 + m) = xs (15 - 2 * m) := by
            intro m hm
            rcases m with _ | _ | _ | _ | _ | _ | _ | _ | m
            all_goals first | exact ⟨rfl, rfl⟩ | omega
          rcases Nat.mod_two_eq_zero_or_one k with hp | hp
          · obtain ⟨p, rfl⟩ : ∃ p, k = 2 * p := ⟨k / 2, by omega⟩
            rw [show (60 - 4 * (2 * p) + r - 4) / 8 = 7 - p by omega, show (60 - 4 * (2 * p) + r) / 8 = 7 - p by omega,
              (hsh (7 - p) (by omega)).1, (hsh (7 - p) (by omega)).2, (hlane _).1, (hlane _).1,
              show 14 - 2 * (7 - p) = 2 * p by omega, show 15 - 2 * (7 - p) = 2 * p + 1 by omega,
              high_bit (hsm (2 * p + 1) (by omega)) (r := (60 - 4 * (2 * p) + r) % 8) (by omega),
              show (60 - 4 * (2 * p) + r - 4) % 8 = r by omega]
            simp [show 60 - 4 * (2 * p) + r < 64 by omega, show 60 - 4 * (2 * p) + r - 4 < 64 by omega, show 4 ≤ 60 - 4 * (2 * p) + r by omega]
          · obtain ⟨p, rfl⟩ : ∃ p, k = 2 * p + 1 := ⟨k / 2, by omega⟩
            rw [show (60 - 4 * (2 * p + 1) + r - 4) / 8 = 6 - p by omega, show (60 - 4 * (2 * p + 1) + r) / 8 = 7 - p by omega,
              (hsh (6 - p) (by omega)).1, (hsh (7 - p) (by omega)).2, (hlane _).1, (hlane _).1,
              show 14 - 2 * (6 - p) = 2 * p + 2 by omega, show 15 - 2 * (7 - p) = 2 * p + 1 by omega,
              high_bit (hsm (2 * p + 2) (by omega)) (r := (60 - 4 * (2 * p + 1) + r - 4) % 8) (by omega),
              show (60 - 4 * (2 * p + 1) + r) % 8 = r by omega]
            simp [show 60 - 4 * (2 * p + 1) + r < 64 by omega]
      · rw [if_pos (by rw [ne_eq, hmask]; exact hv), if_neg (fun h => hv ((valid_take l x d hl (by omega) hx).1 h.2))]

theorem testBit_ones {i : Nat} (hi : i < 64) : (0x0101010101010101 : Nat).testBit i = decide (i % 8 = 0) := by
  have : ∀ i : Fin 64, (0x0101010101010101 : Nat).testBit i = decide (i.val % 8 = 0) := by decide +kernel
  exact this ⟨i, hi⟩

theorem testBit_nibbles {i : Nat} (hi : i < 64) : (0x1111111111111111 : Nat).testBit i = decide (i % 4 = 0) := by
  have : ∀ i : Fin 64, (0x1111111111111111 : Nat).testBit i = decide (i.val % 4 = 0) := by decide +kernel
  exact this ⟨i, hi⟩

theorem flag_bit {v : Byte} (hv : v = 0 ∨ v = 0xff) : v.toNat.testBit 0 = decide (v ≥ 0x80) := by
  rcases hv with rfl | rfl <;> decide

/-- The mask with one flag in every four bits. -/
theorem Neon.testBit_flags (f0 f1 : Vec) (flags : Nat → Bool) (h0 : ∀ p < 8, (f0 p = 0 ∨ f0 p = 0xff) ∧ decide (f0 p ≥ 0x80) = flags (2 * p))
    (h1 : ∀ p < 8, (f1 p = 0 ∨ f1 p = 0xff) ∧ decide (f1 p ≥ 0x80) = flags (2 * p + 1)) (i : Nat) :
    (shl64 (f1.u64 0 &&& 0x0101010101010101) 4 ||| (f0.u64 0 &&& 0x0101010101010101)).testBit i =
      (decide (i < 64) && decide (i % 4 = 0) && flags (i / 4)) := by
  rw [Nat.testBit_or, testBit_shl64, Nat.testBit_and, Nat.testBit_and, Vec.testBit_u64, Vec.testBit_u64]
  by_cases hi : i < 64
  · rw [testBit_ones hi, testBit_ones (show i - 4 < 64 by omega)]
    simp only [Nat.mul_zero, Nat.zero_add]
    by_cases h8 : i % 8 = 0
    · have e1 := (h0 (i / 8) (by omega))
      rw [h8, flag_bit e1.1, e1.2, show 2 * (i / 8) = i / 4 by omega]
      by_cases h4 : 4 ≤ i
      · simp [hi, show i % 4 = 0 by omega, show ¬ (i - 4) % 8 = 0 by omega]
      · simp [hi, show i % 4 = 0 by omega, h4]
    · by_cases h4 : i % 8 = 4
      · have e1 := (h1 ((i - 4) / 8) (by omega))
        rw [show (i - 4) % 8 = 0 by omega, flag_bit e1.1, e1.2, show 2 * ((i - 4) / 8) + 1 = i / 4 by omega]
        simp [hi, show i % 4 = 0 by omega, h8, show 4 ≤ i by omega, show i - 4 < 64 by omega]
      · simp [h8, show ¬ i % 4 = 0 by omega]
        intro _ _ _
        omega
  · simp [hi]

/-- `parse_hex_single_neon` computes what `parse_hex_single_naive` computes. -/
theorem Neon.parseSingle_eq (src : Bytes) (h : 16 ≤ src.length) : Neon.parseSingle src = parseHexSingle src := by
  have hl : (src.take 16).length = 16 := by simp; omega
  unfold Neon.parseSingle parseHexSingle parseSingleImpl
  rw [parseHexGo_eq]
  generalize hx0 : loadN 2 src 0 0 = y0
  generalize hx1 : loadN 2 src 0 1 = y1
  obtain ⟨x, hx, hy0, hy1⟩ : ∃ x : Vec, (∀ i < 16, x i = (src.take 16).getD i 0) ∧ (∀ p, y0 p = x (2 * p)) ∧ ∀ p, y1 p = x (2 * p + 1) := by
    refine ⟨fun i => src.getD i 0, ?_, ?_, ?_⟩
    · intro i hi
      simp only [List.getD]
      rw [List.getElem?_take_of_lt hi]
    · intro p; rw [← hx0]; simp [loadN]
    · intro p; rw [← hx1]; simp [loadN]
  generalize src.take 16 = l at hl hx
  have hlane0 := fun i => (Neon.toHex_spec y0 i)
  have hlane1 := fun i => (Neon.toHex_spec y1 i)
  simp only [hy0] at hlane0
  simp only [hy1] at hlane1
  generalize Neon.toHex y0 = t0 at hlane0
  generalize Neon.toHex y1 = t1 at hlane1
  obtain ⟨x0, v0, s0⟩ := t0
  obtain ⟨x1, v1, s1⟩ := t1
  simp only at hlane0 hlane1 ⊢
  have hS := Neon.testBit_flags s0 s1 (fun i => isDelim (x i))
    (fun p _ => by rw [(hlane0 p).2.2]; exact ⟨(lane_spec _).sflag, (lane_spec _).space⟩)
    (fun p _ => by rw [(hlane1 p).2.2]; exact ⟨(lane_spec _).sflag, (lane_spec _).space⟩)
  have hVd := Neon.testBit_flags v0 v1 (fun i => isValidHex (x i))
    (fun p _ => by rw [(hlane0 p).2.1]; exact ⟨(lane_spec _).vflag, (lane_spec _).valid⟩)
    (fun p _ => by rw [(hlane1 p).2.1]; exact ⟨(lane_spec _).vflag, (lane_spec _).valid⟩)
  generalize shl64 (s1.u64 0 &&& 0x0101010101010101) 4 ||| (s0.u64 0 &&& 0x0101010101010101) = S at hS
  generalize shl64 (v1.u64 0 &&& 0x0101010101010101) 4 ||| (v0.u64 0 &&& 0x0101010101010101) = Vd at hVd
  rcases findIdx_delim l x hl hx with ⟨hno, hd⟩ | ⟨hd, hyes, hno⟩
  · have h0 : S = 0 := by
      apply Nat.eq_of_testBit_eq
      intro i
      rw [hS i]
      by_cases hi : i < 64
      · simp [hno (i / 4) (by omega)]
      · simp [hi]
    rw [if_pos h0, if_neg (by rw [hd, hl]; simp)]
  · generalize hdd : l.findIdx isDelim = d at *
    have hctz : ctz64 S = 4 * d := by
      apply ctz64_eq (by omega)
      · rw [hS]; simp [hyes]; omega
      · intro j hj
        rw [hS]
        simp [hno (j / 4) (by omega)]
    have h0 : S ≠ 0 := by
      rintro rfl
      have := hS (4 * d)
      simp [hyes] at this
      omega
    rw [if_neg h0, hctz, show 4 * d / 4 * 4 = 4 * d by omega]
    have hmask : (shl64 Vd (64 - 4 * d) = shl64 0x1111111111111111 (64 - 4 * d)) ↔ ∀ i < d, isValidHex (x i) = true := by
      constructor
      · intro h i hi
        have := congrArg (·.testBit (64 - 4 * d + 4 * i)) h
        simp only [testBit_shl64, hVd] at this
        rw [show 64 - 4 * d + 4 * i - (64 - 4 * d) = 4 * i by omega, testBit_nibbles (by omega)] at this
        simpa [show 64 - 4 * d + 4 * i < 64 by omega, show 4 * i < 64 by omega] using this
      · intro h
        apply Nat.eq_of_testBit_eq
        intro i
        simp only [testBit_shl64, hVd]
        by_cases hi : i < 64 ∧ 64 - 4 * d ≤ i
        · rw [testBit_nibbles (by omega), h _ (show (i - (64 - 4 * d)) / 4 < d by omega)]
          simp [show i - (64 - 4 * d) < 64 by omega]
        · by_cases h1 : i < 64
          · simp [show ¬ 64 - 4 * d ≤ i from fun h2 => hi ⟨h1, h2⟩]
          · simp [h1]
    by_cases hd0 : d = 0
    · subst hd0
      simp [hl]
    · rw [if_neg (by omega)]
      by_cases hv : ∀ i < d, isValidHex (x i) = true
      · rw [if_neg (by rw [ne_eq, Decidable.not_not, hmask]; exact hv), if_pos ⟨by omega, (valid_take l x d hl (by omega) hx).2 hv⟩]
        have hsm : ∀ i ≤ d, (lane (x i)).1 < 16 := fun i hi => (lane_spec (x i)).small (by
          rcases Nat.lt_or_ge i d with h | h
          · exact Or.inl (hv i h)
          · have : i = d := by omega
            subst this; exact Or.inr hyes)
        have := hex_eq l x (fun b => (lane b).1) d (swap64 (shl64 (x0.u64 0) 4 ||| x1.u64 0)) hl (by omega) (by omega) hx hv
          (fun i hi => (lane_spec (x i)).value (hv i hi)) ?_ ?_
        · rw [this]; simp [accum, Nat.shiftRight_eq_div_pow]
        · exact Vec.little_lt _ 8
        · intro k hk r hr
          rw [testBit_swap64, Nat.testBit_or, testBit_shl64, Vec.testBit_u64, Vec.testBit_u64]
          simp only [Nat.mul_zero, Nat.zero_add]
          rcases Nat.mod_two_eq_zero_or_one k with hp | hp
          · obtain ⟨p, rfl⟩ : ∃ p, k = 2 * p := ⟨k / 2, by omega⟩
            have e : 8 * (7 - (60 - 4 * (2 * p) + r) / 8) + (60 - 4 * (2 * p) + r) % 8 = 8 * p + 4 + r := by omega
            rw [e, (hlane0 _).1, (hlane1 _).1, show (8 * p + 4 + r) / 8 = p by omega, show (8 * p + 4 + r - 4) / 8 = p by omega,
              high_bit (hsm (2 * p + 1) (by omega)) (r := (8 * p + 4 + r) % 8) (by omega), show (8 * p + 4 + r - 4) % 8 = r by omega]
            simp [show 60 - 4 * (2 * p) + r < 64 by omega, show 8 * p + 4 + r < 64 by omega, show 4 ≤ 8 * p + 4 + r by omega,
              show 8 * p + 4 + r - 4 < 64 by omega]
          · obtain ⟨p, rfl⟩ : ∃ p, k = 2 * p + 1 := ⟨k / 2, by omega⟩
            have e : 8 * (7 - (60 - 4 * (2 * p + 1) + r) / 8) + (60 - 4 * (2 * p + 1) + r) % 8 = 8 * p + r := by omega
            rw [e, (hlane0 _).1, (hlane1 _).1, show (8 * p + r) / 8 = p by omega, show (8 * p + r) % 8 = r by omega]
            have hz : (decide (8 * p + r < 64) && decide (4 ≤ 8 * p + r) && (decide (8 * p + r - 4 < 64) &&
                (lane (x (2 * ((8 * p + r - 4) / 8)))).1.toNat.testBit ((8 * p + r - 4) % 8))) = false := by
              by_cases h4 : 4 ≤ 8 * p + r
              · rw [high_bit (hsm _ (by omega)) (r := (8 * p + r - 4) % 8) (by omega)]; simp
              · simp [h4]
            rw [hz]
            simp [show 60 - 4 * (2 * p + 1) + r < 64 by omega, show 8 * p + r < 64 by omega]
      · rw [if_pos (by rw [ne_eq, hmask]; exact hv), if_neg (fun h => hv ((valid_take l x d hl (by omega) hx).1 h.2))]

end Nd
