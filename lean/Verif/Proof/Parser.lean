import Verif.Spec.Text
import Verif.Proof.Stream
/-!
# The text parser reads the record grammar
-/
namespace Nd
open Spec

theorem forall_byte {P : Byte → Prop} (h : ∀ n : Fin 256, P (UInt8.ofNat n)) (x : Byte) : P x := by
  have := h ⟨x.toNat, x.toNat_lt⟩
  simpa using this

theorem isValidHex_iff (x : Byte) : isValidHex x = (hexVal x).isSome := by
  revert x; apply forall_byte; decide +kernel

theorem toHex_val (x : Byte) : ∀ v, hexVal x = some v → v < 16 ∧ toHex x = UInt8.ofNat v := by
  have : hexVal x = none ∨ ((hexVal x).getD 0 < 16 ∧ toHex x = UInt8.ofNat ((hexVal x).getD 0)) := by
    revert x; apply forall_byte; decide +kernel
  intro v hv
  rw [hv] at this
  simpa using this

theorem combine (x y : Nat) (hx : x < 16) (hy : y < 16) : (UInt8.ofNat x) <<< 4 ||| UInt8.ofNat y = UInt8.ofNat (16 * x + y) := by
  have : ∀ x y : Fin 16, (UInt8.ofNat x) <<< 4 ||| UInt8.ofNat y = UInt8.ofNat (16 * x + y) := by decide +kernel
  exact this ⟨x, hx⟩ ⟨y, hy⟩

theorem hexVal_space : hexVal 32 = none := by decide

/-- One column. -/
theorem column_some {a b : Byte} {x y : Nat} (ha : hexVal a = some x) (hb : hexVal b = some y) :
    (isValidHex a && isValidHex b) = true ∧ (toHex a) <<< 4 ||| toHex b = UInt8.ofNat (16 * x + y) := by
  obtain ⟨h1, h2⟩ := toHex_val a x ha
  obtain ⟨h3, h4⟩ := toHex_val b y hb
  refine ⟨by simp [isValidHex_iff, ha, hb], ?_⟩
  rw [h2, h4, combine x y h1 h3]

theorem column_inv {a b : Byte} (h : (isValidHex a && isValidHex b) = true) :
    ∃ x y, hexVal a = some x ∧ hexVal b = some y ∧ (toHex a) <<< 4 ||| toHex b = UInt8.ofNat (16 * x + y) := by
  simp only [Bool.and_eq_true, isValidHex_iff, Option.isSome_iff_exists] at h
  obtain ⟨⟨x, hx⟩, ⟨y, hy⟩⟩ := h
  exact ⟨x, y, hx, hy, (column_some hx hy).2⟩

theorem not_blank {a b : Byte} {x : Nat} (ha : hexVal a = some x) : ¬ (a = 32 ∧ b = 32) := by
  rintro ⟨rfl, _⟩; rw [hexVal_space] at ha; cases ha

theorem parseCols_iff (t d : Bytes) : parseCols t = some d ↔ Columns t d := by
  induction t using parseCols.induct generalizing d with
  | case1 => simp only [parseCols, Option.some.injEq]; exact ⟨fun h => h ▸ .nil, fun h => by cases h; rfl⟩
  | case2 c => simp only [parseCols, Option.some.injEq]; exact ⟨fun h => h ▸ .stray c, fun h => by cases h; rfl⟩
  | case3 a b h =>
    obtain ⟨rfl, rfl⟩ := h
    simp only [parseCols, and_self, if_true, Option.some.injEq]
    exact ⟨fun h => h ▸ .blank _, fun h => by
      cases h with
      | blank => rfl
      | last a b x y ha hb => rw [hexVal_space] at ha; cases ha⟩
  | case4 a b h hv =>
    simp only [parseCols, if_neg h, if_pos hv, Option.some.injEq]
    obtain ⟨x, y, hx, hy, he⟩ := column_inv hv
    rw [he]
    exact ⟨fun h => h ▸ .last a b x y hx hy, fun h => by
      cases h with
      | blank => exact absurd ⟨rfl, rfl⟩ h
      | last _ _ x' y' ha hb => rw [hx] at ha; rw [hy] at hb; cases ha; cases hb; rfl⟩
  | case5 a b h hv =>
    simp only [parseCols, if_neg h, if_neg hv, reduceCtorEq, false_iff]
    intro hc
    cases hc with
    | blank => exact h ⟨rfl, rfl⟩
    | last _ _ x' y' ha hb => exact hv (column_some ha hb).1
  | case6 a b c rest h =>
    obtain ⟨rfl, rfl⟩ := h
    simp only [parseCols, and_self, if_true, Option.some.injEq]
    exact ⟨fun h => h ▸ .blank _, fun h => by
      cases h with
      | blank => rfl
      | col a b x y _ _ ha hb => rw [hexVal_space] at ha; cases ha⟩
  | case7 a b c rest h hv hr ih =>
    simp only [parseCols, if_neg h, if_pos hv, hr, reduceCtorEq, false_iff]
    intro hc
    cases hc with
    | blank => exact h ⟨rfl, rfl⟩
    | col _ _ x y _ d' ha hb hd => have := (ih d').2 hd; rw [hr] at this; cases this
  | case8 a b c rest h hv d' hr ih =>
    simp only [parseCols, if_neg h, if_pos hv, hr, Option.some.injEq]
    simp only [Bool.and_eq_true (_ && _), decide_eq_true_eq] at hv
    obtain ⟨x, y, hx, hy, he⟩ := column_inv hv.1
    rw [he]
    obtain rfl := hv.2
    refine ⟨fun h => h ▸ .col a b x y _ _ hx hy ((ih d').1 hr), fun hc => ?_⟩
    cases hc with
    | blank => exact absurd ⟨rfl, rfl⟩ h
    | col _ _ x' y' _ d2 ha hb hd =>
      have := (ih d2).2 hd; rw [hr] at this; cases this
      rw [hx] at ha; rw [hy] at hb; cases ha; cases hb; rfl
  | case9 a b c rest h hv =>
    simp only [parseCols, if_neg h, if_neg hv, reduceCtorEq, false_iff]
    intro hc
    cases hc with
    | blank => exact h ⟨rfl, rfl⟩
    | col _ _ x y _ d' ha hb hd => exact hv (by simp [(column_some ha hb).1])

/-! ## Fields -/

/-- What may follow the text of a field in a line. -/
def FieldEnd : Field → Bytes → Prop
  | .hex, tail => tail = [] ∨ ∃ c t, tail = c :: t ∧ (c = 32 ∨ c = 58)
  | .dec, tail => ∃ t, tail = 32 :: t

theorem parseHexGo_iff (rest : Bytes) : ∀ (l : Bytes) (n acc i v k : Nat), 10 ∉ l →
    (parseHexGo acc i ((l ++ 10 :: rest).take n) = some (v, k) ↔
      ∃ s tail ds, l = s ++ tail ∧ Digits hexVal s ds ∧ s.length < n ∧ k = i + s.length ∧
        v = ds.foldl (fun a d => a * 16 + d) acc ∧ FieldEnd .hex tail)
  | l, 0, acc, i, v, k, _ => by simp [parseHexGo]
  | [], n + 1, acc, i, v, k, _ => by
    simp only [List.nil_append, List.take_succ_cons, parseHexGo, or_true, true_or, if_true, Option.some.injEq, Prod.mk.injEq]
    constructor
    · rintro ⟨rfl, rfl⟩
      exact ⟨[], [], [], rfl, rfl, by simp, by simp, rfl, Or.inl rfl⟩
    · rintro ⟨s, tail, ds, h1, h2, h3, h4, h5, h6⟩
      obtain ⟨rfl, rfl⟩ := List.append_eq_nil_iff.1 h1.symm
      have : ds = [] := by cases ds with | nil => rfl | cons => simp [Digits] at h2
      subst this
      exact ⟨h5.symm, h4.symm⟩
  | x :: l, n + 1, acc, i, v, k, hnl => by
    have hx10 : x ≠ 10 := by rintro rfl; simp at hnl
    have hl : 10 ∉ l := fun h => hnl (List.mem_cons_of_mem _ h)
    simp only [List.cons_append, List.take_succ_cons, parseHexGo]
    by_cases hd : x = 32 ∨ x = 10 ∨ x = 58
    · have hd' : x = 32 ∨ x = 58 := by rcases hd with h | h | h <;> simp_all
      rw [if_pos hd]
      simp only [Option.some.injEq, Prod.mk.injEq]
      constructor
      · rintro ⟨rfl, rfl⟩
        exact ⟨[], x :: l, [], rfl, rfl, by simp, by simp, rfl, Or.inr ⟨x, l, rfl, hd'⟩⟩
      · rintro ⟨s, tail, ds, h1, h2, h3, h4, h5, h6⟩
        cases s with
        | nil =>
          have : ds = [] := by cases ds with | nil => rfl | cons => simp [Digits] at h2
          subst this
          exact ⟨h5.symm, h4.symm⟩
        | cons y s =>
          simp only [List.cons_append, List.cons.injEq] at h1
          obtain ⟨rfl, _⟩ := h1
          cases ds with
          | nil => simp [Digits] at h2
          | cons d ds =>
            simp only [Digits, List.map_cons, List.cons.injEq] at h2
            rcases hd' with rfl | rfl
            · rw [hexVal_space] at h2; cases h2.1
            · have : hexVal 58 = none := by decide
              rw [this] at h2; cases h2.1
    · rw [if_neg hd]
      cases hv : hexVal x with
      | none =>
        have : isValidHex x = false := by rw [isValidHex_iff, hv]; rfl
        simp only [this, Bool.not_false, if_true, reduceCtorEq, false_iff]
        rintro ⟨s, tail, ds, h1, h2, h3, h4, h5, h6⟩
        cases s with
        | nil =>
          simp only [List.nil_append] at h1
          subst h1
          rcases h6 with h6 | ⟨c, t, h6, h7⟩
          · cases h6
          · cases h6; rcases h7 with h | h <;> simp [h] at hd
        | cons y s =>
          simp only [List.cons_append, List.cons.injEq] at h1
          obtain ⟨rfl, _⟩ := h1
          cases ds with
          | nil => simp [Digits] at h2
          | cons d ds => simp only [Digits, List.map_cons, List.cons.injEq, hv, reduceCtorEq, false_and] at h2
      | some u =>
        have : isValidHex x = true := by rw [isValidHex_iff, hv]; rfl
        obtain ⟨hu, hux⟩ := toHex_val x u hv
        have hun : (toHex x).toNat = u := by rw [hux]; simp; omega
        simp only [this, Bool.not_true, Bool.false_eq_true, if_false, hun]
        rw [parseHexGo_iff rest l n _ _ v k hl]
        constructor
        · rintro ⟨s, tail, ds, h1, h2, h3, h4, h5, h6⟩
          refine ⟨x :: s, tail, u :: ds, by rw [h1]; rfl, ?_, by simp; omega, by simp; omega, by simpa using h5, h6⟩
          simp only [Digits, List.map_cons, hv] at h2 ⊢
          rw [h2]
        · rintro ⟨s, tail, ds, h1, h2, h3, h4, h5, h6⟩
          cases s with
          | nil =>
            simp only [List.nil_append] at h1
            subst h1
            rcases h6 with h6 | ⟨c, t, h6, h7⟩
            · cases h6
            · cases h6; rcases h7 with h | h <;> simp [h] at hd
          | cons y s =>
            simp only [List.cons_append, List.cons.injEq] at h1
            obtain ⟨rfl, h1⟩ := h1
            cases ds with
            | nil => simp [Digits] at h2
            | cons d ds =>
              simp only [Digits, List.map_cons, List.cons.injEq, hv, Option.some.injEq] at h2
              obtain ⟨rfl, h2⟩ := h2
              exact ⟨s, tail, ds, h1, h2, by simp at h3; omega, by simp at h4; omega, by simpa using h5, h6⟩

theorem foldl_mod (base m : Nat) : ∀ (ds : List Nat) (a : Nat),
    ds.foldl (fun a d => a * base + d) (a % m) % m = ds.foldl (fun a d => a * base + d) a % m
  | [], a => by simp
  | d :: ds, a => by
    simp only [List.foldl_cons]
    rw [← foldl_mod base m ds (a % m * base + d), ← foldl_mod base m ds (a * base + d)]
    congr 2
    rw [Nat.add_mod, Nat.mul_mod, Nat.mod_mod, ← Nat.mul_mod, ← Nat.add_mod]

theorem decDigit_iff (x : Byte) : (48 ≤ x ∧ x < 58) ↔ (decVal x).isSome := by
  revert x; apply forall_byte; decide +kernel

theorem decDigit_val (x : Byte) : ∀ v, decVal x = some v → (x - 48).toNat = v := by
  have : decVal x = none ∨ (x - 48).toNat = (decVal x).getD 0 := by
    revert x; apply forall_byte; decide +kernel
  intro v hv
  rw [hv] at this
  simpa using this

theorem parseDecGo_iff (rest : Bytes) : ∀ (l : Bytes) (acc i v k : Nat), 10 ∉ l →
    (parseDecGo (acc % 2 ^ 64) i (l ++ 10 :: rest) = some (v, k) ↔
      ∃ s tail ds, l = s ++ tail ∧ Digits decVal s ds ∧ k = i + s.length ∧
        v = ds.foldl (fun a d => a * 10 + d) acc % 2 ^ 64 ∧ FieldEnd .dec tail)
  | [], acc, i, v, k, _ => by
    have : decVal 10 = none := by decide
    simp only [List.nil_append, parseDecGo]
    rw [if_neg (by decide), if_pos (by decide)]
    simp only [reduceCtorEq, false_iff]
    rintro ⟨s, tail, ds, h1, h2, h4, h5, ⟨t, rfl⟩⟩
    simp at h1
  | x :: l, acc, i, v, k, hnl => by
    have hl : 10 ∉ l := fun h => hnl (List.mem_cons_of_mem _ h)
    simp only [List.cons_append, parseDecGo]
    by_cases hd : x = 32
    · subst hd
      simp only [if_true, Option.some.injEq, Prod.mk.injEq]
      constructor
      · rintro ⟨rfl, rfl⟩
        exact ⟨[], 32 :: l, [], rfl, rfl, by simp, rfl, ⟨l, rfl⟩⟩
      · rintro ⟨s, tail, ds, h1, h2, h4, h5, h6⟩
        cases s with
        | nil =>
          have : ds = [] := by cases ds with | nil => rfl | cons => simp [Digits] at h2
          subst this
          exact ⟨h5.symm, h4.symm⟩
        | cons y s =>
          simp only [List.cons_append, List.cons.injEq] at h1
          obtain ⟨rfl, _⟩ := h1
          cases ds with
          | nil => simp [Digits] at h2
          | cons d ds =>
            simp only [Digits, List.map_cons, List.cons.injEq] at h2
            have : decVal 32 = none := by decide
            rw [this] at h2; cases h2.1
    · rw [if_neg hd]
      cases hv : decVal x with
      | none =>
        rw [if_pos (by rw [decDigit_iff, hv]; simp)]
        simp only [reduceCtorEq, false_iff]
        rintro ⟨s, tail, ds, h1, h2, h4, h5, h6⟩
        cases s with
        | nil =>
          simp only [List.nil_append] at h1
          subst h1
          obtain ⟨t, h6⟩ := h6
          cases h6; exact hd rfl
        | cons y s =>
          simp only [List.cons_append, List.cons.injEq] at h1
          obtain ⟨rfl, _⟩ := h1
          cases ds with
          | nil => simp [Digits] at h2
          | cons d ds => simp only [Digits, List.map_cons, List.cons.injEq, hv, reduceCtorEq, false_and] at h2
      | some u =>
        rw [if_neg (by rw [decDigit_iff, hv]; simp), decDigit_val x u hv]
        have hmod : (acc % 2 ^ 64 * 10 + u) % 2 ^ 64 = (acc * 10 + u) % 2 ^ 64 := by
          rw [Nat.add_mod, Nat.mul_mod, Nat.mod_mod, ← Nat.mul_mod, ← Nat.add_mod]
        rw [hmod, parseDecGo_iff rest l _ _ v k hl]
        constructor
        · rintro ⟨s, tail, ds, h1, h2, h4, h5, h6⟩
          refine ⟨x :: s, tail, u :: ds, by rw [h1]; rfl, ?_, by simp; omega, by simpa using h5, h6⟩
          simp only [Digits, List.map_cons, hv] at h2 ⊢
          rw [h2]
        · rintro ⟨s, tail, ds, h1, h2, h4, h5, h6⟩
          cases s with
          | nil =>
            simp only [List.nil_append] at h1
            subst h1
            obtain ⟨t, h6⟩ := h6
            cases h6; exact absurd rfl hd
          | cons y s =>
            simp only [List.cons_append, List.cons.injEq] at h1
            obtain ⟨rfl, h1⟩ := h1
            cases ds with
            | nil => simp [Digits] at h2
            | cons d ds =>
              simp only [Digits, List.map_cons, List.cons.injEq, hv, Option.some.injEq] at h2
              obtain ⟨rfl, h2⟩ := h2
              exact ⟨s, tail, ds, h1, h2, by simp at h4; omega, by simpa using h5, h6⟩

/-- A field parser on a line reads the text of a field. -/
theorem Field.parse_iff (f : Field) (l rest : Bytes) (v k : Nat) (hnl : 10 ∉ l) :
    f.parse .portable (l ++ 10 :: rest) = some (v, k) ↔
      ∃ s tail, l = s ++ tail ∧ FieldText f s v ∧ k = s.length ∧ FieldEnd f tail := by
  cases f with
  | hex =>
    simp only [Field.parse, Impl.single, parseHexSingle]
    rw [parseHexGo_iff rest l 16 0 0 v k hnl]
    constructor
    · rintro ⟨s, tail, ds, h1, h2, h3, h4, h5, h6⟩
      exact ⟨s, tail, h1, ⟨ds, h2, by omega, h5⟩, by omega, h6⟩
    · rintro ⟨s, tail, h1, ⟨ds, h2, h3, h4⟩, h5, h6⟩
      exact ⟨s, tail, ds, h1, h2, by omega, by omega, h4, h6⟩
  | dec =>
    simp only [Field.parse, parseDecSingle]
    have := parseDecGo_iff rest l 0 0 v k hnl
    rw [Nat.zero_mod] at this
    rw [this]
    constructor
    · rintro ⟨s, tail, ds, h1, h2, h4, h5, h6⟩
      exact ⟨s, tail, h1, ⟨ds, h2, h5⟩, by omega, h6⟩
    · rintro ⟨s, tail, h1, ⟨ds, h2, h4⟩, h5, h6⟩
      exact ⟨s, tail, ds, h1, h2, by omega, h4, h6⟩

/-! ## Arrays -/

/-- The text before the delimiter. -/
def upTo (b : Bytes) : Bytes := b.takeWhile (· != 124)

theorem upTo_prefix (b : Bytes) : ∃ t, b = upTo b ++ t ∧ (t = [] ∨ ∃ m, t = 124 :: m) := by
  induction b with
  | nil => exact ⟨[], rfl, Or.inl rfl⟩
  | cons c b ih =>
    unfold upTo
    by_cases h : c = 124
    · subst h; exact ⟨124 :: b, by simp, Or.inr ⟨b, rfl⟩⟩
    · obtain ⟨t, h1, h2⟩ := ih
      rw [List.takeWhile_cons_of_pos (by simpa using h)]
      exact ⟨t, by rw [List.cons_append]; exact congrArg _ h1, h2⟩

theorem upTo_not_mem (b : Bytes) : 124 ∉ upTo b := by
  induction b with
  | nil => simp [upTo]
  | cons c b ih =>
    unfold upTo at ih ⊢
    by_cases h : c = 124
    · subst h; simp
    · rw [List.takeWhile_cons_of_pos (by simpa using h)]
      simp only [List.mem_cons, not_or]
      exact ⟨fun h' => h h'.symm, ih⟩

theorem upTo_append {a t : Bytes} (ha : 124 ∉ a) (ht : t = [] ∨ ∃ m, t = 124 :: m) : upTo (a ++ t) = a := by
  induction a with
  | nil => rcases ht with rfl | ⟨m, rfl⟩ <;> simp [upTo]
  | cons c a ih =>
    have hc : c ≠ 124 := by rintro rfl; simp at ha
    unfold upTo at ih ⊢
    rw [List.cons_append, List.takeWhile_cons_of_pos (by simpa using hc), ih (fun h => ha (List.mem_cons_of_mem _ h))]

theorem upTo_length_le (b : Bytes) : (upTo b).length ≤ b.length := by
  obtain ⟨t, h, _⟩ := upTo_prefix b
  have := congrArg List.length h
  simp at this; omega

theorem take_upTo (b : Bytes) (k : Nat) (h : k ≤ (upTo b).length) : b.take k = (upTo b).take k := by
  obtain ⟨t, h1, _⟩ := upTo_prefix b
  have : b.take k = (upTo b ++ t).take k := by rw [← h1]
  rw [this, List.take_append_of_le_length h]

theorem upTo_drop (b : Bytes) (k : Nat) (h : k ≤ (upTo b).length) : upTo (b.drop k) = (upTo b).drop k := by
  obtain ⟨t, h1, h2⟩ := upTo_prefix b
  have : b.drop k = (upTo b).drop k ++ t := by
    have : b.drop k = (upTo b ++ t).drop k := by rw [← h1]
    rw [this, List.drop_append_of_le_length h]
  rw [this]
  exact upTo_append (fun hm => upTo_not_mem b (List.mem_of_mem_drop hm)) h2

/-- Where the first `c` is in a text cut to `n` characters, if the text does not contain `c` before `k`. -/
theorem findIdx_take (c : Byte) (a t : Bytes) (n : Nat) (ha : c ∉ a) (ht : t = [] ∨ ∃ m, t = c :: m) :
    ((a ++ t).take n).findIdx (· == c) = min a.length n := by
  induction a generalizing n with
  | nil =>
    rcases ht with rfl | ⟨m, rfl⟩
    · simp
    · cases n <;> simp [List.findIdx_cons]
  | cons x a ih =>
    have hx : x ≠ c := by rintro rfl; simp at ha
    cases n with
    | zero => simp
    | succ n =>
      simp only [List.cons_append, List.take_succ_cons, List.length_cons]
      rw [List.findIdx_cons]
      have : (x == c) = false := by simpa using hx
      rw [this, cond_false, ih n (fun h => ha (List.mem_cons_of_mem _ h))]
      omega

theorem parseHexBody_tail (b rest : Bytes) (hb : 10 ∉ b) :
    parseHexBody true (b ++ 10 :: rest) = some ((min b.length WINDOW, 0), []) := by
  unfold parseHexBody
  rw [findIdx_take 10 b (10 :: rest) WINDOW hb (Or.inr ⟨rest, rfl⟩)]
  rfl

theorem parseHexBody_cols (b rest : Bytes) (hb : 10 ∉ b) :
    parseHexBody false (b ++ 10 :: rest) =
      match parseCols ((upTo b).take WINDOW) with
      | none => none
      | some d => some ((min b.length WINDOW, min (upTo b).length WINDOW), d) := by
  unfold parseHexBody
  simp only [Bool.false_eq_true, if_false]
  rw [findIdx_take 10 b (10 :: rest) WINDOW hb (Or.inr ⟨rest, rfl⟩)]
  have hle := upTo_length_le b
  have hp : min (((b ++ 10 :: rest).take WINDOW).findIdx (· == 124)) (min b.length WINDOW) = min (upTo b).length WINDOW := by
    obtain ⟨t, h1, h2⟩ := upTo_prefix b
    by_cases hm : t = []
    · -- no delimiter in the line
      subst hm
      rw [List.append_nil] at h1
      rw [← h1]
      apply Nat.min_eq_right
      rw [← Nat.not_lt]
      intro hlt
      have hnot : 124 ∉ b := by rw [h1]; exact upTo_not_mem _
      have hlt2 : ((b ++ 10 :: rest).take WINDOW).findIdx (· == 124) < ((b ++ 10 :: rest).take WINDOW).length := by
        rw [List.length_take, List.length_append, List.length_cons]; omega
      have hget := List.findIdx_getElem (w := hlt2)
      simp only [List.getElem_take, beq_iff_eq] at hget
      rw [List.getElem_append_left (by omega)] at hget
      exact hnot (hget ▸ List.getElem_mem _)
    · obtain ⟨m, rfl⟩ := h2.resolve_left hm
      have : b ++ 10 :: rest = upTo b ++ (124 :: (m ++ 10 :: rest)) := by
        conv => lhs; rw [h1]
        simp
      rw [this, findIdx_take 124 _ _ WINDOW (upTo_not_mem b) (Or.inr ⟨_, rfl⟩)]
      omega
  rw [hp]
  have : (b ++ 10 :: rest).take (min (upTo b).length WINDOW) = (upTo b).take WINDOW := by
    rw [List.take_append_of_le_length (by omega), take_upTo b _ (by omega), Nat.min_comm, ← List.take_take,
      List.take_of_length_le (Nat.le_refl _)]
  rw [this]
  cases parseCols ((upTo b).take WINDOW) <;> rfl

end Nd
