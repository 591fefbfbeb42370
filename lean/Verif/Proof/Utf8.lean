import Verif.Proof.Memory
/-!
# UTF-8 and the lines of error messages
-/
namespace Nd
open Spec

/-- The UTF-8 form of some characters. -/
def utf8 (cs : List Char) : Bytes := cs.flatMap String.utf8EncodeChar

theorem utf8Valid_utf8 (cs : List Char) : utf8Valid (utf8 cs) = true := by
  refine decide_eq_true (ByteArray.IsValidUTF8.intro cs ?_)
  have h : (List.utf8Encode cs).data.toList = utf8 cs := List.toList_data_toByteArray
  rw [← h]

theorem utf8_of_valid {l : Bytes} (h : utf8Valid l = true) : ∃ cs, l = utf8 cs := by
  obtain ⟨cs, hcs⟩ := of_decide_eq_true h
  refine ⟨cs, ?_⟩
  have h : (List.utf8Encode cs).data.toList = utf8 cs := List.toList_data_toByteArray
  rw [← h, ← hcs]

theorem utf8_ascii : ∀ (l : Bytes), (∀ b ∈ l, b < 128) → utf8 (l.map fun b => Char.ofNat b.toNat) = l
  | [], _ => rfl
  | b :: l, h => by
    have hb : ∀ n < 128, String.utf8EncodeChar (Char.ofNat n) = [UInt8.ofNat n] := by decide +kernel
    have h1 := hb b.toNat (UInt8.lt_iff_toNat_lt.1 (h b (by simp)))
    have h2 := utf8_ascii l fun x hx => h x (by simp [hx])
    unfold utf8 at h2 ⊢
    rw [List.map_cons, List.flatMap_cons, h1, h2, UInt8.ofNat_toNat]
    rfl

/-- A byte that continues a character. -/
def isCont (c : Byte) : Bool := decide (0x80 ≤ c) && decide (c ≤ 0xbf)

theorem isCont_ofNat {n : Nat} (h : n < 256) : isCont (UInt8.ofNat n) = decide (128 ≤ n ∧ n < 192) := by
  have : ∀ n < 256, isCont (UInt8.ofNat n) = decide (128 ≤ n ∧ n < 192) := by decide +kernel
  exact this n h

theorem utf8EncodeChar_shape (c : Char) : ∃ b t, String.utf8EncodeChar c = b :: t ∧ isCont b = false ∧ ∀ x ∈ t, isCont x = true := by
  unfold String.utf8EncodeChar
  simp only
  split
  · refine ⟨_, _, rfl, ?_, by simp⟩
    rw [isCont_ofNat (by omega)]
    exact decide_eq_false (by omega)
  · split
    · refine ⟨_, _, rfl, ?_, ?_⟩
      · rw [isCont_ofNat (by omega)]
        exact decide_eq_false (by omega)
      · intro x hx
        simp only [List.mem_cons, List.not_mem_nil, or_false] at hx
        rw [hx, isCont_ofNat (by omega)]
        exact decide_eq_true (by omega)
    · split
      · refine ⟨_, _, rfl, ?_, ?_⟩
        · rw [isCont_ofNat (by omega)]
          exact decide_eq_false (by omega)
        · intro x hx
          simp only [List.mem_cons, List.not_mem_nil, or_false] at hx
          rcases hx with hx | hx <;> rw [hx, isCont_ofNat (by omega)] <;> exact decide_eq_true (by omega)
      · refine ⟨_, _, rfl, ?_, ?_⟩
        · rw [isCont_ofNat (by omega)]
          exact decide_eq_false (by omega)
        · intro x hx
          simp only [List.mem_cons, List.not_mem_nil, or_false] at hx
          rcases hx with hx | hx | hx <;> rw [hx, isCont_ofNat (by omega)] <;> exact decide_eq_true (by omega)

/-- `String::pop` removes the last character. -/
theorem LineCache.pop_utf8 (v : Bytes) (cs : List Char) (c : Char) : LineCache.pop (v ++ utf8 (cs ++ [c])) = v ++ utf8 cs := by
  obtain ⟨b, t, h1, h2, h3⟩ := utf8EncodeChar_shape c
  have h : utf8 (cs ++ [c]) = utf8 cs ++ b :: t := by
    unfold utf8
    rw [List.flatMap_append, List.flatMap_cons, h1]
    simp
  rw [h]
  unfold LineCache.pop
  have hr : (v ++ (utf8 cs ++ b :: t)).reverse = t.reverse ++ b :: (v ++ utf8 cs).reverse := by simp
  have hd : (t.reverse ++ b :: (v ++ utf8 cs).reverse).dropWhile isCont = b :: (v ++ utf8 cs).reverse := by
    rw [List.dropWhile_append_of_pos (fun x hx => h3 x (List.mem_reverse.1 hx)), List.dropWhile_cons_of_neg (by simp [h2])]
  rw [hr]
  show (List.drop 1 (List.dropWhile isCont _)).reverse = _
  rw [hd, List.drop_one, List.tail_cons, List.reverse_reverse]

theorem LineCache.format_append {c c' : LineCache} {s : Bytes} (h : c.append s = some c') :
    c'.format false = LineCache.quote (s.take 32) ∧
    c'.format true = (c.format false).bind fun p => (LineCache.quote (s.take 32)).map fun q => p ++ [32, 97, 110, 100, 32] ++ q := by
  unfold LineCache.append at h
  split at h
  · cases h
    cases hc : c.curr
    · simp only [LineCache.format, hc, if_true, Bool.false_eq_true, if_false]
      refine ⟨trivial, ?_⟩
      cases LineCache.quote c.second <;> cases LineCache.quote (s.take 32) <;> rfl
    · simp only [LineCache.format, hc, if_true, Bool.false_eq_true, if_false]
      refine ⟨trivial, ?_⟩
      cases LineCache.quote c.first <;> cases LineCache.quote (s.take 32) <;> rfl
  · cases h

theorem LineCache.append_some (c : LineCache) {s : Bytes} (h : 32 ≤ s.length) : ∃ c', c.append s = some c' := by
  unfold LineCache.append
  rw [if_pos h]
  exact ⟨_, rfl⟩

theorem LineCache.quote_line {l rest : Bytes} (hl : 10 ∉ l) (h32 : 32 ≤ (l ++ 10 :: rest).length) :
    LineCache.quote ((l ++ 10 :: rest).take 32) =
      if l = [] then some [40, 110, 111, 110, 101, 41]
      else if utf8Valid (l.take 32) then some ((if 32 ≤ l.length then LineCache.pop ([34] ++ l.take 32) ++ [46, 46, 46] else [34] ++ l) ++ [34]) else none := by
  have hidx : ∀ (t : Bytes) (r : Bytes), 10 ∉ t → (t ++ 10 :: r).findIdx (· == 10) = t.length := by
    intro t r ht
    rw [List.findIdx_append]
    have h1 : List.findIdx (· == (10 : Byte)) t = t.length := List.findIdx_eq_length.2 fun x hx => by
      simp only [beq_eq_false_iff_ne]
      exact fun h => ht (h ▸ hx)
    rw [h1]
    simp [List.findIdx_cons]
  have hidx' : ∀ (t : Bytes), 10 ∉ t → t.findIdx (· == 10) = t.length := fun t ht => List.findIdx_eq_length.2 fun x hx => by
      simp only [beq_eq_false_iff_ne]
      exact fun h => ht (h ▸ hx)
  have hlen : ((l ++ 10 :: rest).take 32).findIdx (· == 10) = min 32 l.length ∧ (((l ++ 10 :: rest).take 32).take (min 32 l.length)) = l.take 32 := by
    by_cases hc : 32 ≤ l.length
    · rw [List.take_append_of_le_length hc, Nat.min_eq_left hc, List.take_take, Nat.min_self]
      refine ⟨?_, rfl⟩
      rw [hidx' _ fun h => hl (List.mem_of_mem_take h), List.length_take, Nat.min_eq_left hc]
    · rw [List.take_append, List.take_of_length_le (show l.length ≤ 32 by omega), Nat.min_eq_right (by omega)]
      have h1 : List.take (32 - l.length) (10 :: rest) = 10 :: rest.take (31 - l.length) := by
        rw [show 32 - l.length = 31 - l.length + 1 by omega, List.take_succ_cons]
      rw [h1, hidx l _ hl]
      refine ⟨rfl, ?_⟩
      rw [List.take_append_of_le_length (by omega), List.take_of_length_le (by omega)]
  unfold LineCache.quote
  simp only
  rw [hlen.1, hlen.2]
  cases l with
  | nil => simp
  | cons a l =>
    rw [if_neg (show ¬ min 32 (a :: l).length = 0 by rw [List.length_cons]; omega), if_neg (show ¬ (a :: l : Bytes) = [] from List.cons_ne_nil _ _)]
    split
    · congr 2
      by_cases hc : 32 ≤ (a :: l).length
      · rw [if_pos (Nat.min_eq_left hc), if_pos hc]
      · rw [if_neg (by omega), if_neg hc, List.take_of_length_le (by omega)]
    · rfl

end Nd
