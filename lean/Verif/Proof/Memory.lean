import Verif.Model.Memory
import Verif.Model.Parser
import Verif.Proof.SimdFormat
import Verif.Proof.SimdWindow
import Verif.Proof.Zip
/-!
# Raw memory: the copies and stores stay where they belong
-/
namespace Nd
open Vec Format Spec

/-- A store behind what is known extends it. -/
theorem put_append {cap d n : Nat} (v m : Vec) (h : d + n ≤ cap) : ∃ m', put cap d n v m = some m' ∧ m'.toBytes (d + n) = m.toBytes d ++ v.toBytes n := by
  refine ⟨_, put_some v m h, ?_⟩
  rw [toBytes_add]
  congr 1
  · exact toBytes_congr fun i hi => if_neg (by omega)
  · refine toBytes_congr fun i hi => ?_
    rw [if_pos (by omega), Nat.add_sub_cancel_left]

theorem toBytes_load {src : Bytes} {p n : Nat} (h : p + n ≤ src.length) : (load src p).toBytes n = (src.drop p).take n := by
  apply List.ext_getElem?
  intro i
  by_cases hi : i < n
  · rw [List.getElem?_take_of_lt hi, List.getElem?_drop]
    simp [toBytes, load, hi, List.getElem?_eq_getElem (show p + i < src.length by omega)]
  · rw [List.getElem?_eq_none (by simp [toBytes]; omega), List.getElem?_eq_none (by rw [List.length_take]; omega)]

theorem copyRaw_append {src : Bytes} {p n cap d : Nat} (m : Vec) (h1 : p + n ≤ src.length) (h2 : d + n ≤ cap) :
    ∃ m', copyRaw src p n cap d m = some m' ∧ m'.toBytes (d + n) = m.toBytes d ++ (src.drop p).take n := by
  unfold copyRaw
  rw [if_pos h1, ← toBytes_load h1]
  exact put_append _ _ h2

theorem growRaw_spec {len cap need : Nat} (h : len + need < 2 ^ 63) : ∃ c, growRaw len cap need = some c ∧ len + need ≤ c := by
  unfold growRaw
  split
  · rename_i hc
    have h0 : len + need ≠ 0 := by omega
    have hl : (len + need).log2 < 63 := (Nat.log2_lt h0).2 h
    have hs : 64 - clz64 (len + need) = (len + need).log2 + 1 := by
      rw [clz64_eq_log2 h0 (by omega)]
      omega
    simp only
    rw [hs, if_pos (by omega)]
    refine ⟨_, rfl, ?_⟩
    have h1 : len + need < 2 ^ ((len + need).log2 + 1) := Nat.lt_log2_self
    have h2 : 2 ^ ((len + need).log2 + 1) ≤ 2 ^ max ((len + need).log2 + 1) 8 := Nat.pow_le_pow_right (by decide) (by omega)
    rw [Nat.one_shiftLeft]
    omega
  · exact ⟨cap, rfl, by omega⟩

/-! ## `--zip` -/

namespace Zipper

theorem stepOf_eq {w : Nat} (h : 0 < w) : stepOf w = w := by
  by_cases hw : w ≤ 16
  · have : ∀ w < 17, 0 < w → stepOf w = w := by decide
    exact this w (by omega) h
  · unfold stepOf
    rw [Nat.min_eq_right (by omega)]
    rfl

theorem storeRow_spec (w cap : Nat) : ∀ (ptrs : List (Bytes × Nat)) (d : Nat) (m : Vec), (∀ x ∈ ptrs, x.2 + w ≤ x.1.length) → d + ptrs.length * w ≤ cap →
    ∃ m', storeRow w cap ptrs d m = some (ptrs.map fun x => (x.1, x.2 + w), d + ptrs.length * w, m') ∧
      m'.toBytes (d + ptrs.length * w) = m.toBytes d ++ ((ptrs.map fun x => x.1.drop x.2).map (List.take w)).flatten
  | [], d, m, _, _ => ⟨m, by simp [storeRow], by simp⟩
  | (s, p) :: ptrs, d, m, h, hd => by
    rw [List.length_cons, Nat.succ_mul] at hd
    obtain ⟨m1, h1, h2⟩ := copyRaw_append m (h (s, p) (by simp)) (show d + w ≤ cap by omega)
    obtain ⟨m2, h3, h4⟩ := storeRow_spec w cap ptrs (d + w) m1 (fun x hx => h x (by simp [hx])) (by omega)
    have hlen : d + ((s, p) :: ptrs).length * w = d + w + ptrs.length * w := by rw [List.length_cons, Nat.succ_mul]; omega
    refine ⟨m2, ?_, ?_⟩
    · unfold storeRow
      rw [h1]
      simp only
      rw [h3, hlen]
      rfl
    · rw [hlen, h4, h2]
      simp

theorem storeRows_spec (w cap : Nat) : ∀ (n : Nat) (ptrs : List (Bytes × Nat)) (d : Nat) (m : Vec), (∀ x ∈ ptrs, x.2 + n * w ≤ x.1.length) → d + ptrs.length * (n * w) ≤ cap →
    ∃ m', storeRows w cap n ptrs d m = some m' ∧ m'.toBytes (d + ptrs.length * (n * w)) = m.toBytes d ++ gather w n (ptrs.map fun x => x.1.drop x.2)
  | 0, ptrs, d, m, _, _ => ⟨m, rfl, by simp [gather]⟩
  | n + 1, ptrs, d, m, h, hd => by
    have hlen : ptrs.length * ((n + 1) * w) = ptrs.length * w + ptrs.length * (n * w) := by rw [Nat.succ_mul, Nat.mul_add]; omega
    rw [hlen] at hd
    obtain ⟨m1, h1, h2⟩ := storeRow_spec w cap ptrs d m (fun x hx => by
      have := h x hx
      rw [Nat.succ_mul] at this
      omega) (by omega)
    obtain ⟨m2, h3, h4⟩ := storeRows_spec w cap n (ptrs.map fun x => (x.1, x.2 + w)) (d + ptrs.length * w) m1 (by
      intro x hx
      obtain ⟨y, hy, rfl⟩ := List.mem_map.1 hx
      have := h y hy
      rw [Nat.succ_mul] at this
      show y.2 + w + n * w ≤ y.1.length
      omega) (by rw [List.length_map]; omega)
    refine ⟨m2, ?_, ?_⟩
    · unfold storeRows
      rw [h1]
      exact h3
    · rw [List.length_map] at h4
      rw [hlen, ← Nat.add_assoc, h4, h2, List.append_assoc]
      congr 1
      rw [gather]
      congr 2
      rw [List.map_map, List.map_map]
      refine List.map_congr_left fun x _ => ?_
      simp [List.drop_drop]

theorem fillAll_lends {S : ByteSrc σ} {F M R} (hR : Serves S F M R) (req : Nat) : ∀ (srcs : List σ) (eof : Bool) (len : Nat) (eof' : Bool) (len' : Nat) (srcs' : List σ),
    (∀ s ∈ srcs, ∃ ph w rem, R s ph w rem) → fillAll S req srcs eof len = .ok (eof', len', srcs') →
    srcs'.length = srcs.length ∧ len' ≤ len ∧ ∀ s ∈ srcs', len' ≤ (S.slice s).length
  | [], _, _, _, _, _, _, h => by cases h; simp
  | s :: srcs, eof, len, eof', len', srcs', hs, h => by
    unfold fillAll at h
    obtain ⟨ph, w, rem, hr⟩ := hs s (by simp)
    rcases hR.fill s ph w rem req hr with ⟨e, _, he⟩ | ⟨x, n, w', s', he, hr', hn, hsl, _⟩
    · rw [he] at h
      cases h
    · rw [he] at h
      simp only at h
      cases hf : fillAll S req srcs (eof && x) (min len n) with
      | error e => rw [hf] at h; cases h
      | ok r =>
        obtain ⟨e1, l1, r1⟩ := r
        rw [hf] at h
        cases h
        obtain ⟨h1, h2, h3⟩ := fillAll_lends hR req srcs _ _ _ _ _ (fun t ht => hs t (by simp [ht])) hf
        refine ⟨by simp [h1], by omega, fun t ht => ?_⟩
        rcases List.mem_cons.1 ht with rfl | ht
        · by_cases h0 : 0 < n
          · obtain ⟨m, _, hm⟩ := hsl h0
            rw [hm, List.length_append, List.length_take]
            omega
          · omega
        · exact h3 t ht

end Zipper

/-! ## The array parsers -/

theorem Avx2.multiRaw_eq (x0 x1 x2 x3 : Vec) (n : Nat) : Avx2.parseMulti x0 x1 x2 x3 n = (Avx2.multiRaw x0 x1 x2 x3 n).map fun r => r.1.toBytes r.2 := by
  unfold Avx2.parseMulti Avx2.multiRaw
  simp only
  split <;> rfl

theorem Neon.multiRaw_eq (x0 x1 x2 : Vec) (n : Nat) : Neon.parseMulti x0 x1 x2 n = (Neon.multiRaw x0 x1 x2 n).map fun r => r.1.toBytes r.2 := by
  unfold Neon.parseMulti Neon.multiRaw
  simp only
  split <;> rfl

theorem simdStores_spec {src : Bytes} {reach cap : Nat} {find : Nat → Byte → Nat} {multi : Nat → Nat → Option Bytes} {raw : Nat → Nat → Option (Vec × Nat)}
    (hle : ∀ p c, find p c ≤ 48) (hm : ∀ p n, multi p n = (raw p n).map fun r => r.1.toBytes r.2) (hlen : ∀ p n d, n ≤ 16 → multi p n = some d → d.length ≤ n) :
    ∀ (n p : Nat) (tl : Bool) (s q k : Nat) (m : Vec), (0 < n → p + 48 * (n - 1) + reach ≤ src.length) → k + 16 * n ≤ cap →
    (simdChunks find multi n p tl s q (m.toBytes k) = none ∧ simdStores src reach cap find raw n p tl s q k m = some none) ∨
    ∃ r k' m', k' ≤ k + 16 * n ∧ simdChunks find multi n p tl s q (m.toBytes k) = some (r, m'.toBytes k') ∧ simdStores src reach cap find raw n p tl s q k m = some (some (r, k', m'))
  | 0, p, tl, s, q, k, m, _, _ => Or.inr ⟨(s, q), k, m, by omega, rfl, rfl⟩
  | n + 1, p, tl, s, q, k, m, hp, hk => by
    have hp := hp (by omega)
    have ih := fun tl s q k m => simdStores_spec (src := src) (reach := reach) (cap := cap) hle hm hlen n (p + 48) tl s q k m fun hn => by omega
    unfold simdChunks simdStores
    rw [if_pos (show Loads src p reach = true by unfold Loads; simp; omega)]
    simp only
    cases tl with
    | true =>
      simp only [if_true]
      split
      · exact Or.inr ⟨_, k, m, by omega, rfl, rfl⟩
      · rcases ih true (s + find p 10) q k m (by omega) with h | ⟨r, k', m', h1, h2⟩
        · exact Or.inl h
        · exact Or.inr ⟨r, k', m', by omega, h2⟩
    | false =>
      simp only [Bool.false_eq_true, if_false]
      have hle1 := hle p 10
      have hle2 := hle p 124
      have hl := hlen p ((min (find p 124) (find p 10) + 1) / 3)
      rw [hm p] at hl ⊢
      cases hr : raw p ((min (find p 124) (find p 10) + 1) / 3) with
      | none => exact Or.inl ⟨rfl, rfl⟩
      | some r =>
        obtain ⟨v, e⟩ := r
        rw [hr] at hl
        have he : e ≤ 16 := by
          have := hl _ (by omega) rfl
          simp only [toBytes, List.length_map, List.length_range] at this
          omega
        have hput : put cap k 16 v m = some fun i => if k ≤ i ∧ i < k + 16 then v (i - k) else m i := put_some v m (by omega)
        have hb : (toBytes (fun i => if k ≤ i ∧ i < k + 16 then v (i - k) else m i) (k + e)) = m.toBytes k ++ v.toBytes e := by
          rw [toBytes_add]
          congr 1
          · exact toBytes_congr fun i hi => if_neg (by omega)
          · refine toBytes_congr fun i hi => ?_
            rw [if_pos (by omega), Nat.add_sub_cancel_left]
        simp only [Option.map_some]
        rw [hput]
        simp only
        rw [← hb]
        split
        · exact Or.inr ⟨_, _, _, by omega, rfl, rfl⟩
        · rcases ih (decide (find p 124 < 48)) (s + find p 10) (q + min (find p 124) (find p 10)) (k + e) _ (by omega) with h | ⟨r, k', m', h1, h2⟩
          · exact Or.inl h
          · exact Or.inr ⟨r, k', m', by omega, h2⟩

theorem parseCols_length : ∀ (t : Bytes) (d : Bytes), parseCols t = some d → 3 * d.length ≤ t.length + 2
  | [], d, h => by cases h; simp
  | [_], d, h => by cases h; simp
  | [a, b], d, h => by
    unfold parseCols at h
    split at h
    · cases h; simp
    · split at h
      · cases h; simp
      · cases h
  | a :: b :: c :: rest, d, h => by
    unfold parseCols at h
    split at h
    · cases h; simp
    · split at h
      · split at h
        · cases h
        · rename_i d' hd'
          have := parseCols_length rest d' hd'
          cases h
          simp; omega
      · cases h

end Nd
