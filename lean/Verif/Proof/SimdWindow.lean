import Verif.Proof.SimdBody
/-!
# The vectorised array parsers: windows
-/
namespace Nd

/-! ## Windows -/

/-- The characters of a chunk. -/
def chunk (src : Bytes) (p : Nat) : Nat → Byte := fun i => src.getD (p + i) 0

/-- Both loops with the characters in place of registers. -/
def refBody (isInTail : Bool) (src : Bytes) : Option ((Nat × Nat) × Bytes) :=
  simdChunks (fun p => refFind (chunk src p)) (fun p n => refMulti n (chunk src p)) 4 0 isInTail 0 0 []

theorem simdChunks_congr {find find' : Nat → Byte → Nat} {multi multi' : Nat → Nat → Option Bytes} (hf : ∀ p c, find p c = find' p c)
    (hle : ∀ p c, find' p c ≤ 48) (hm : ∀ p n, n ≤ 16 → multi p n = multi' p n) : ∀ (n p : Nat) (tl : Bool) (s q : Nat) (d : Bytes),
    simdChunks find multi n p tl s q d = simdChunks find' multi' n p tl s q d
  | 0, _, _, _, _, _ => rfl
  | n + 1, p, tl, s, q, d => by
    have ih := simdChunks_congr hf hle hm n
    have h1 := hle p 10
    have h2 := hle p 124
    unfold simdChunks
    simp only [hf, ih]
    rw [hm p _ (by omega)]

theorem Avx2.parseBody_eq (isInTail : Bool) (src : Bytes) : Avx2.parseBody isInTail src = refBody isInTail src := by
  have hl : ∀ p k i, Vec.load src (p + k) i = chunk src p (k + i) := fun p k i => by
    show src.getD _ _ = src.getD _ _
    rw [Nat.add_assoc]
  refine simdChunks_congr (fun p c => ?_) (fun p c => (refFind_spec _ c).1) (fun p n hn => ?_) _ _ _ _ _ _
  · exact Avx2.findDelim_eq _ _ _ _ (chunk src p) c (fun i _ => rfl) (fun i _ => hl p 12 i) (fun i _ => hl p 24 i) (fun i _ => hl p 36 i)
  · exact Avx2.parseMulti_eq _ _ _ _ (chunk src p) n hn (fun i _ => rfl) (fun i _ => hl p 12 i) (fun i _ => hl p 24 i) (fun i _ => hl p 36 i)

theorem Neon.parseBody_eq (isInTail : Bool) (src : Bytes) : Neon.parseBody isInTail src = refBody isInTail src := by
  have hl : ∀ p k i, loadN 3 src p k i = chunk src p (3 * i + k) := fun p k i => by
    show src.getD _ _ = src.getD _ _
    rw [Nat.add_assoc]
  refine simdChunks_congr (fun p c => ?_) (fun p c => (refFind_spec _ c).1) (fun p n hn => ?_) _ _ _ _ _ _
  · exact Neon.findDelim_eq _ _ _ (chunk src p) c (fun i _ => hl p 0 i) (fun i _ => hl p 1 i) (fun i _ => hl p 2 i)
  · exact Neon.parseMulti_eq _ _ _ (chunk src p) n hn (fun i _ => hl p 0 i) (fun i _ => hl p 1 i) (fun i _ => hl p 2 i)

/-- Text read in blocks of `n` characters, each on its own. -/
def blocks (n : Nat) (f : Bytes → Option Bytes) (t : Bytes) : Option Bytes :=
  if n = 0 ∨ t.length < n then f t
  else
    match f (t.take n), blocks n f (t.drop n) with
    | some d, some d' => some (d ++ d')
    | _, _ => none
termination_by t.length
decreasing_by simp; omega

theorem blocks_short {n : Nat} {f : Bytes → Option Bytes} {t : Bytes} (h : t.length < n) : blocks n f t = f t := by
  rw [blocks, if_pos (Or.inr h)]

theorem blocks_long {n : Nat} {f : Bytes → Option Bytes} {t : Bytes} (h0 : 0 < n) (h : n ≤ t.length) :
    blocks n f t = match f (t.take n), blocks n f (t.drop n) with | some d, some d' => some (d ++ d') | _, _ => none := by
  rw [blocks, if_neg (by omega)]

/-- The text of the columns of a chunk. -/
def vecCols (t : Bytes) : Option Bytes := refMulti ((t.length + 1) / 3) (fun i => t.getD i 0)

theorem vecCols_nil : vecCols [] = some [] := rfl

theorem refMulti_congr : ∀ (n : Nat) (c c' : Nat → Byte), (∀ i, i + 1 < 3 * n → c i = c' i) → refMulti n c = refMulti n c'
  | 0, _, _, _ => rfl
  | n + 1, c, c', h => by
    unfold refMulti
    rw [h 0 (by omega), h 1 (by omega), refMulti_congr n (fun i => c (i + 3)) (fun i => c' (i + 3)) fun i hi => h (i + 3) (by omega)]
    have : (decide (n = 0) || decide (c 2 = 32)) = (decide (n = 0) || decide (c' 2 = 32)) := by
      rcases Nat.eq_zero_or_pos n with h0 | h0
      · simp [h0]
      · rw [h 2 (by omega)]
    rw [this]

theorem chunk_eq {src : Bytes} {p : Nat} {t : Bytes} (h : src.drop p = t) (i : Nat) : chunk src p i = t.getD i 0 := by
  unfold chunk
  rw [← h, List.getD_eq_getElem?_getD, List.getD_eq_getElem?_getD, List.getElem?_drop]

theorem getD_append_lt {a b : Bytes} {i : Nat} (h : i < a.length) : (a ++ b).getD i 0 = a.getD i 0 := by
  rw [List.getD_eq_getElem?_getD, List.getD_eq_getElem?_getD, List.getElem?_append_left h]

theorem getD_mem {a : Bytes} {i : Nat} (h : i < a.length) : a.getD i 0 ∈ a := by
  rw [List.getD_eq_getElem?_getD, List.getElem?_eq_getElem h]
  exact List.getElem_mem _

theorem getD_append_len {a b : Bytes} {c : Byte} : (a ++ c :: b).getD a.length 0 = c := by
  rw [List.getD_eq_getElem?_getD, List.getElem?_append_right (Nat.le_refl _), Nat.sub_self]; rfl

/-- Where the first `c` is in a chunk. -/
theorem refFind_text {src : Bytes} {p : Nat} {a t : Bytes} {c : Byte} (h : src.drop p = a ++ c :: t) (ha : c ∉ a) :
    refFind (chunk src p) c = min a.length 48 := by
  apply refFind_unique
  · omega
  · intro j hj
    rw [chunk_eq h, getD_append_lt (by omega)]
    intro he
    exact ha (he ▸ getD_mem (by omega))
  · intro hlt
    rw [show min a.length 48 = a.length by omega, chunk_eq h, getD_append_len]

theorem chunks_tail {src : Bytes} : ∀ (k p : Nat) (b rest : Bytes) (s q : Nat) (d : Bytes), src.drop p = b ++ 10 :: rest → 10 ∉ b →
    simdChunks (fun p => refFind (chunk src p)) (fun p n => refMulti n (chunk src p)) k p true s q d = some ((s + min b.length (48 * k), q), d)
  | 0, p, b, rest, s, q, d, _, _ => by simp [simdChunks]
  | k + 1, p, b, rest, s, q, d, h, hb => by
    unfold simdChunks
    simp only [if_true, refFind_text h hb]
    by_cases hl : b.length < 48
    · rw [if_pos (by omega), show min b.length 48 = b.length by omega, show min b.length (48 * (k + 1)) = b.length by omega]
    · rw [if_neg (by omega), chunks_tail k (p + 48) (b.drop 48) rest _ _ _ (by rw [← List.drop_drop, h, List.drop_append_of_le_length (by omega)])
        fun hm => hb (List.mem_of_mem_drop hm)]
      rw [List.length_drop, show s + min b.length 48 + min (b.length - 48) (48 * k) = s + min b.length (48 * (k + 1)) by omega]

theorem vecCols_chunk {src : Bytes} {p : Nat} {a t : Bytes} (h : src.drop p = a ++ t) (n : Nat) (hn : n ≤ a.length) :
    refMulti ((n + 1) / 3) (chunk src p) = vecCols (a.take n) := by
  unfold vecCols
  rw [List.length_take, Nat.min_eq_left hn]
  apply refMulti_congr
  intro i hi
  rw [chunk_eq h, getD_append_lt (by omega), List.getD_eq_getElem?_getD, List.getD_eq_getElem?_getD, List.getElem?_take_of_lt (by omega)]

/-- `min (find '|') (find '\n')`. -/
theorem refFind_delim {src : Bytes} {p : Nat} {b rest : Bytes} (h : src.drop p = b ++ 10 :: rest) :
    min (refFind (chunk src p) 124) (min b.length 48) = min (upTo b).length 48 ∧
    ((upTo b).length < b.length → refFind (chunk src p) 124 = min (upTo b).length 48) ∧
    (48 ≤ (upTo b).length → refFind (chunk src p) 124 = 48) := by
  obtain ⟨t, h1, h2⟩ := upTo_prefix b
  have hle := upTo_length_le b
  have hn := upTo_not_mem b
  rcases h2 with rfl | ⟨m, rfl⟩
  · rw [List.append_nil] at h1
    have hlow : min b.length 48 ≤ refFind (chunk src p) 124 := by
      rw [← Nat.not_lt]
      intro hlt
      obtain ⟨g0, _, g2⟩ := refFind_spec (chunk src p) 124
      have g := g2 (by omega)
      rw [chunk_eq h, getD_append_lt (by omega)] at g
      rw [← h1] at hn
      exact hn (g ▸ getD_mem (by omega))
    have hup := (refFind_spec (chunk src p) 124).1
    refine ⟨by rw [← h1]; omega, fun hlt => ?_, fun hlt => by omega⟩
    rw [← h1] at hlt; omega
  · have hd : src.drop p = upTo b ++ 124 :: (m ++ 10 :: rest) := by
      rw [h]
      conv => lhs; rw [h1]
      simp
    have := refFind_text hd hn
    exact ⟨by omega, fun _ => this, fun hl => by omega⟩

theorem chunks_cols {src : Bytes} : ∀ (k p : Nat) (b rest : Bytes) (s q : Nat) (d : Bytes), src.drop p = b ++ 10 :: rest → 10 ∉ b →
    simdChunks (fun p => refFind (chunk src p)) (fun p n => refMulti n (chunk src p)) k p false s q d =
      match blocks 48 vecCols ((upTo b).take (48 * k)) with
      | none => none
      | some e => some ((s + min b.length (48 * k), q + min (upTo b).length (48 * k)), d ++ e)
  | 0, p, b, rest, s, q, d, _, _ => by
    rw [Nat.mul_zero, List.take_zero, blocks_short (by simp), vecCols_nil]; simp [simdChunks]
  | k + 1, p, b, rest, s, q, d, h, hb => by
    obtain ⟨g1, g2, g3⟩ := refFind_delim h
    have hle := upTo_length_le b
    unfold simdChunks
    simp only [Bool.false_eq_true, if_false, refFind_text h hb, g1]
    obtain ⟨t, ht, _⟩ := upTo_prefix b
    have hd : src.drop p = upTo b ++ (t ++ 10 :: rest) := by
      rw [h]; conv => lhs; rw [ht]
      simp
    rw [vecCols_chunk hd _ (Nat.min_le_left _ _)]
    have hnext : src.drop (p + 48) = (b.drop 48) ++ 10 :: rest ∨ b.length < 48 := by
      rcases Nat.lt_or_ge b.length 48 with h' | h'
      · exact Or.inr h'
      · left; rw [← List.drop_drop, h, List.drop_append_of_le_length (by omega)]
    have hb' : 10 ∉ b.drop 48 := fun hm => hb (List.mem_of_mem_drop hm)
    by_cases hu : (upTo b).length < 48
    · rw [show min (upTo b).length 48 = (upTo b).length by omega, List.take_of_length_le (Nat.le_refl _),
        List.take_of_length_le (by omega), blocks_short hu, show min (upTo b).length (48 * (k + 1)) = (upTo b).length by omega]
      cases vecCols (upTo b) with
      | none => rfl
      | some e =>
        simp only
        by_cases hl : b.length < 48
        · rw [if_pos (by omega), show min b.length 48 = b.length by omega, show min b.length (48 * (k + 1)) = b.length by omega]
        · rw [if_neg (by omega), g2 (by omega), show decide (min (upTo b).length 48 < 48) = true by simp; omega,
            chunks_tail k (p + 48) (b.drop 48) rest _ _ _ (hnext.resolve_right hl) hb', List.length_drop,
            show s + min b.length 48 + min (b.length - 48) (48 * k) = s + min b.length (48 * (k + 1)) by omega]
    · rw [show min (upTo b).length 48 = 48 by omega, blocks_long (by decide) (by simp; omega), List.take_take, show min 48 (48 * (k + 1)) = 48 by omega]
      cases vecCols ((upTo b).take 48) with
      | none => rfl
      | some e =>
        simp only
        rw [if_neg (by omega), g3 (by omega), show decide (48 < 48) = false by simp,
          chunks_cols k (p + 48) (b.drop 48) rest _ _ _ (hnext.resolve_right (by omega)) hb', upTo_drop b 48 (by omega),
          List.drop_take, show 48 * (k + 1) - 48 = 48 * k by omega]
        cases blocks 48 vecCols (((upTo b).drop 48).take (48 * k)) with
        | none => rfl
        | some e' =>
          simp only [List.length_drop, List.append_assoc]
          rw [show s + min b.length 48 + min (b.length - 48) (48 * k) = s + min b.length (48 * (k + 1)) by omega,
            show q + 48 + min ((upTo b).length - 48) (48 * k) = q + min (upTo b).length (48 * (k + 1)) by omega]

theorem refBody_tail (b rest : Bytes) (hb : 10 ∉ b) : refBody true (b ++ 10 :: rest) = some ((min b.length WINDOW, 0), []) := by
  unfold refBody
  rw [chunks_tail 4 0 b rest 0 0 [] rfl hb]
  rw [Nat.zero_add]; rfl

theorem refBody_cols (b rest : Bytes) (hb : 10 ∉ b) : refBody false (b ++ 10 :: rest) =
    match blocks 48 vecCols ((upTo b).take WINDOW) with
    | none => none
    | some d => some ((min b.length WINDOW, min (upTo b).length WINDOW), d) := by
  unfold refBody
  rw [chunks_cols 4 0 b rest 0 0 [] rfl hb]
  simp only [Nat.zero_add, List.nil_append]
  rfl

end Nd
