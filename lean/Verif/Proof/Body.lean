import Verif.Proof.SimdWindow
/-!
# Arrays in every build
-/
namespace Nd
open Spec

theorem isBlank_iff (a b : Byte) : isBlank a b = true ↔ Blank a ∧ Blank b := by
  have : ∀ x : Byte, isDelim x = true ↔ Blank x := by
    intro x
    unfold Blank
    revert x; apply forall_byte; decide +kernel
  simp only [isBlank, Bool.and_eq_true, this]

theorem hex_not_blank {a : Byte} {x : Nat} (h : hexVal a = some x) : ¬ Blank a := by
  rintro (rfl | rfl | rfl)
  · rw [hexVal_space] at h; cases h
  · rw [show hexVal 58 = none by decide] at h; cases h
  · rw [show hexVal 10 = none by decide] at h; cases h

theorem vecCols_step (a b : Byte) (t : Bytes) (ht : t.length ≤ 2) :
    vecCols (a :: b :: t) = if isPair a b || isBlank a b then some (if isBlank a b then [] else [(toHex a) <<< 4 ||| toHex b]) else none := by
  have : ((a :: b :: t).length + 1) / 3 = 1 := by simp only [List.length_cons]; omega
  unfold vecCols
  rw [this]
  simp only [refMulti, List.getD_cons_zero, List.getD_cons_succ, decide_true, Bool.true_or, Bool.and_true]

theorem vecCols_cons (a b c : Byte) (t : Bytes) (ht : 2 ≤ t.length) :
    vecCols (a :: b :: c :: t) = if (isPair a b || isBlank a b) && decide (c = 32) then
      (match vecCols t with
      | none => none
      | some d => some (if isBlank a b then [] else ((toHex a) <<< 4 ||| toHex b) :: d)) else none := by
  have h1 : ((a :: b :: c :: t).length + 1) / 3 = (t.length + 1) / 3 + 1 := by simp only [List.length_cons]; omega
  have h2 : decide ((t.length + 1) / 3 = 0) = false := by simp; omega
  unfold vecCols
  rw [h1]
  simp only [refMulti, List.getD_cons_zero, List.getD_cons_succ, h2, Bool.false_or]
  rfl

theorem vecCols_iff : ∀ (n : Nat) (t d : Bytes), t.length ≤ n → (vecCols t = some d ↔ VecColumns t d)
  | n, [], d, _ => by
    rw [vecCols_nil]
    exact ⟨fun h => by cases h; exact .short _ (by simp), fun h => by cases h; rfl⟩
  | n, [c], d, _ => by
    have : vecCols [c] = some [] := by simp [vecCols, refMulti]
    rw [this]
    exact ⟨fun h => by cases h; exact .short _ (by simp), fun h => by cases h; rfl⟩
  | n, a :: b :: t, d, hn => by
    by_cases ht : t.length ≤ 2
    · rw [vecCols_step a b t ht]
      constructor
      · intro h
        split at h
        · rename_i hp
          cases h
          by_cases hb : isBlank a b = true
          · rw [if_pos hb]
            obtain ⟨h1, h2⟩ := (isBlank_iff a b).1 hb
            exact .lastBlank a b t h1 h2 ht
          · rw [if_neg hb]
            simp only [hb, Bool.or_false] at hp
            obtain ⟨x, y, hx, hy, he⟩ := column_inv hp
            rw [he]
            exact .last a b x y t hx hy ht
        · cases h
      · intro h
        cases h with
        | short _ h => simp at h
        | last _ _ x y _ hx hy _ =>
          obtain ⟨h1, h2⟩ := column_some hx hy
          have hb : ¬ isBlank a b = true := fun hb => hex_not_blank hx ((isBlank_iff a b).1 hb).1
          rw [if_pos (by rw [show isPair a b = true from h1]; rfl), if_neg hb, h2]
        | lastBlank _ _ _ h1 h2 _ =>
          have hb := (isBlank_iff a b).2 ⟨h1, h2⟩
          rw [hb]; simp
        | col _ _ x y rest d _ _ h => simp at ht; omega
        | blank _ _ rest d _ _ h => simp at ht; omega
    · match t, ht with
      | [], h => simp at h
      | c :: t, ht =>
        simp only [List.length_cons] at ht hn
        rw [vecCols_cons a b c t (by omega)]
        have ih := fun d => vecCols_iff (n - 3) t d (by omega)
        constructor
        · intro h
          split at h
          · rename_i hp
            simp only [Bool.and_eq_true (_ || _), decide_eq_true_eq] at hp
            obtain ⟨hp, rfl⟩ := hp
            split at h
            · cases h
            · rename_i d' hd
              cases h
              by_cases hb : isBlank a b = true
              · rw [if_pos hb]
                obtain ⟨h1, h2⟩ := (isBlank_iff a b).1 hb
                exact .blank a b t d' h1 h2 (by omega) ((ih _).1 hd)
              · rw [if_neg hb]
                simp only [hb, Bool.or_false] at hp
                obtain ⟨x, y, hx, hy, he⟩ := column_inv hp
                rw [he]
                exact .col a b x y t d' hx hy (by omega) ((ih _).1 hd)
          · cases h
        · intro h
          cases h with
          | short _ h => simp at h
          | last _ _ x y _ hx hy h => simp at h; omega
          | lastBlank _ _ _ h1 h2 h => simp at h; omega
          | col _ _ x y rest d hx hy _ hd =>
            obtain ⟨h1, h2⟩ := column_some hx hy
            have hb : ¬ isBlank a b = true := fun hb => hex_not_blank hx ((isBlank_iff a b).1 hb).1
            rw [if_pos (by rw [show isPair a b = true from h1]; rfl), (ih _).2 hd]
            simp only
            rw [if_neg hb, h2]
          | blank _ _ rest d h1 h2 _ hd =>
            have hb := (isBlank_iff a b).2 ⟨h1, h2⟩
            rw [hb, if_pos (by simp), (ih _).2 hd]
            rfl
termination_by n => n
decreasing_by simp only [List.length_cons] at hn; omega

theorem blocks_iff {m : Nat} (hm : 0 < m) {f : Bytes → Option Bytes} {cols : Bytes → Bytes → Prop} (hf : ∀ t d, f t = some d ↔ cols t d) :
    ∀ (n : Nat) (t d : Bytes), t.length ≤ n → (blocks m f t = some d ↔ Blocks m cols t d) := by
  intro n
  induction n with
  | zero =>
    intro t d h
    rw [blocks_short (by omega), hf]
    refine ⟨fun h' => .last _ _ (by omega) h', fun h' => ?_⟩
    cases h' with
    | last _ _ _ h => exact h
    | more w rest d d' hw => rw [List.length_append] at h; omega
  | succ n ih =>
    intro t d h
    by_cases hl : t.length < m
    · rw [blocks_short hl, hf]
      refine ⟨fun h' => .last _ _ hl h', fun h' => ?_⟩
      cases h' with
      | last _ _ _ h => exact h
      | more w rest d d' hw => simp at hl; omega
    · rw [blocks_long hm (by omega)]
      have ih' := fun d => ih (t.drop m) d (by simp; omega)
      constructor
      · intro h'
        split at h'
        · rename_i d1 d2 h1 h2
          cases h'
          rw [← List.take_append_drop m t]
          exact .more _ _ _ _ (by simp; omega) ((hf _ _).1 h1) ((ih' _).1 h2)
        · cases h'
      · intro h'
        cases h' with
        | last _ _ h => exact absurd h hl
        | more w rest d d' hw h1 h2 =>
          have e1 : (w ++ rest).take m = w := by rw [← hw]; exact List.take_left
          have e2 : (w ++ rest).drop m = rest := by rw [← hw]; exact List.drop_left
          have := (ih' d').2 (by rw [e2]; exact h2)
          rw [this, e1, (hf _ _).2 h1]

theorem blocks_append {m : Nat} (hm : 0 < m) {f : Bytes → Option Bytes} (hf : f [] = some []) : ∀ (k : Nat) (a b : Bytes), a.length = m * k →
    blocks m f (a ++ b) = match blocks m f a, blocks m f b with | some d, some d' => some (d ++ d') | _, _ => none
  | 0, a, b, h => by
    have : a = [] := List.length_eq_zero_iff.1 (by simpa using h)
    subst this
    rw [List.nil_append, blocks_short (t := []) (by simpa using hm), hf]
    cases blocks m f b <;> rfl
  | k + 1, a, b, h => by
    rw [Nat.mul_succ] at h
    rw [blocks_long hm (t := a ++ b) (by simp; omega), blocks_long hm (t := a) (by omega), List.take_append_of_le_length (by omega),
      List.drop_append_of_le_length (by omega), blocks_append hm hf k (a.drop m) b (by simp; omega)]
    cases f (a.take m) with
    | none => rfl
    | some d =>
      cases blocks m f (a.drop m) with
      | none => rfl
      | some d1 =>
        cases blocks m f b with
        | none => rfl
        | some d2 => simp

/-- What one call of the array parser makes of the text of an array. -/
def win : Impl → Bytes → Option Bytes
  | .portable => parseCols
  | .avx2 | .neon => blocks 48 vecCols

/-- Array text read in windows. -/
def colBlocks : Impl → Bytes → Option Bytes
  | .portable => blocks 192 parseCols
  | .avx2 | .neon => blocks 48 vecCols

theorem colBlocks_iff (I : Impl) (t d : Bytes) : colBlocks I t = some d ↔ Windows I t d := by
  have hv : ∀ t d, vecCols t = some d ↔ VecColumns t d := fun t d => vecCols_iff _ t d (Nat.le_refl _)
  cases I
  · exact blocks_iff (by decide) parseCols_iff _ t d (Nat.le_refl _)
  · exact blocks_iff (by decide) hv _ t d (Nat.le_refl _)
  · exact blocks_iff (by decide) hv _ t d (Nat.le_refl _)

theorem colBlocks_short (I : Impl) {t : Bytes} (h : t.length < 192) : colBlocks I t = win I t := by
  cases I
  · exact blocks_short h
  · rfl
  · rfl

theorem colBlocks_long (I : Impl) {t : Bytes} (h : 192 ≤ t.length) :
    colBlocks I t = match win I (t.take 192), colBlocks I (t.drop 192) with | some d, some d' => some (d ++ d') | _, _ => none := by
  have hv : blocks 48 vecCols t = match blocks 48 vecCols (t.take 192), blocks 48 vecCols (t.drop 192) with | some d, some d' => some (d ++ d') | _, _ => none := by
    rw [← blocks_append (by decide) vecCols_nil 4 _ _ (by simp; omega), List.take_append_drop]
  cases I
  · exact blocks_long (by decide) h
  · exact hv
  · exact hv

theorem win_nil (I : Impl) : win I [] = some [] := by
  cases I
  · rfl
  · exact blocks_short (by decide)
  · exact blocks_short (by decide)

theorem Impl.body_tail (I : Impl) (b rest : Bytes) (hb : 10 ∉ b) : I.body true (b ++ 10 :: rest) = some ((min b.length WINDOW, 0), []) := by
  cases I
  · exact parseHexBody_tail b rest hb
  · exact (Avx2.parseBody_eq _ _).trans (refBody_tail b rest hb)
  · exact (Neon.parseBody_eq _ _).trans (refBody_tail b rest hb)

theorem Impl.body_cols (I : Impl) (b rest : Bytes) (hb : 10 ∉ b) :
    I.body false (b ++ 10 :: rest) =
      match win I ((upTo b).take WINDOW) with
      | none => none
      | some d => some ((min b.length WINDOW, min (upTo b).length WINDOW), d) := by
  cases I
  · exact parseHexBody_cols b rest hb
  · exact (Avx2.parseBody_eq _ _).trans (refBody_cols b rest hb)
  · exact (Neon.parseBody_eq _ _).trans (refBody_cols b rest hb)

theorem Impl.single_eq (I : Impl) (src : Bytes) (h : 16 ≤ src.length) : I.single src = parseHexSingle src := by
  cases I
  · rfl
  · exact Avx2.parseSingle_eq src h
  · exact Neon.parseSingle_eq src h

/-! ### What a call of the array parser depends on -/

theorem simdChunks_local {find find' : Nat → Byte → Nat} {multi multi' : Nat → Nat → Option Bytes} {P : Nat}
    (hf : ∀ p c, p + 48 ≤ P → find p c = find' p c) (hle : ∀ p c, find' p c ≤ 48) (hm : ∀ p n, p + 48 ≤ P → n ≤ 16 → multi p n = multi' p n) :
    ∀ (n p : Nat) (tl : Bool) (s q : Nat) (d : Bytes), p + 48 * n ≤ P →
    simdChunks find multi n p tl s q d = simdChunks find' multi' n p tl s q d
  | 0, _, _, _, _, _, _ => rfl
  | n + 1, p, tl, s, q, d, hp => by
    have ih := fun tl s q d => simdChunks_local hf hle hm n (p + 48) tl s q d (by omega)
    have h1 := hle p 10
    have h2 := hle p 124
    unfold simdChunks
    simp only [hf p _ (show p + 48 ≤ P by omega), ih]
    rw [hm p _ (by omega) (by omega)]

theorem refFind_congr {c c' : Nat → Byte} (h : ∀ i < 48, c i = c' i) (x : Byte) : refFind c x = refFind c' x := by
  obtain ⟨h1, h2, h3⟩ := refFind_spec c' x
  exact refFind_unique h1 (fun j hj => by rw [h j (by omega)]; exact h2 j hj) fun hlt => by rw [h _ hlt]; exact h3 hlt

theorem refBody_local {src src' : Bytes} (h : src.take WINDOW = src'.take WINDOW) (isInTail : Bool) : refBody isInTail src = refBody isInTail src' := by
  have hc : ∀ p i, p + 48 ≤ WINDOW → i < 48 → chunk src p i = chunk src' p i := by
    intro p i hp hi
    have : ∀ l : Bytes, l.getD (p + i) 0 = (l.take WINDOW).getD (p + i) 0 := fun l => by
      rw [List.getD_eq_getElem?_getD, List.getD_eq_getElem?_getD, List.getElem?_take_of_lt (by omega)]
    unfold chunk
    rw [this src, this src', h]
  exact simdChunks_local (P := WINDOW) (fun p c hp => refFind_congr (fun i hi => hc p i hp hi) c) (fun p c => (refFind_spec _ c).1)
    (fun p n hp hn => refMulti_congr n _ _ fun i hi => hc p i hp (by omega)) 4 0 isInTail 0 0 [] (by decide)

/-- A call of the array parser depends on one window of the text only. -/
theorem Impl.body_local (I : Impl) {src src' : Bytes} (h : src.take WINDOW = src'.take WINDOW) (isInTail : Bool) : I.body isInTail src = I.body isInTail src' := by
  cases I
  · show parseHexBody isInTail src = parseHexBody isInTail src'
    have ht : ∀ (l : Bytes) (p q : Byte → Bool), l.take (min ((l.take WINDOW).findIdx p) ((l.take WINDOW).findIdx q)) =
        (l.take WINDOW).take (min ((l.take WINDOW).findIdx p) ((l.take WINDOW).findIdx q)) := fun l p q => by
      have := List.findIdx_le_length (p := q) (xs := l.take WINDOW)
      simp only [List.length_take] at this
      rw [List.take_take, Nat.min_eq_left (b := WINDOW) (by omega)]
    unfold parseHexBody
    dsimp only
    rw [ht src, ht src', h]
  · show Avx2.parseBody _ _ = Avx2.parseBody _ _
    rw [Avx2.parseBody_eq, Avx2.parseBody_eq, refBody_local h]
  · show Neon.parseBody _ _ = Neon.parseBody _ _
    rw [Neon.parseBody_eq, Neon.parseBody_eq, refBody_local h]

theorem refMulti_length : ∀ (n : Nat) (c : Nat → Byte) (d : Bytes), refMulti n c = some d → d.length ≤ n
  | 0, _, _, h => by cases h; simp
  | n + 1, c, d, h => by
    unfold refMulti at h
    split at h
    · split at h
      · cases h
      · rename_i d' hd
        have := refMulti_length n _ _ hd
        cases h
        split <;> simp; omega
    · cases h

theorem simdChunks_length {find : Nat → Byte → Nat} {multi : Nat → Nat → Option Bytes} (hm : ∀ p n d, multi p n = some d → d.length ≤ n)
    (hle : ∀ p c, find p c ≤ 48) : ∀ (n p : Nat) (tl : Bool) (s q : Nat) (d : Bytes) (x : Nat × Nat) (e : Bytes),
    simdChunks find multi n p tl s q d = some (x, e) → e.length ≤ d.length + 16 * n
  | 0, _, _, _, _, _, _, _, h => by cases h; simp
  | n + 1, p, tl, s, q, d, x, e, h => by
    have h1 := hle p 10
    unfold simdChunks at h
    simp only at h
    split at h
    · split at h
      · cases h; omega
      · have := simdChunks_length hm hle n _ _ _ _ _ _ _ h; omega
    · split at h
      · cases h
      · rename_i e' he
        have := hm _ _ _ he
        split at h
        · cases h; simp; omega
        · have := simdChunks_length hm hle n _ _ _ _ _ _ _ h
          simp at this; omega

theorem simdChunks_scanned {find : Nat → Byte → Nat} {multi : Nat → Nat → Option Bytes} (hle : ∀ p c, find p c ≤ 48) :
    ∀ (n p : Nat) (tl : Bool) (s q : Nat) (d : Bytes) (a b : Nat) (e : Bytes), simdChunks find multi n p tl s q d = some ((a, b), e) → a ≤ s + 48 * n
  | 0, _, _, _, _, _, _, _, _, h => by cases h; simp
  | n + 1, p, tl, s, q, d, a, b, e, h => by
    have h1 := hle p 10
    unfold simdChunks at h
    simp only at h
    split at h
    · split at h
      · cases h; omega
      · have := simdChunks_scanned hle n _ _ _ _ _ _ _ _ h; omega
    · split at h
      · cases h
      · split at h
        · cases h; omega
        · have := simdChunks_scanned hle n _ _ _ _ _ _ _ _ h; omega

theorem Impl.body_scanned (I : Impl) {isInTail : Bool} {src : Bytes} {a b : Nat} {d : Bytes} (h : I.body isInTail src = some ((a, b), d)) : a ≤ 192 := by
  have hr : refBody isInTail src = some ((a, b), d) → a ≤ 192 := fun h => by
    have := simdChunks_scanned (fun p c => (refFind_spec _ c).1) _ _ _ _ _ _ _ _ _ h
    simpa using this
  cases I
  · change parseHexBody isInTail src = some ((a, b), d) at h
    have h2 : ∀ q : Byte → Bool, (src.take WINDOW).findIdx q ≤ 192 := fun q =>
      Nat.le_trans List.findIdx_le_length (by rw [List.length_take]; exact Nat.min_le_left _ _)
    unfold parseHexBody at h
    simp only at h
    split at h
    · cases h; exact h2 _
    · split at h
      · cases h
      · cases h; exact h2 _
  · exact hr ((Avx2.parseBody_eq _ _).symm.trans h)
  · exact hr ((Neon.parseBody_eq _ _).symm.trans h)

theorem columns_length {t d : Bytes} (h : Columns t d) : 3 * d.length ≤ t.length + 1 := by
  induction h with
  | nil => simp
  | stray => simp
  | blank => simp
  | last => simp
  | col a b x y rest d h1 h2 _ ih => simp only [List.length_cons]; omega

theorem Impl.body_length (I : Impl) {isInTail : Bool} {src : Bytes} {x : Nat × Nat} {d : Bytes} (h : I.body isInTail src = some (x, d)) : d.length ≤ 64 := by
  have hr : refBody isInTail src = some (x, d) → d.length ≤ 64 := fun h => by
    have := simdChunks_length (fun p n d h => refMulti_length n _ d h) (fun p c => (refFind_spec _ c).1) _ _ _ _ _ _ _ _ h
    simpa using this
  cases I
  · change parseHexBody isInTail src = some (x, d) at h
    unfold parseHexBody at h
    simp only at h
    split at h
    · cases h; simp
    · split at h
      · cases h
      · rename_i d' hd
        cases h
        have := columns_length ((parseCols_iff _ _).1 hd)
        have h2 : ∀ q : Byte → Bool, (src.take WINDOW).findIdx q ≤ 192 := fun q =>
          Nat.le_trans List.findIdx_le_length (by rw [List.length_take]; exact Nat.min_le_left _ _)
        rw [List.length_take] at this
        have h3 : ∀ (m : Nat) (q : Byte → Bool), 3 * d.length ≤ min (min m ((src.take WINDOW).findIdx q)) src.length + 1 → d.length ≤ 64 := fun m q h => by
          have := h2 q
          omega
        exact h3 _ _ this
  · exact hr ((Avx2.parseBody_eq _ _).symm.trans h)
  · exact hr ((Neon.parseBody_eq _ _).symm.trans h)

/-- Fields are read alike in every build. -/
theorem Field.parse_eq (I : Impl) (f : Field) (src : Bytes) (h : 16 ≤ src.length) : f.parse I src = f.parse .portable src := by
  cases f
  · exact I.single_eq src h
  · rfl

namespace TextParser

/-- The bytes of the rest `b` of a line. -/
def dataOf (I : Impl) (isInTail : Bool) (b : Bytes) : Option Bytes := if isInTail then some [] else colBlocks I (upTo b)

theorem readBlocks_spec (I : Impl) (len : Nat) (rest : Bytes) : ∀ (fuel : Nat) (b : Bytes) (remLen : Nat) (isInTail : Bool) (buf : Bytes),
    10 ∉ b → b.length ≤ remLen → remLen ≤ len → remLen < fuel * WINDOW →
    (dataOf I isInTail b = none ∧
      afterBlocks I.body len (readBlocks I.body len fuel (b ++ 10 :: rest) remLen isInTail buf) = none) ∨
    ∃ d tl, dataOf I isInTail b = some d ∧
      afterBlocks I.body len (readBlocks I.body len fuel (b ++ 10 :: rest) remLen isInTail buf) =
        some (len - (remLen - b.length), tl, decide (b.length < remLen), false, buf ++ d)
  | 0, b, remLen, isInTail, buf, _, _, _, h => by simp at h
  | fuel + 1, b, remLen, isInTail, buf, hb, hle, hlen, hf => by
    have hW : WINDOW = 192 := rfl
    unfold readBlocks
    by_cases hr : remLen ≥ WINDOW
    · simp only [if_pos hr]
      -- what the window yields
      have hwin : (dataOf I isInTail b = none ∧ (I.body isInTail (b ++ 10 :: rest) = none ∨
            ∃ p d1, I.body isInTail (b ++ 10 :: rest) = some ((WINDOW, p), d1) ∧ WINDOW ≤ b.length ∧ dataOf I (decide (p < WINDOW)) (b.drop WINDOW) = none)) ∨
          ∃ p d1, I.body isInTail (b ++ 10 :: rest) = some ((min b.length WINDOW, p), d1) ∧
            ((b.length < WINDOW ∧ dataOf I isInTail b = some d1) ∨
              (WINDOW ≤ b.length ∧ ∃ d2, dataOf I (decide (p < WINDOW)) (b.drop WINDOW) = some d2 ∧ dataOf I isInTail b = some (d1 ++ d2))) := by
        cases isInTail with
        | true =>
          right
          refine ⟨0, [], I.body_tail b rest hb, ?_⟩
          by_cases h : b.length < WINDOW
          · left; exact ⟨h, rfl⟩
          · right; exact ⟨by omega, [], rfl, rfl⟩
        | false =>
          have hul := upTo_length_le b
          rw [I.body_cols b rest hb]
          simp only [dataOf, Bool.false_eq_true, if_false]
          by_cases h : (upTo b).length < 192
          · rw [colBlocks_short I h, List.take_of_length_le (by omega)]
            cases hp : win I (upTo b) with
            | none => left; exact ⟨rfl, Or.inl rfl⟩
            | some d =>
              right
              refine ⟨_, d, rfl, ?_⟩
              by_cases h2 : b.length < WINDOW
              · left; exact ⟨h2, rfl⟩
              · right; refine ⟨by omega, [], ?_, by rw [List.append_nil]⟩
                rw [if_pos (by simp; omega)]
          · rw [colBlocks_long I (by omega)]
            have hdrop : upTo (b.drop WINDOW) = (upTo b).drop 192 := upTo_drop b 192 (by omega)
            have hp : decide (min (upTo b).length WINDOW < WINDOW) = false := by simp; omega
            have hm : min b.length WINDOW = WINDOW := by omega
            rw [show WINDOW = 192 from rfl] at hdrop hp hm ⊢
            cases hp1 : win I ((upTo b).take 192) with
            | none => left; exact ⟨rfl, Or.inl rfl⟩
            | some d =>
              cases hp2 : colBlocks I ((upTo b).drop 192) with
              | none =>
                left
                refine ⟨rfl, Or.inr ⟨_, d, by rw [hm], by omega, ?_⟩⟩
                simp only [hp, Bool.false_eq_true, if_false, hdrop, hp2]
              | some d2 =>
                right
                refine ⟨_, d, rfl, Or.inr ⟨by omega, d2, ?_, rfl⟩⟩
                simp only [hp, Bool.false_eq_true, if_false, hdrop, hp2]
      rcases hwin with ⟨hn, hp | ⟨p, d1, hp, hl, hn2⟩⟩ | ⟨p, d1, hp, ⟨hl, hd⟩ | ⟨hl, d2, hd2, hd⟩⟩
      · left; exact ⟨hn, by simp only [hp, afterBlocks]⟩
      · left
        refine ⟨hn, ?_⟩
        have hdrop : (b ++ 10 :: rest).drop WINDOW = b.drop WINDOW ++ 10 :: rest := List.drop_append_of_le_length hl
        rcases readBlocks_spec I len rest fuel (b.drop WINDOW) (remLen - WINDOW) (decide (p < WINDOW)) (buf ++ d1)
            (fun h => hb (List.mem_of_mem_drop h)) (by simp; omega) (by omega) (by rw [Nat.succ_mul] at hf; omega) with ⟨_, h⟩ | ⟨d, tl, h, _⟩
        · simp only [hp, Nat.lt_irrefl, if_false, hdrop]; exact h
        · rw [hn2] at h; cases h
      · right
        refine ⟨d1, isInTail, hd, ?_⟩
        have hm : min b.length WINDOW = b.length := by omega
        simp only [hp, hm, if_pos hl, afterBlocks]
        rw [show decide (b.length < remLen) = true by simp; omega]
      · right
        have hm : min b.length WINDOW = WINDOW := by omega
        have hdrop : (b ++ 10 :: rest).drop WINDOW = b.drop WINDOW ++ 10 :: rest := List.drop_append_of_le_length hl
        rcases readBlocks_spec I len rest fuel (b.drop WINDOW) (remLen - WINDOW) (decide (p < WINDOW)) (buf ++ d1)
            (fun h => hb (List.mem_of_mem_drop h)) (by simp; omega) (by omega) (by rw [Nat.succ_mul] at hf; omega) with ⟨h, _⟩ | ⟨d, tl, h, h'⟩
        · rw [hd2] at h; cases h
        · rw [hd2] at h; cases h
          refine ⟨d1 ++ d2, tl, hd, ?_⟩
          simp only [hp, hm, Nat.lt_irrefl, if_false, hdrop]
          rw [h', List.append_assoc, List.length_drop]
          rw [show remLen - WINDOW - (b.length - WINDOW) = remLen - b.length by omega,
            show decide (b.length - WINDOW < remLen - WINDOW) = decide (b.length < remLen) by
              rw [decide_eq_decide]; omega]
    · rw [if_neg hr]
      simp only [afterBlocks, readTail]
      by_cases h0 : remLen > 0
      · rw [if_pos h0]
        have hm : min b.length WINDOW = b.length := by omega
        cases isInTail with
        | true =>
          right
          rw [I.body_tail b rest hb]
          refine ⟨[], decide (0 < remLen), rfl, ?_⟩
          simp only [Nat.not_lt_zero, gt_iff_lt, if_false, hm]
          rw [show decide (0 < remLen - b.length) = decide (b.length < remLen) by rw [decide_eq_decide]; omega]
        | false =>
          have hul := upTo_length_le b
          have hlt : (upTo b).length < 192 := by omega
          rw [I.body_cols b rest hb]
          simp only [dataOf, Bool.false_eq_true, if_false]
          rw [colBlocks_short I hlt, List.take_of_length_le (by omega)]
          cases hp : win I (upTo b) with
          | none => left; exact ⟨rfl, rfl⟩
          | some d =>
            right
            refine ⟨d, decide (min (upTo b).length WINDOW < remLen), rfl, ?_⟩
            simp only [hm]
            rw [if_neg (by omega)]
            rw [show decide (remLen - b.length > 0) = decide (b.length < remLen) by rw [decide_eq_decide]; omega]
      · rw [if_neg h0]
        have : b = [] := List.length_eq_zero_iff.1 (by omega)
        subst this
        right
        refine ⟨[], isInTail, ?_, ?_⟩
        · cases isInTail
          · simp only [dataOf, Bool.false_eq_true, if_false, upTo, List.takeWhile_nil]
            rw [colBlocks_short I (by simp), win_nil]
          · rfl
        · have : remLen = 0 := by omega
          subst this
          simp

theorem readBody_spec (I : Impl) (b rest : Bytes) (len : Nat) (isInTail : Bool) (hb : 10 ∉ b) (hle : b.length ≤ len) :
    (dataOf I isInTail b = none ∧ readBody I.body (b ++ 10 :: rest) len isInTail = none) ∨
    ∃ d tl, dataOf I isInTail b = some d ∧
      readBody I.body (b ++ 10 :: rest) len isInTail = some (b.length, tl, decide (b.length < len), false, d) := by
  have := readBlocks_spec I len rest (len / WINDOW + 1) b len isInTail [] hb hle (Nat.le_refl _)
    (by have : WINDOW = 192 := rfl
        rw [this]; omega)
  rw [show len - (len - b.length) = b.length by omega] at this
  simpa only [readBody, List.nil_append] using this

theorem bodyLoop_spec (I : Impl) (b rest : Bytes) (len fuel : Nat) (isInTail : Bool) (hb : 10 ∉ b) (hle : b.length ≤ len) (hf : 2 ≤ fuel ∨ len = 0) :
    (dataOf I isInTail b = none ∧ 0 < len ∧ bodyLoop I.body fuel (b ++ 10 :: rest) len isInTail [] = none) ∨
    ∃ d tl, dataOf I isInTail b = some d ∧
      bodyLoop I.body fuel (b ++ 10 :: rest) len isInTail [] = some (len - b.length - 1, tl, decide (b.length < len), d) := by
  by_cases h0 : len = 0
  · subst h0
    have : b = [] := List.length_eq_zero_iff.1 (by omega)
    subst this
    right
    refine ⟨[], isInTail, ?_, ?_⟩
    · cases isInTail
      · simp only [dataOf, Bool.false_eq_true, if_false, upTo, List.takeWhile_nil]
        rw [colBlocks_short I (by simp), win_nil]
      · rfl
    · cases fuel <;> simp [bodyLoop]
  · obtain ⟨k, rfl⟩ : ∃ k, fuel = k + 2 := ⟨fuel - 2, by omega⟩
    unfold bodyLoop
    rw [if_pos (by omega)]
    rcases readBody_spec I b rest len isInTail hb hle with ⟨h1, h2⟩ | ⟨d, tl, h1, h2⟩
    · left; exact ⟨h1, by omega, by simp only [h2]⟩
    · right
      refine ⟨d, tl, h1, ?_⟩
      simp only [h2, Bool.false_eq_true, if_false, List.nil_append]
      by_cases hlt : b.length < len
      · rw [show decide (b.length < len) = true by simp [hlt]]
        simp
      · rw [show decide (b.length < len) = false by simp; omega]
        simp only [Bool.false_eq_true, if_false]
        unfold bodyLoop
        have h3 : len - b.length = 0 := by omega
        rw [h3, if_neg (by omega)]

end TextParser
end Nd
