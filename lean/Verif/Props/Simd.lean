import Verif.Props.Text
/-!
# The vectorised builds (C34, C35)

`src/text/parser/x86_64.rs` and `src/text/parser/aarch64.rs` replace the portable parsers on machines with AVX2 and NEON.
Every theorem of `Verif/Props/Text.lean` holds for each of the three builds; here is what the builds have in common
and where they differ.
-/
namespace Nd.Props
open Nd Nd.Spec TextParser Format

/-! ## C34 -/

/-- **C34**: the number parser of every build reads the same texts: at most fifteen hexadecimal digits followed by a space, a colon or a
line break; everything else is rejected. -/
theorem C34_number_exact (I : Impl) (src : Bytes) (h : 16 ≤ src.length) (v n : Nat) :
    I.single src = some (v, n) ↔
      ∃ s c rest ds, src = s ++ c :: rest ∧ Blank c ∧ Digits hexVal s ds ∧ s.length ≤ 15 ∧ v = number 16 ds ∧ n = s.length := by
  rw [I.single_eq src h]
  have key : ∀ (k : Nat) (src : Bytes) (acc i : Nat), parseHexGo acc i (src.take k) = some (v, n) ↔
      ∃ s c rest ds, src = s ++ c :: rest ∧ Blank c ∧ Digits hexVal s ds ∧ s.length + 1 ≤ k ∧ v = ds.foldl (fun a d => a * 16 + d) acc ∧ n = i + s.length := by
    intro k
    induction k with
    | zero => intro src acc i; simp [parseHexGo]
    | succ k ih =>
      intro src acc i
      cases src with
      | nil => simp [parseHexGo]
      | cons x src =>
        rw [List.take_succ_cons, parseHexGo]
        by_cases hd : x = 32 ∨ x = 10 ∨ x = 58
        · have hb : Blank x := by rcases hd with h | h | h <;> simp [Blank, h]
          rw [if_pos hd]
          simp only [Option.some.injEq, Prod.mk.injEq]
          constructor
          · rintro ⟨rfl, rfl⟩
            exact ⟨[], x, src, [], rfl, hb, rfl, by simp, rfl, by simp⟩
          · rintro ⟨s, c, rest, ds, h1, h2, h3, h4, h5, h6⟩
            cases s with
            | nil =>
              have : ds = [] := by cases ds with | nil => rfl | cons => simp [Digits] at h3
              subst this
              exact ⟨h5.symm, h6.symm⟩
            | cons y s =>
              simp only [List.cons_append, List.cons.injEq] at h1
              obtain ⟨rfl, _⟩ := h1
              cases ds with
              | nil => simp [Digits] at h3
              | cons d ds =>
                simp only [Digits, List.map_cons, List.cons.injEq] at h3
                exact absurd hb (hex_not_blank h3.1)
        · have hb : ¬ Blank x := fun h => hd (by rcases h with h | h | h <;> simp [h])
          rw [if_neg hd]
          cases hv : hexVal x with
          | none =>
            have : isValidHex x = false := by rw [isValidHex_iff, hv]; rfl
            simp only [this, Bool.not_false, if_true, reduceCtorEq, false_iff]
            rintro ⟨s, c, rest, ds, h1, h2, h3, h4, h5, h6⟩
            cases s with
            | nil => cases h1; exact hb h2
            | cons y s =>
              simp only [List.cons_append, List.cons.injEq] at h1
              obtain ⟨rfl, _⟩ := h1
              cases ds with
              | nil => simp [Digits] at h3
              | cons d ds => simp only [Digits, List.map_cons, List.cons.injEq, hv, reduceCtorEq, false_and] at h3
          | some u =>
            have : isValidHex x = true := by rw [isValidHex_iff, hv]; rfl
            obtain ⟨hu, hux⟩ := toHex_val x u hv
            have hun : (toHex x).toNat = u := by rw [hux]; simp; omega
            simp only [this, Bool.not_true, Bool.false_eq_true, if_false, hun]
            rw [ih]
            constructor
            · rintro ⟨s, c, rest, ds, h1, h2, h3, h4, h5, h6⟩
              refine ⟨x :: s, c, rest, u :: ds, by rw [h1]; rfl, h2, ?_, by simp; omega, by simpa using h5, by simp; omega⟩
              simp only [Digits, List.map_cons, hv] at h3 ⊢
              rw [h3]
            · rintro ⟨s, c, rest, ds, h1, h2, h3, h4, h5, h6⟩
              cases s with
              | nil => cases h1; exact absurd h2 hb
              | cons y s =>
                simp only [List.cons_append, List.cons.injEq] at h1
                obtain ⟨rfl, h1⟩ := h1
                cases ds with
                | nil => simp [Digits] at h3
                | cons d ds =>
                  simp only [Digits, List.map_cons, List.cons.injEq, hv, Option.some.injEq] at h3
                  obtain ⟨rfl, h3⟩ := h3
                  simp only [List.length_cons] at h4 h6
                  exact ⟨s, c, rest, ds, h1, h2, h3, by omega, h5, by omega⟩
  unfold parseHexSingle
  rw [key 16 src 0 0]
  constructor
  · rintro ⟨s, c, rest, ds, h1, h2, h3, h4, h5, h6⟩
    exact ⟨s, c, rest, ds, h1, h2, h3, by omega, h5, by omega⟩
  · rintro ⟨s, c, rest, ds, h1, h2, h3, h4, h5, h6⟩
    exact ⟨s, c, rest, ds, h1, h2, h3, by omega, h5, by omega⟩

/-- **C34**: the builds agree on every text. -/
theorem C34_builds_agree (I I' : Impl) (src : Bytes) (h : 16 ≤ src.length) : I.single src = I'.single src := by
  apply Option.ext
  rintro ⟨v, n⟩
  rw [C34_number_exact I src h, C34_number_exact I' src h]

/-- `1F:` is the number 31; `1G ` is rejected; sixteen digits are too many. -/
example (I : Impl) : I.single ([49, 70, 58] ++ List.replicate 13 0) = some (31, 2) ∧ I.single ([49, 71, 32] ++ List.replicate 13 32) = none ∧
    I.single (List.replicate 16 49) = none := by
  cases I <;> exact ⟨by decide +kernel, by decide +kernel, by decide +kernel⟩

/-! ## C35 -/

/-- **C35**: a text of documented lines gives the same records in every build, whatever sizes `read()` returns. -/
theorem C35_documented_alike (I : Impl) (B fuel : Nat) (filler : Byte) (fo fs : Field) (text : Bytes) (sched : Nat → Option Nat)
    (hok : ∀ i, sched i ≠ none) (hB : 0 < B) (hf : text.length < fuel) (hs : ShortLines B text) (recs : List Rec)
    (hr : Reading (Line StrictColumns fo fs) (lines text) recs false) (n : Nat) (hn : recs.length < n) :
    readAll (fileParser I B fuel fo fs) n (openText B filler text sched) = (recs, none) := by
  have : ∀ (ls : List Bytes) (recs : List Rec) (b : Bool), Reading (Line StrictColumns fo fs) ls recs b → b = false → Reading (Line (Windows I) fo fs) ls recs b := by
    intro ls recs b h
    induction h with
    | nil => exact fun _ => .nil
    | bad l ls h => exact fun h => by cases h
    | good l ls r rs b hl _ ih => exact fun hb => .good l ls r rs b (hl.windows I) (ih hb)
  rcases C13_any_chunking I B fuel filler fo fs text sched hB hf hs recs false (this _ _ _ hr rfl) n hn with h | ⟨_, e, ⟨_, s', hm, i, hi⟩, _⟩
  · exact h
  · rw [List.mem_singleton.1 hm] at hi
    exact absurd hi (hok i)

/-- **C35**: the two vectorised builds read every text alike, including malformed ones. -/
theorem C35_vectorised_alike (B fuel : Nat) (filler : Byte) (fo fs : Field) (text : Bytes) (sched : Nat → Option Nat)
    (hok : ∀ i, sched i ≠ none) (hB : 0 < B) (hf : text.length < fuel) (hs : ShortLines B text) :
    ∃ N, ∀ n ≥ N, readAll (fileParser .avx2 B fuel fo fs) n (openText B filler text sched) = readAll (fileParser .neon B fuel fo fs) n (openText B filler text sched) := by
  obtain ⟨recs, bad, hr⟩ := reading_exists .avx2 fo fs (lines text) (lines_no_break _ text (Nat.le_refl _))
  refine ⟨recs.length + 1, fun n hn => ?_⟩
  have no : ∀ e, ¬ IoErr [sched] e := by
    rintro e ⟨_, s', hm, i, hi⟩
    rw [List.mem_singleton.1 hm] at hi
    exact hok i hi
  rcases C13_any_chunking .avx2 B fuel filler fo fs text sched hB hf hs recs bad hr n (by omega) with a | ⟨_, e, he, _⟩
  · rcases C13_any_chunking .neon B fuel filler fo fs text sched hB hf hs recs bad hr n (by omega) with b | ⟨_, e, he, _⟩
    · rw [a, b]
    · exact absurd he (no _)
  · exact absurd he (no _)

/-- What the vectorised builds accept in a block of sixteen columns beyond the documented form: complete columns, then up to two stray characters, or
a column of blanks (and then more columns, which are checked and ignored). -/
theorem C35_leniency {arr d : Bytes} (h : VecColumns arr d) :
    ∃ p g, arr = p ++ g ∧ StrictColumns p d ∧ (g.length ≤ 2 ∨ ∃ a b rest, g = a :: b :: rest ∧ Blank a ∧ Blank b) := by
  induction h with
  | short t h => exact ⟨[], t, rfl, .spaces 0, Or.inl (by omega)⟩
  | last a b x y t ha hb ht => exact ⟨[a, b], t, rfl, .last a b x y ha hb, Or.inl ht⟩
  | lastBlank a b t ha hb ht => exact ⟨[], _, rfl, .spaces 0, Or.inr ⟨a, b, t, rfl, ha, hb⟩⟩
  | col a b x y rest d ha hb _ _ ih =>
    obtain ⟨p, g, rfl, h1, h2⟩ := ih
    exact ⟨a :: b :: 32 :: p, g, rfl, .col a b x y p d ha hb h1, h2⟩
  | blank a b rest d ha hb _ _ _ => exact ⟨[], _, rfl, .spaces 0, Or.inr ⟨a, b, _, rfl, ha, hb⟩⟩

theorem columns_agree : ∀ {t d : Bytes}, Columns t d → ∀ {d' : Bytes}, VecColumns t d' → d = d' := by
  intro t d h
  have short : ∀ {t d : Bytes}, Columns t d → t.length ≤ 1 → d = [] := by
    intro t d h ht
    cases h <;> first | rfl | (simp at ht)
  have vshort : ∀ {t d : Bytes}, VecColumns t d → t.length ≤ 1 → d = [] := by
    intro t d h ht
    cases h <;> first | rfl | (simp at ht)
  induction h with
  | nil => intro d' h; exact (vshort h (by simp)).symm
  | stray c => intro d' h; exact (vshort h (by simp)).symm
  | blank rest =>
    intro d' h
    cases h with
    | short => rfl
    | last a b x y t ha hb ht => rw [hexVal_space] at ha; cases ha
    | lastBlank => rfl
    | col a b x y rest d ha => rw [hexVal_space] at ha; cases ha
    | blank => rfl
  | last a b x y ha hb =>
    intro d' h
    cases h with
    | short _ h => simp at h
    | last a b x' y' t ha' hb' ht => rw [ha] at ha'; rw [hb] at hb'; cases ha'; cases hb'; rfl
    | lastBlank a b t ha' => exact absurd ha' (hex_not_blank ha)
  | col a b x y rest d ha hb hc ih =>
    intro d' h
    cases h with
    | short _ h => simp at h
    | last a b x' y' t ha' hb' ht =>
      rw [ha] at ha'; rw [hb] at hb'; cases ha'; cases hb'
      rw [short hc (by simpa using ht)]
    | lastBlank a b t ha' => exact absurd ha' (hex_not_blank ha)
    | col a b x' y' rest d'' ha' hb' _ hc' =>
      rw [ha] at ha'; rw [hb] at hb'; cases ha'; cases hb'
      rw [ih hc']
    | blank a b rest d'' ha' => exact absurd ha' (hex_not_blank ha)

/-- **C35**: an array of at most sixteen columns that two builds accept is read as the same bytes. -/
theorem C35_same_bytes_partial (I I' : Impl) (arr d d' : Bytes) (hl : arr.length < 48) (h : Windows I arr d) (h' : Windows I' arr d') : d = d' := by
  obtain ⟨hp, hv⟩ := C12_short_arrays arr d
  obtain ⟨hp', hv'⟩ := C12_short_arrays arr d'
  have vv : VecColumns arr d → VecColumns arr d' → d = d' := by
    intro a b
    have a := (vecCols_iff _ arr d (Nat.le_refl _)).2 a
    have b := (vecCols_iff _ arr d' (Nat.le_refl _)).2 b
    rw [a] at b
    cases b; rfl
  have pp : Columns arr d → Columns arr d' → d = d' := by
    intro a b
    have a := (parseCols_iff arr d).2 a
    have b := (parseCols_iff arr d').2 b
    rw [a] at b
    cases b; rfl
  by_cases h1 : I = .portable
  · subst h1
    have a := (hp (by omega)).1 h
    by_cases h2 : I' = .portable
    · subst h2; exact pp a ((hp' (by omega)).1 h')
    · exact columns_agree a ((hv' hl I' h2).1 h')
  · have a := (hv hl I h1).1 h
    by_cases h2 : I' = .portable
    · subst h2; exact (columns_agree ((hp' (by omega)).1 h') a).symm
    · exact vv a ((hv' hl I' h2).1 h')

/-- An array that both kinds of build accept. -/
example (I : Impl) : Windows I [48, 48, 32, 49, 49, 32, 120] [0, 0x11] := by
  refine (colBlocks_iff I _ _).1 ?_
  cases I <;> decide +kernel

/-- **Counterexample** (the builds differ): `0 2 | 48 b1x` is an error in the portable build and two bytes in the others; `0 2 | 00    zz` is one byte in
the portable build and an error in the others; `0 2 | ::` is an error in the portable build and the empty array in the others; forty-eight spaces and `11` are the
empty array in the portable build and one byte in the others. -/
theorem C35_builds_counterexample (I : Impl) (h : I ≠ .portable) :
    readAll (fileParser .portable 2000 1000 .hex .hex) 5 (openText 2000 0 [48, 32, 50, 32, 124, 32, 52, 56, 32, 98, 49, 120] fun _ => some 2000) = ([], some .parse) ∧
    readAll (fileParser I 2000 1000 .hex .hex) 5 (openText 2000 0 [48, 32, 50, 32, 124, 32, 52, 56, 32, 98, 49, 120] fun _ => some 2000) = ([⟨0, 2, [0x48, 0xb1]⟩], none) ∧
    readAll (fileParser .portable 2000 1000 .hex .hex) 5 (openText 2000 0 [48, 32, 50, 32, 124, 32, 48, 48, 32, 32, 32, 32, 122, 122] fun _ => some 2000) = ([⟨0, 2, [0]⟩], none) ∧
    readAll (fileParser I 2000 1000 .hex .hex) 5 (openText 2000 0 [48, 32, 50, 32, 124, 32, 48, 48, 32, 32, 32, 32, 122, 122] fun _ => some 2000) = ([], some .parse) ∧
    readAll (fileParser .portable 2000 1000 .hex .hex) 5 (openText 2000 0 [48, 32, 50, 32, 124, 32, 58, 58] fun _ => some 2000) = ([], some .parse) ∧
    readAll (fileParser I 2000 1000 .hex .hex) 5 (openText 2000 0 [48, 32, 50, 32, 124, 32, 58, 58] fun _ => some 2000) = ([⟨0, 2, []⟩], none) ∧
    readAll (fileParser .portable 2000 1000 .hex .hex) 5 (openText 2000 0 ([48, 32, 50, 32, 124, 32] ++ List.replicate 48 32 ++ [49, 49]) fun _ => some 2000) = ([⟨0, 2, []⟩], none) ∧
    readAll (fileParser I 2000 1000 .hex .hex) 5 (openText 2000 0 ([48, 32, 50, 32, 124, 32] ++ List.replicate 48 32 ++ [49, 49]) fun _ => some 2000) = ([⟨0, 2, [0x11]⟩], none) := by
  refine ⟨by decide +kernel, ?_, by decide +kernel, ?_, by decide +kernel, ?_, by decide +kernel, ?_⟩
  all_goals
    cases I
    · exact absurd rfl h
    · decide +kernel
    · decide +kernel

/-! ### Loads stay within the lent bytes

The builds load 16 or 32 bytes for a number and 192 (NEON), 196 (AVX2) bytes for a window of the array, wherever the text ends.
The streams lend 256 bytes more than they report. -/

/-- **C35**: every call of the array parser gets at least 208 bytes: any other array parser that agrees on such texts gives the same result. -/
theorem C35_array_in_bounds (I : Impl) (body : Bool → Bytes → Option ((Nat × Nat) × Bytes)) (hbody : ∀ t src, 208 ≤ src.length → body t src = I.body t src) :
    ∀ (fuel : Nat) (stream : Bytes) (len : Nat) (isInTail : Bool) (buf : Bytes), len + 256 ≤ stream.length →
      bodyLoop body fuel stream len isInTail buf = bodyLoop I.body fuel stream len isInTail buf := by
  have hblocks : ∀ (len fuel : Nat) (stream : Bytes) (remLen : Nat) (isInTail : Bool) (buf : Bytes), remLen + 256 ≤ stream.length →
      readBlocks body len fuel stream remLen isInTail buf = readBlocks I.body len fuel stream remLen isInTail buf ∧
      ∀ st r t b, readBlocks I.body len fuel stream remLen isInTail buf = some (.inl (st, r, t, b)) → r + 256 ≤ st.length := by
    intro len fuel
    induction fuel with
    | zero => intro stream remLen isInTail buf h; exact ⟨rfl, fun st r t b hb => by cases hb; exact h⟩
    | succ fuel ih =>
      intro stream remLen isInTail buf h
      unfold readBlocks
      by_cases hr : remLen ≥ WINDOW
      · rw [if_pos hr, if_pos hr, hbody _ _ (by omega)]
        cases hb : I.body isInTail stream with
        | none => exact ⟨rfl, fun st r t b hb => by cases hb⟩
        | some x =>
          obtain ⟨⟨scanned, parsed⟩, d⟩ := x
          have hsc := I.body_scanned hb
          simp only
          by_cases hw : scanned < WINDOW
          · rw [if_pos hw, if_pos hw]
            exact ⟨rfl, fun st r t b hb => by cases hb⟩
          · rw [if_neg hw, if_neg hw]
            have hW : WINDOW = 192 := rfl
            exact ih _ _ _ _ (by rw [List.length_drop]; omega)
      · rw [if_neg hr, if_neg hr]
        exact ⟨rfl, fun st r t b hb => by cases hb; exact h⟩
  have hread : ∀ (stream : Bytes) (len : Nat) (isInTail : Bool), len + 256 ≤ stream.length → readBody body stream len isInTail = readBody I.body stream len isInTail := by
    intro stream len isInTail h
    obtain ⟨h1, h2⟩ := hblocks len (len / WINDOW + 1) stream len isInTail [] h
    unfold readBody
    rw [h1]
    cases hb : readBlocks I.body len (len / WINDOW + 1) stream len isInTail [] with
    | none => rfl
    | some x =>
      rcases x with ⟨st, r, t, b⟩ | x
      · have := h2 _ _ _ _ hb
        simp only [afterBlocks, readTail]
        rw [hbody _ _ (by omega)]
      · rfl
  have hfwd : ∀ (stream : Bytes) (len : Nat) (isInTail : Bool) (fwd : Nat) (x : Bool × Bool × Bool × Bytes), readBody I.body stream len isInTail = some (fwd, x) → fwd ≤ len := by
    intro stream len isInTail fwd x h
    have hb : ∀ (fuel : Nat) (stream : Bytes) (remLen : Nat) (isInTail : Bool) (buf : Bytes) (fwd : Nat) (x : Bool × Bool × Bool × Bytes),
        readBlocks I.body len fuel stream remLen isInTail buf = some (.inr (fwd, x)) → fwd ≤ len := by
      intro fuel
      induction fuel with
      | zero => intro _ _ _ _ _ _ h; cases h
      | succ fuel ih =>
        intro stream remLen isInTail buf fwd x h
        unfold readBlocks at h
        split at h
        · split at h
          · cases h
          · simp only at h
            split at h
            · cases h; omega
            · exact ih _ _ _ _ _ _ h
        · cases h
    unfold readBody at h
    cases hr : readBlocks I.body len (len / WINDOW + 1) stream len isInTail [] with
    | none => rw [hr] at h; cases h
    | some y =>
      rw [hr] at h
      rcases y with ⟨st, r, t, b⟩ | ⟨fwd', y⟩
      · simp only [afterBlocks, readTail] at h
        split at h
        · split at h
          · cases h
          · split at h
            · cases h; omega
            · cases h; omega
        · cases h; omega
      · cases h
        exact hb _ _ _ _ _ _ _ hr
  intro fuel
  induction fuel with
  | zero => intros; rfl
  | succ fuel ih =>
    intro stream len isInTail buf h
    unfold bodyLoop
    rw [hread stream len isInTail h]
    split
    · split
      · rfl
      · rename_i hb
        have := hfwd _ _ _ _ _ hb
        simp only
        split
        · rfl
        · split
          · rfl
          · exact ih _ _ _ _ (by rw [List.length_drop]; omega)
    · rfl

/-- An array parser that refuses shorter texts. -/
example (I : Impl) (fuel : Nat) (text : Bytes) (isInTail : Bool) :
    bodyLoop (fun t src => if src.length < 208 then none else I.body t src) fuel (text ++ List.replicate 256 10) text.length isInTail [] =
      bodyLoop I.body fuel (text ++ List.replicate 256 10) text.length isInTail [] :=
  C35_array_in_bounds I _ (fun t src h => if_neg (by omega)) fuel _ _ isInTail [] (by rw [List.length_append, List.length_replicate]; exact Nat.le_refl _)

/-- **C35**: every call of a number parser gets at least 32 bytes (NEON loads that many), if the margin of the stream consists of line breaks. -/
theorem C35_number_in_bounds (I : Impl) (fo fs : Field) (po ps : Bytes → Option (Nat × Nat)) (ho : ∀ src, 32 ≤ src.length → po src = fo.parse I src)
    (hs : ∀ src, 32 ≤ src.length → ps src = fs.parse I src) (chunk margin : Bytes) (hm : 256 ≤ margin.length) (hn : ∀ c ∈ margin, c = 10) :
    readHead po ps (chunk ++ margin) = readHead (fo.parse I) (fs.parse I) (chunk ++ margin) := by
  unfold readHead
  rw [ho _ (by rw [List.length_append]; omega)]
  split
  · rfl
  · rename_i offset fwd1 _
    split
    · rfl
    · rename_i h
      simp only [ne_eq, Decidable.not_not] at h
      have hlt : fwd1 < chunk.length := by
        apply Nat.lt_of_not_le
        intro hle
        rw [List.getElem?_append_right hle] at h
        have := hn _ (List.mem_of_getElem? h)
        exact absurd this (by decide)
      rw [hs _ (by rw [List.length_drop, List.length_append]; omega)]

/-- Number parsers that refuse shorter texts. -/
example (I : Impl) (text : Bytes) :
    readHead (fun src => if src.length < 32 then none else I.single src) (fun src => if src.length < 32 then none else I.single src) (text ++ List.replicate 256 10) =
      readHead I.single I.single (text ++ List.replicate 256 10) :=
  C35_number_in_bounds I .hex .hex _ _ (fun src h => if_neg (by omega)) (fun src h => if_neg (by omega)) text _ (by rw [List.length_replicate]; exact Nat.le_refl _)
    fun c h => (List.mem_replicate.1 h).2

end Nd.Props
