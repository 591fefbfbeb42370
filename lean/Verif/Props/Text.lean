import Verif.Proof.Dump
/-!
# C10-C14: the text parser and formatter

A text file is read by `RawStream` with an arbitrary schedule of `read()` results; `B` is the block size
(2 MiB in release builds, for which the bound on the length of a line is 261921 characters).
-/
namespace Nd.Props
open Nd Nd.Spec TextParser Format

/-- `TextParser` reading a file, in a build of the program. -/
abbrev fileParser (I : Impl) (B fuel : Nat) (fo fs : Field) : RecSrc (Buffered Reader) := recSrc I (RawStream.byteSrc B fuel) B fuel fo fs

/-- The file before its first line is read. -/
abbrev openText (B : Nat) (filler : Byte) (text : Bytes) (sched : Nat → Option Nat) : Buffered Reader :=
  RawStream.new B (Reader.open text sched) 1 filler

/-- Every line is shorter than an eighth of a block (less the margin). -/
def ShortLines (B : Nat) (text : Bytes) : Prop := ∀ l ∈ lines text, l.length < (B - 1777) / 8

/-! ## C13 -/

/-- **C13**: whatever sizes `read()` returns and whatever the block size, reading a file whose lines are not
extremely long gives the records of its lines up to the first malformed one, which gives a parse error; if
`read()` fails, that error is reported after a prefix of the records. -/
theorem C13_any_chunking (I : Impl) (B fuel : Nat) (filler : Byte) (fo fs : Field) (text : Bytes) (sched : Nat → Option Nat)
    (hB : 0 < B) (hf : text.length < fuel) (hs : ShortLines B text) (recs : List Rec) (bad : Bool)
    (hr : Reading (Line (Windows I) fo fs) (lines text) recs bad) (n : Nat) (hn : recs.length < n) :
    readAll (fileParser I B fuel fo fs) n (openText B filler text sched) = (recs, if bad then some .parse else none) ∨
    ∃ pre e, IoErr [sched] e ∧ pre <+: recs ∧
      readAll (fileParser I B fuel fo fs) n (openText B filler text sched) = (pre, some e) := by
  obtain ⟨R, h, hR⟩ := file_roomy B fuel filler text sched hB hf
  exact readAll_spec h I fuel (by omega) fo fs n _ text recs bad hR hs hr hn

/-- **C13**: two readings of one text, with different block sizes and `read()` sizes, agree. -/
theorem C13_chunking_irrelevant (I : Impl) (B₁ B₂ fuel₁ fuel₂ : Nat) (filler : Byte) (fo fs : Field) (text : Bytes)
    (sched₁ sched₂ : Nat → Option Nat) (h₁ : ∀ i, sched₁ i ≠ none) (h₂ : ∀ i, sched₂ i ≠ none)
    (hB₁ : 0 < B₁) (hB₂ : 0 < B₂) (hf₁ : text.length < fuel₁) (hf₂ : text.length < fuel₂)
    (hs₁ : ShortLines B₁ text) (hs₂ : ShortLines B₂ text) :
    ∃ N, ∀ n ≥ N, readAll (fileParser I B₁ fuel₁ fo fs) n (openText B₁ filler text sched₁) =
      readAll (fileParser I B₂ fuel₂ fo fs) n (openText B₂ filler text sched₂) := by
  obtain ⟨recs, bad, hr⟩ := reading_exists I fo fs (lines text) (lines_no_break _ text (Nat.le_refl _))
  refine ⟨recs.length + 1, fun n hn => ?_⟩
  have no : ∀ (s : Nat → Option Nat) (e : Err), (∀ i, s i ≠ none) → ¬ IoErr [s] e := by
    rintro s e hs ⟨_, s', hm, i, hi⟩
    rw [List.mem_singleton.1 hm] at hi
    exact hs i hi
  rcases C13_any_chunking I B₁ fuel₁ filler fo fs text sched₁ hB₁ hf₁ hs₁ recs bad hr n (by omega) with a | ⟨_, e, he, _⟩
  · rcases C13_any_chunking I B₂ fuel₂ filler fo fs text sched₂ hB₂ hf₂ hs₂ recs bad hr n (by omega) with b | ⟨_, e, he, _⟩
    · rw [a, b]
    · exact absurd he (no _ _ h₂)
  · exact absurd he (no _ _ h₁)

/-- `0 3 | 00 11 22` -/
def sampleLine : Bytes := [48, 32, 51, 32, 124, 32, 48, 48, 32, 49, 49, 32, 50, 50]

/-- Two lines, the second malformed, read one byte at a time. -/
example (I : Impl) : readAll (fileParser I 2000 1000 .hex .hex) 5 (openText 2000 0 (sampleLine ++ [10, 120, 10]) fun _ => some 1) =
    ([⟨0, 3, [0, 0x11, 0x22]⟩], some .parse) ∧ ShortLines 2000 (sampleLine ++ [10, 120, 10]) :=
  ⟨by cases I <;> decide +kernel, by unfold ShortLines; decide⟩

/-- Without the bound on the line length the records do depend on the chunks: with a block of 13 bytes a
column is split, and its byte is lost without an error. -/
theorem C13_long_line_counterexample (I : Impl) :
    readAll (fileParser I 13 1000 .hex .hex) 5 (openText 13 0 sampleLine fun _ => some 13) = ([⟨0, 3, [0, 0x11]⟩], none) ∧
    readAll (fileParser I 13 1000 .hex .hex) 5 (openText 13 0 sampleLine fun _ => some 14) = ([⟨0, 3, [0, 0x11]⟩], none) ∧
    readAll (fileParser I 14 1000 .hex .hex) 5 (openText 14 0 sampleLine fun _ => some 14) = ([⟨0, 3, [0, 0x11, 0x22]⟩], none) := by
  cases I <;> exact ⟨by decide +kernel, by decide +kernel, by decide +kernel⟩

/-- **C13**: a chunk that ends within the array, with at least one more character of it visible behind the
chunk, is read up to its last whole column: nothing of a split column is decoded, and its characters are left to
be read again. -/
theorem C13_split_column (I : Impl) (data rest : Bytes) (len : Nat) (h0 : 0 < len) (h1 : len < 192) (h2 : len < 3 * data.length) :
    readBody I.body (hexBody data ++ 10 :: rest) len false = some (len / 3 * 3, false, false, true, data.take (len / 3)) := by
  have hl := hexBody_length data
  have hp := I.body_cols (hexBody data) rest (hexBody_text data).1
  have hu : upTo (hexBody data) = hexBody data := by
    simpa using upTo_append (t := []) (hexBody_text data).2 (Or.inl rfl)
  have htake : ∀ (n : Nat) (data : Bytes), (hexBody data).take (3 * n) = hexBody (data.take n) := by
    intro n
    induction n with
    | zero => intro data; rfl
    | succ n ih =>
      intro data
      cases data with
      | nil => rfl
      | cons x xs =>
        rw [hexBody_cons, show 3 * (n + 1) = 3 * n + 1 + 1 + 1 by omega]
        simp only [List.take_succ_cons, ih, hexBody_cons]
  have hpar : win I ((hexBody data).take (3 * 64)) = some (data.take 64) := by
    rw [htake]
    have := hexBody_strict 0 (data.take 64)
    rw [List.replicate_zero, List.append_nil] at this
    exact win_strict I this
  rw [hu, show WINDOW = 3 * 64 from rfl, hpar] at hp
  have hb : readBlocks I.body len (len / WINDOW + 1) (hexBody data ++ 10 :: rest) len false [] =
      some (.inl (hexBody data ++ 10 :: rest, len, false, [])) := by
    rw [readBlocks, if_neg (by unfold WINDOW; omega)]
  unfold readBody
  rw [hb]
  simp only [afterBlocks, readTail, hp, if_pos h0]
  rw [if_pos (by omega)]
  simp only [List.nil_append, List.take_take, List.length_take, hl, Option.some.injEq, Prod.mk.injEq, true_and]
  congr 1
  omega

example (I : Impl) : readBody I.body (hexBody [1, 2, 3] ++ 10 :: []) 7 false = some (6, false, false, true, [1, 2]) :=
  C13_split_column I [1, 2, 3] [] 7 (by decide) (by decide) (by decide)

/-- **C13**: lines longer than a chunk are continued in the next one if the chunks end between columns, also if
the last chunk reports the end, ends without a line break, or another line follows. -/
theorem C13_continued_line (I : Impl) :
    readAll (fileParser I 12 1000 .hex .hex) 5 (openText 12 0 sampleLine fun _ => some 12) = ([⟨0, 3, [0, 0x11, 0x22]⟩], none) ∧
    readAll (fileParser I 9 1000 .hex .hex) 5 (openText 9 0 (sampleLine ++ [10] ++ sampleLine) fun _ => some 9) =
      ([⟨0, 3, [0, 0x11, 0x22]⟩, ⟨0, 3, [0, 0x11, 0x22]⟩], none) ∧
    readAll (fileParser I 9 1000 .hex .hex) 5 (openText 9 0 (sampleLine ++ [10, 120]) fun _ => some 9) =
      ([⟨0, 3, [0, 0x11, 0x22]⟩], some .parse) ∧
    readAll (fileParser I 9 1000 .hex .hex) 5 (openText 9 0 (sampleLine ++ 32 :: hexBody (List.replicate 20 7)) fun _ => some 9) =
      ([⟨0, 3, [0, 0x11, 0x22] ++ List.replicate 20 7⟩], none) := by
  cases I <;> exact ⟨by decide +kernel, by decide +kernel, by decide +kernel, by decide +kernel⟩

/-! ## C12 -/

/-- **C12**: a line is accepted, and read as the record `r`, exactly if it has the form `Line (Windows I)`
(`Verif/Spec/Text.lean`); otherwise the result is a parse error and no bytes.  `read()` may return any sizes. -/
theorem C12_accepts_exactly (I : Impl) (B fuel : Nat) (filler : Byte) (fo fs : Field) (l : Bytes) (sched : Nat → Option Nat)
    (hok : ∀ i, sched i ≠ none) (hB : 0 < B) (hf : l.length + 1 < fuel) (hnl : 10 ∉ l) (hs : l.length < (B - 1777) / 8) :
    (∀ r, Line (Windows I) fo fs l r ↔ readAll (fileParser I B fuel fo fs) 2 (openText B filler (l ++ [10]) sched) = ([r], none)) ∧
    ((∀ r, ¬ Line (Windows I) fo fs l r) ↔ readAll (fileParser I B fuel fo fs) 2 (openText B filler (l ++ [10]) sched) = ([], some .parse)) := by
  have hl : lines (l ++ [10]) = [l] := by rw [lines_line l [] hnl]; rfl
  have no : ∀ e, ¬ IoErr [sched] e := by
    rintro e ⟨_, s', hm, i, hi⟩
    rw [List.mem_singleton.1 hm] at hi
    exact hok i hi
  have hs' : ShortLines B (l ++ [10]) := by
    unfold ShortLines; rw [hl]; simpa using hs
  have good : ∀ r, Line (Windows I) fo fs l r → readAll (fileParser I B fuel fo fs) 2 (openText B filler (l ++ [10]) sched) = ([r], none) := by
    intro r hr
    have hr' : Reading (Line (Windows I) fo fs) (lines (l ++ [10])) [r] false := by
      rw [hl]; exact .good _ _ _ _ _ hr .nil
    rcases C13_any_chunking I B fuel filler fo fs (l ++ [10]) sched hB (by simpa using hf) hs' [r] false hr' 2 (by simp) with h | ⟨_, e, he, _⟩
    · exact h
    · exact absurd he (no e)
  have bad : (∀ r, ¬ Line (Windows I) fo fs l r) → readAll (fileParser I B fuel fo fs) 2 (openText B filler (l ++ [10]) sched) = ([], some .parse) := by
    intro hno
    have hr' : Reading (Line (Windows I) fo fs) (lines (l ++ [10])) [] true := by
      rw [hl]; exact .bad _ _ hno
    rcases C13_any_chunking I B fuel filler fo fs (l ++ [10]) sched hB (by simpa using hf) hs' [] true hr' 2 (by simp) with h | ⟨_, e, he, _⟩
    · exact h
    · exact absurd he (no e)
  refine ⟨fun r => ⟨good r, fun h => ?_⟩, bad, fun h r hr => ?_⟩
  · by_cases hex : ∃ r', Line (Windows I) fo fs l r'
    · obtain ⟨r', hr'⟩ := hex
      have := good r' hr'
      rw [h] at this
      cases this
      exact hr'
    · have := bad fun r' hr' => hex ⟨r', hr'⟩
      rw [h] at this; cases this
  · rw [good r hr] at h; cases h

/-- **C12**: every line of the documented form is accepted with its documented meaning. -/
theorem C12_documented_accepted (I : Impl) {fo fs : Field} {l : Bytes} {r : Rec} (h : Line StrictColumns fo fs l r) : Line (Windows I) fo fs l r :=
  h.windows I

/-- Within 64 columns, or 16 in the vectorised builds, the windows play no role: the array is read as `Columns` or `VecColumns` says. -/
theorem C12_short_arrays (arr d : Bytes) : (arr.length < 192 → (Windows .portable arr d ↔ Columns arr d)) ∧
    (arr.length < 48 → ∀ I, I ≠ .portable → (Windows I arr d ↔ VecColumns arr d)) := by
  have key : ∀ n cols, arr.length < n → (Blocks n cols arr d ↔ cols arr d) := by
    intro n cols h
    constructor
    · intro hw
      cases hw with
      | last _ _ _ hc => exact hc
      | more w rest d d' hw _ _ => simp at h; omega
    · exact .last arr d h
  refine ⟨key 192 _, fun h I hI => ?_⟩
  cases I
  · exact absurd rfl hI
  · exact key 48 _ h
  · exact key 48 _ h

/-- What `Columns`, that is the portable build, accepts beyond the documented form: complete columns, then one stray character or two
spaces and anything. -/
theorem C12_leniency {arr d : Bytes} (h : Columns arr d) :
    ∃ p g, arr = p ++ g ∧ StrictColumns p d ∧ (g = [] ∨ g.length = 1 ∨ ∃ rest, g = 32 :: 32 :: rest) := by
  induction h with
  | nil => exact ⟨[], [], rfl, .spaces 0, Or.inl rfl⟩
  | stray c => exact ⟨[], [c], rfl, .spaces 0, Or.inr (Or.inl rfl)⟩
  | blank rest => exact ⟨[], _, rfl, .spaces 0, Or.inr (Or.inr ⟨rest, rfl⟩)⟩
  | last a b x y ha hb => exact ⟨[a, b], [], rfl, .last a b x y ha hb, Or.inl rfl⟩
  | col a b x y rest d ha hb _ ih =>
    obtain ⟨p, g, rfl, h1, h2⟩ := ih
    exact ⟨a :: b :: 32 :: p, g, rfl, .col a b x y p d ha hb h1, h2⟩

/-- Text that the documentation does not allow but the program accepts: a stray character (`00 11 x`), text
after a blank column (`00    zz`), an empty offset and length (a line with a single space); and after the
first 64 columns a blank column does not end the array. -/
theorem C12_lenient_counterexample :
    Columns [48, 48, 32, 49, 49, 32, 120] [0, 0x11] ∧ Columns [48, 48, 32, 32, 32, 32, 122, 122] [0] ∧
    (∀ I, Line (Windows I) .hex .hex [32] ⟨0, 0, []⟩) ∧
    Windows .portable (List.replicate 192 32 ++ [49, 49]) [0x11] := by
  refine ⟨.col 48 48 0 0 _ _ (by decide) (by decide) (.col 49 49 1 1 _ _ (by decide) (by decide) (.stray 120)),
    .col 48 48 0 0 _ _ (by decide) (by decide) (.blank _), ?_, ?_⟩
  · exact fun I => .header [] [] 0 0 ⟨[], by unfold Digits; rfl, by decide, rfl⟩ ⟨[], by unfold Digits; rfl, by decide, rfl⟩ rfl
  · exact Blocks.more _ _ [] [0x11] List.length_replicate (.blank _) (.last _ _ (by decide) (.last 49 49 1 1 (by decide) (by decide)))

/-- A line of letters is rejected; a documented line is accepted. -/
example (I : Impl) : (∀ r, ¬ Line (Windows I) .hex .hex [120, 121] r) ∧ Line StrictColumns .hex .hex sampleLine ⟨0, 3, [0, 0x11, 0x22]⟩ := by
  constructor
  · intro r hr
    have := (lineOf_iff I .hex .hex [120, 121] r (by decide)).2 hr
    revert this
    rw [show lineOf I .hex .hex [120, 121] = none by cases I <;> decide +kernel]
    simp
  · exact .array [48] [51] [48, 48, 32, 49, 49, 32, 50, 50] [] 0 3 _ ⟨[0], by unfold Digits; decide, by decide, by decide⟩
      ⟨[3], by unfold Digits; decide, by decide, by decide⟩
      (.col 48 48 0 0 _ _ (by decide) (by decide) (.col 49 49 1 1 _ _ (by decide) (by decide) (.last 50 50 2 2 (by decide) (by decide))))
      (by decide) (Or.inl rfl)

/-! ## C10 and C14 -/

/-- **C10**: one formatted line, for every content, offset and width: it is a documented line (without bytes
before its line break that end a line) and denotes the slice. -/
theorem C10_line (src : Bytes) (offset width : Nat) (h : src.length < 2 ^ 56) :
    ∃ l : Bytes, lineHhh src offset width = l ++ [10] ∧ 10 ∉ l ∧
      Line StrictColumns .hex .hex l { offset := offset % 2 ^ 48, span := src.length, data := src } :=
  lineHhh_spec src offset width h

/-- **C10**: behind the array a line shows the slice as characters, one for each byte: the byte itself if it is
a printable ASCII character, a full stop otherwise; so every line consists of printable characters. -/
theorem C10_mosaic (src : Bytes) (offset width : Nat) :
    ∃ mos : Bytes, (∃ head, lineHhh src offset width = head ++ [124, 32] ++ mos ++ List.replicate (width - src.length) 32 ++ [10]) ∧
      (∃ head, lineDdh src offset width = head ++ [124, 32] ++ mos ++ List.replicate (width - src.length) 32 ++ [10]) ∧
      mos.length = src.length ∧
      ∀ i (h : i < src.length) (h' : i < mos.length), mos[i] = if 0x20 ≤ src[i] ∧ src[i] ≤ 0x7e then src[i] else 46 := by
  refine ⟨mosaic src, ⟨_, by unfold lineHhh lineBody; simp only [← List.append_assoc]; rfl⟩,
    ⟨_, by unfold lineDdh lineBody; simp only [← List.append_assoc]; rfl⟩, mosaic_length src, fun i h h' => ?_⟩
  simp only [mosaic, List.getElem_map]
  generalize src[i] = x
  clear h h'
  revert x; apply forall_byte; decide +kernel

/-- **C10**: formatting slices with hexadecimal headers never aborts, and parsing the text gives back each
slice: its offset (modulo 2^48), its length and its bytes, for every content, minimum width and `read()` schedule. -/
theorem C10_hex_round_trip (I : Impl) (B fuel : Nat) (filler : Byte) (offset minWidth : Nat) (stream : Bytes) (segs : List Seg)
    (sched : Nat → Option Nat) (hok : ∀ i, sched i ≠ none) (hB : 0 < B)
    (hin : ∀ s ∈ segs, s.pos + s.len ≤ stream.length) (hl : ∀ s ∈ segs, s.len < 2 ^ 56)
    (hw : ∀ s ∈ segs, 47 + 4 * max s.len minWidth < (B - 1777) / 8) :
    ∃ text, segments .hhh offset minWidth stream segs = .ok text ∧
      ∀ n, segs.length < n → text.length < fuel →
        readAll (fileParser I B fuel .hex .hex) n (openText B filler text sched) =
          (segs.map (fun s => ⟨(offset + s.pos) % 2 ^ 48, s.len, (stream.drop s.pos).take s.len⟩), none) := by
  obtain ⟨text, h1, h2, h3⟩ := segments_spec .hhh (by decide) offset minWidth stream segs fun s hs => ⟨hin s hs, hl s hs⟩
  refine ⟨text, h1, fun n hn hf => ?_⟩
  have hr : Reading (Line (Windows I) .hex .hex) (lines text) (segs.map (recOf .hhh offset stream)) false := h2.windows I
  have hs : ShortLines B text := by
    intro l hl
    obtain ⟨s, hs, hle⟩ := h3 l hl
    exact Nat.lt_of_le_of_lt hle (hw s hs)
  rcases C13_any_chunking I B fuel filler .hex .hex text sched hB hf hs _ false hr n (by simpa using hn) with h | ⟨_, e, ⟨_, s', hm, i, hi⟩, _⟩
  · rw [h]; simp [recOf, Seg.bytes]
  · rw [List.mem_singleton.1 hm] at hi
    exact absurd hi (hok i)

/-- **C14**: the same with decimal headers, for every offset and length. -/
theorem C14_dec_round_trip (I : Impl) (B fuel : Nat) (filler : Byte) (offset minWidth : Nat) (stream : Bytes) (segs : List Seg)
    (sched : Nat → Option Nat) (hok : ∀ i, sched i ≠ none) (hB : 0 < B)
    (hin : ∀ s ∈ segs, s.pos + s.len ≤ stream.length) (hl : offset + stream.length < 2 ^ 64)
    (hw : ∀ s ∈ segs, 47 + 4 * max s.len minWidth < (B - 1777) / 8) :
    ∃ text, segments .ddh offset minWidth stream segs = .ok text ∧
      ∀ n, segs.length < n → text.length < fuel →
        readAll (fileParser I B fuel .dec .dec) n (openText B filler text sched) =
          (segs.map (fun s => ⟨offset + s.pos, s.len, (stream.drop s.pos).take s.len⟩), none) := by
  obtain ⟨text, h1, h2, h3⟩ := segments_spec .ddh (by decide) offset minWidth stream segs fun s hs =>
    ⟨hin s hs, by have := hin s hs; exact ⟨by omega, by omega⟩⟩
  refine ⟨text, h1, fun n hn hf => ?_⟩
  have hr : Reading (Line (Windows I) .dec .dec) (lines text) (segs.map (recOf .ddh offset stream)) false := h2.windows I
  have hs : ShortLines B text := by
    intro l hl
    obtain ⟨s, hs, hle⟩ := h3 l hl
    exact Nat.lt_of_le_of_lt hle (hw s hs)
  rcases C13_any_chunking I B fuel filler .dec .dec text sched hB hf hs _ false hr n (by simpa using hn) with h | ⟨_, e, ⟨_, s', hm, i, hi⟩, _⟩
  · rw [h]; simp [recOf, Seg.bytes]
  · rw [List.mem_singleton.1 hm] at hi
    exact absurd hi (hok i)

/-- Two overlapping slices of "a|\n", dumped at width 2. -/
example : segments .hhh 0x100 2 [0x61, 0x7c, 0x0a] [⟨0, 1⟩, ⟨0, 3⟩] = .ok
    ([48, 48, 48, 48, 48, 48, 48, 48, 48, 49, 48, 48, 32, 48, 48, 48, 49, 32, 124, 32, 54, 49, 32, 32, 32, 32, 124, 32, 97, 32, 10] ++
     [48, 48, 48, 48, 48, 48, 48, 48, 48, 49, 48, 48, 32, 48, 48, 48, 51, 32, 124, 32, 54, 49, 32, 55, 99, 32, 48, 97, 32, 124, 32, 97, 124, 46, 10]) ∧
    segments .ddh 1230 0 [0x61, 0x7c, 0x0a] [⟨1, 2⟩] = .ok
      [49, 50, 51, 49, 32, 50, 32, 124, 32, 55, 99, 32, 48, 97, 32, 124, 32, 124, 46, 10] := ⟨by decide +kernel, by decide +kernel⟩

/-- Offsets of 2^48 and above lose their upper bits. -/
theorem C10_offset_truncated_counterexample : segments .hhh (2 ^ 48) 0 [] [⟨0, 0⟩] = segments .hhh 0 0 [] [⟨0, 0⟩] := by decide +kernel

/-! ## C11 -/

theorem dump_yields (I : Impl) (B fuel minWidth : Nat) (filler : Byte) (stream : Bytes) (segs : List Seg) (sched : Nat → Option Nat)
    (hB : 0 < B) (ht : Tiles stream.length 0 segs) (hlen : stream.length < 2 ^ 48)
    (hw : ∀ s ∈ segs, 47 + 4 * max s.len minWidth < (B - 1777) / 8) (text : Bytes)
    (hd : segments .hhh 0 minWidth stream segs = .ok text) (hf : text.length < fuel) :
    Yields (fileParser I B fuel .hex .hex) (IoErr [sched]) false (openText B filler text sched) (segs.map (recOf .hhh 0 stream)) := by
  have hin := ht.le.2
  obtain ⟨text', h1, h2, h3⟩ := segments_spec .hhh (by decide) 0 minWidth stream segs fun s hs => ⟨hin s hs, by
    have := hin s hs
    show s.len < 2 ^ 56
    omega⟩
  rw [hd] at h1
  cases h1
  have hr : Reading (Line (Windows I) .hex .hex) (lines text) (segs.map (recOf .hhh 0 stream)) false := h2.windows I
  obtain ⟨R, h, hR⟩ := file_roomy B fuel filler text sched hB hf
  obtain ⟨R', h1', h2'⟩ := yields h I fuel (by omega) .hex .hex _ text hR (fun l hl => by
    obtain ⟨s, hs, hle⟩ := h3 l hl
    exact Nat.lt_of_le_of_lt hle (hw s hs)) _ false hr
  refine ⟨R', h1', fun t recs ht => ?_⟩
  rcases h2' t recs ht with ⟨e, he | he, h⟩ | h
  · exact Or.inl ⟨e, he, h⟩
  · simp at he
  · exact Or.inr h

theorem recs_bound (stream : Bytes) (segs : List Seg) (ht : Tiles stream.length 0 segs) (hlen : stream.length < 2 ^ 48) :
    ∀ r ∈ segs.map (recOf .hhh 0 stream), r.offset + r.span < usizeMax := by
  intro r hr
  obtain ⟨s, hs, rfl⟩ := List.mem_map.1 hr
  have := ht.le.2 s hs
  rw [recOf_offset _ _ _ (by omega)]
  show s.pos + s.len < usizeMax
  unfold usizeMax
  omega

/-- **C11**: a dump of side-by-side slices of a stream, read back with `--in-format x`, is the stream
(padded to the alignment), whatever sizes `read()` returns and whatever the client does; opening the dump
fails only if `read()` fails. -/
theorem C11_dump_restores (I : Impl) (B fuel minWidth align : Nat) (filler : Byte) (stream : Bytes) (segs : List Seg) (sched : Nat → Option Nat)
    (hB : 0 < B) (ha : 0 < align) (ht : Tiles stream.length 0 segs) (hlen : stream.length < 2 ^ 48)
    (hw : ∀ s ∈ segs, 47 + 4 * max s.len minWidth < (B - 1777) / 8) (text : Bytes)
    (hd : segments .hhh 0 minWidth stream segs = .ok text) (hf : text.length < fuel) (hf' : segs.length < fuel) :
    (∃ s, TextStream.new (fileParser I B fuel .hex .hex) B (openText B filler text sched) align filler = .ok s ∧
      Reads (TextStream.byteSrc (fileParser I B fuel .hex .hex) B fuel filler) (IoErr [sched]) s (Spec.alignTo align filler stream)) ∨
    (TextStream.new (fileParser I B fuel .hex .hex) B (openText B filler text sched) align filler = .error .panic ∧ ∃ e, IoErr [sched] e) := by
  have hy := dump_yields I B fuel minWidth filler stream segs sched hB ht hlen hw text hd hf
  rcases C06_open B align filler _ _ hy with ⟨s, hs⟩ | ⟨e, he, hread⟩
  · left
    refine ⟨s, hs, ?_⟩
    have := C06_hex_input B fuel align filler hB ha _ _ hy (Tiles.ordered .hhh stream stream.length hlen segs 0 ht)
      (fun r hr => by have := recs_bound stream segs ht hlen r hr; omega) s hs
      (Nat.lt_of_le_of_lt (Tiles.steps .hhh stream stream.length hlen segs 0 ht) hf')
    rwa [Tiles.place .hhh filler stream hlen segs 0 ht, List.drop_zero] at this
  · right
    refine ⟨?_, e, he⟩
    simp only [TextStream.new, Feeder.fill, Feeder.new, hread]

/-- **C11**: the dump of `b`, applied as a patch to any stream of the same length, gives `b`. -/
theorem C11_dump_patches (I : Impl) {S : ByteSrc σ} {M} (B fuel minWidth : Nat) (filler : Byte) (b : Bytes) (segs : List Seg) (sched : Nat → Option Nat)
    (hB : 0 < B) (ht : Tiles b.length 0 segs) (hlen : b.length < 2 ^ 48)
    (hw : ∀ s ∈ segs, 47 + 4 * max s.len minWidth < (B - 1777) / 8) (text : Bytes)
    (hd : segments .hhh 0 minWidth b segs = .ok text) (hf : text.length < fuel)
    (src : σ) (w : Nat) (a : Bytes) (hsrc : Delivers S (IoErr [sched]) M src w a) (hab : a.length = b.length)
    (hf' : segs.length + w + 4 ≤ fuel) :
    (∃ s, PatchStream.new (fileParser I B fuel .hex .hex) B src (openText B filler text sched) = .ok s ∧
      Reads (PatchStream.byteSrc S (fileParser I B fuel .hex .hex) B fuel) (IoErr [sched]) s b) ∨
    (PatchStream.new (fileParser I B fuel .hex .hex) B src (openText B filler text sched) = .error .panic ∧ ∃ e, IoErr [sched] e) := by
  have hy := dump_yields I B fuel minWidth filler b segs sched hB ht hlen hw text hd hf
  cases hn : PatchStream.new (fileParser I B fuel .hex .hex) B src (openText B filler text sched) with
  | error e' =>
    right
    refine ⟨?_, ?_⟩
    · unfold PatchStream.new at hn
      split at hn
      · rw [← hn]
      · cases hn
    rcases C06_open B 1 filler _ _ hy with ⟨s, hs⟩ | ⟨e, he, _⟩
    · unfold TextStream.new at hs
      unfold PatchStream.new at hn
      split at hs
      · cases hs
      · rename_i h; rw [h] at hn; cases hn
    · exact ⟨e, he⟩
  | ok s =>
    left
    refine ⟨s, rfl, ?_⟩
    have := C07_patch B fuel hB src w a _ _ hsrc (by unfold usizeMax; omega) hy
      (C07_ordered_ok _ _ _ (Tiles.ordered .hhh b b.length hlen segs 0 ht))
      (recs_bound b segs ht hlen) s hn (by simpa using hf')
    have hsp := Tiles.splice .hhh a b hlen hab segs 0 ht
    rw [List.drop_zero, List.drop_zero] at hsp
    rwa [hsp] at this

/-- Three bytes dumped as slices of two and one, read back and used as a patch. -/
example (I : Impl) : Tiles 3 0 [⟨0, 2⟩, ⟨2, 1⟩] ∧ ∃ text, segments .hhh 0 2 [1, 2, 3] [⟨0, 2⟩, ⟨2, 1⟩] = .ok text ∧
    ∃ s, TextStream.new (fileParser I 3000 100 .hex .hex) 3000 (openText 3000 0 text fun _ => some 7) 1 0 = .ok s ∧
      consumeStream (TextStream.byteSrc (fileParser I 3000 100 .hex .hex) 3000 100 0) 3000 100 s = ([1, 2, 3], none) := by
  refine ⟨⟨rfl, rfl, rfl⟩, _, rfl, ?_⟩
  cases h : TextStream.new (fileParser I 3000 100 .hex .hex) 3000 (openText 3000 0
      (lineHhh [1, 2] 0 2 ++ (lineHhh [3] 2 2 ++ [])) fun _ => some 7) 1 0 with
  | error e =>
    exfalso
    revert h
    exact (by cases I <;> decide +kernel : (match TextStream.new (fileParser I 3000 100 .hex .hex) 3000 (openText 3000 0
      (lineHhh [1, 2] 0 2 ++ (lineHhh [3] 2 2 ++ [])) fun _ => some 7) 1 0 with | .ok _ => true | .error _ => false) = true) |> fun k h => by rw [h] at k; cases k
  | ok s =>
    refine ⟨s, h, ?_⟩
    have k : (match TextStream.new (fileParser I 3000 100 .hex .hex) 3000 (openText 3000 0
      (lineHhh [1, 2] 0 2 ++ (lineHhh [3] 2 2 ++ [])) fun _ => some 7) 1 0 with
      | .ok s => consumeStream (TextStream.byteSrc (fileParser I 3000 100 .hex .hex) 3000 100 0) 3000 100 s
      | .error _ => ([], none)) = ([1, 2, 3], none) := by cases I <;> decide +kernel
    rw [h] at k
    exact k

/-- The input stage pads the *text* to the word size of `--cat N` before parsing it (`build_parser`,
`src/pipeline.rs` 332-341), so a dump whose size is not a multiple of `N` cannot be read: `--cat 4
--in-format x` on a dump of 14 characters and a line break. -/
theorem C11_word_size_counterexample (I : Impl) :
    readAll (fileParser I 2000 1000 .hex .hex) 5 (RawStream.new 2000 (Reader.open (sampleLine ++ [10]) fun _ => some 100) 4 0) =
      ([⟨0, 3, [0, 0x11, 0x22]⟩], some .parse) := by cases I <;> decide +kernel

end Nd.Props
