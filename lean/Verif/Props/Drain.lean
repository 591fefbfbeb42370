import Verif.Model.Hexdump
import Verif.Proof.Scatter
import Verif.Proof.CatAmple
import Verif.Props.Segment
import Verif.Props.Text
/-!
# C29, C30, C33: printing slices
-/
namespace Nd.Props
open Nd Nd.Spec Nd.Format

/-! ## C29 -/

/-- **C29**: on every slice stream that consumes all slices it has lent (`exact`), the drain prints each slice
exactly once, in order, with its absolute offset and its bytes. -/
theorem C29_prints_every_slice_partial {S : SegSrc σ} {K F} (hK : K.exact = true) (f : Formatting) (B fuel : Nat) (hB : 0 < B)
    (s : σ) (w : Nat) (content : Bytes) (segs : List Seg) (h : SegDelivers S K F s w content segs)
    (hlen : content.length < 2 ^ 64) (hf : w < fuel) :
    Reads (ScatterDrain.byteSrc S f B fuel) F (ScatterDrain.through B s) ((slicesOf content segs).flatMap f.line) :=
  (ScatterDrain.delivers hK f hB h hlen hf).reads

/-- **C29** for `--width N,S..E` with slices at least as long as their distance, for every file and `read()`
schedule. -/
theorem C29_width_partial (B fuel fuel' : Nat) (filler : Byte) (content : Bytes) (sched : Nat → Option Nat) (hB : 0 < B) (hf : content.length < fuel)
    (hlen : content.length < 2 ^ 64) (f : Formatting)
    (pitch : Nat) (m : SegmentMapper) (start stop : Int) (hp : 0 < pitch) (hm : m.evaluate (0, pitch) (0, pitch) = (start, stop))
    (hpitch : (pitch : Int) ≤ stop - start) (hstop : 1 ≤ stop) (hstart : -(15 * pitch) < start) (hf' : 1 < fuel')
    (hL : (0 ≤ start ∧ FirstFits B pitch start stop) ∨ 2 * stop - start + pitch ≤ B) :
    ∃ p st, ConstSlicerParams.fromRaw fuel' pitch m = .ok p ∧
      ConstSlicer.new (RawStream.new B (Reader.open content sched) 1 filler) p = .ok st ∧
      Reads (ScatterDrain.byteSrc (ConstSlicer.segSrc (RawStream.byteSrc B fuel)) f B fuel) (IoErr [sched]) (ScatterDrain.through B st)
        ((slicesOf content (strides content.length pitch start stop)).flatMap f.line) := by
  obtain ⟨p, st, h1, h2, _, _, h3⟩ := wide_delivers true (file_amply B fuel filler content sched hB hf) (buffered_prompt B fuel 1 filler _ _) (fun _ => NlMargin.any) fuel' pitch m start stop
    hp hm (by omega) hstop hstart hf' (hL.elim And.right fun h => Or.inl (by omega)) (fun _ => hL.imp And.left id)
  exact ⟨p, st, h1, h2, C29_prints_every_slice_partial (by simp only [ConstSlicer.wide, Bool.true_and, decide_eq_true_eq]; omega) f B fuel hB st _ content _ h3 hlen hf⟩

/-- The overlapping slices of `--width 2,s..e+1` of a five-byte file, printed without headers. -/
example (sched : Nat → Option Nat) : ∃ p st, ConstSlicerParams.fromRaw 2 2 (fromStart 0 3) = .ok p ∧
    ConstSlicer.new (RawStream.new (2 ^ 21) (Reader.open [1, 2, 3, 4, 5] sched) 1 0) p = .ok st ∧
    Reads (ScatterDrain.byteSrc (ConstSlicer.segSrc (RawStream.byteSrc (2 ^ 21) 6)) ⟨.binary, 0⟩ (2 ^ 21) 6) (IoErr [sched])
      (ScatterDrain.through (2 ^ 21) st) [1, 2, 3, 3, 4, 5, 5] :=
  C29_width_partial (2 ^ 21) 6 2 0 [1, 2, 3, 4, 5] sched (by decide) (by decide) (by decide) ⟨.binary, 0⟩ 2 (fromStart 0 3) 0 3
    (by decide) (by decide) (by decide) (by decide) (by decide) (by decide) (Or.inr (by decide))

/-- Pieces of 40 bytes of a 100-byte file that is read with block size 16. -/
example (content : Bytes) (h : content.length = 100) (sched : Nat → Option Nat) : ∃ p st, ConstSlicerParams.fromRaw 2 40 .whole = .ok p ∧
    ConstSlicer.new (RawStream.new 16 (Reader.open content sched) 1 0) p = .ok st ∧
    Reads (ScatterDrain.byteSrc (ConstSlicer.segSrc (RawStream.byteSrc 16 101)) ⟨.binary, 0⟩ 16 101) (IoErr [sched])
      (ScatterDrain.through 16 st) ((slicesOf content (strides content.length 40 0 40)).flatMap (Formatting.line ⟨.binary, 0⟩)) :=
  C29_width_partial 16 101 2 0 content sched (by decide) (by omega) (by omega) ⟨.binary, 0⟩ 40 .whole 0 40
    (by decide) (by decide) (by decide) (by decide) (by decide) (by decide) (Or.inl ⟨by decide, Or.inr (Or.inl (by decide))⟩)

/-- `n` rounds of the drain's closure. -/
def drainRounds (S : SegSrc σ) : Nat → ScatterDrain σ → Bytes → Except Err Bytes
  | 0, _, out => .ok out
  | n + 1, d, out =>
    match ScatterDrain.feed S ⟨.binary, 0⟩ d 1 out with
    | .error e => .error e
    | .ok (_, out, d) => drainRounds S n d out

/-- What `n` rounds of the drain print for `--width pitch,s+a..s+b`, without headers. -/
def widthPrint (B : Nat) (content : Bytes) (sched : Nat → Option Nat) (pitch : Nat) (a b : Int) (n : Nat) : Except Err Bytes :=
  match ConstSlicerParams.fromRaw 100 pitch (fromStart a b) with
  | .error e => .error e
  | .ok p =>
    match ConstSlicer.new (RawStream.new B (Reader.open content sched) 1 0) p with
    | .error e => .error e
    | .ok st => drainRounds (ConstSlicer.segSrc (RawStream.byteSrc B 1000)) n (ScatterDrain.new st) []

/-- **Counterexample** (clipped slices that are long for the block): `--width 4,s-3..s+6` of a 50-byte file, read with block size 16.
Slices that were already lent are retained, the drain counts them twice, and two slices are skipped: the slice at 17 is
followed by the one at 29; two rounds later the program aborts.  With block size 2^21 it takes slices of about half a block. -/
theorem C29_wide_clipped_counterexample :
    widthPrint 16 ((List.range 50).map UInt8.ofNat) (fun _ => some 100) 4 (-3) 6 3 =
      .ok ((slicesOf ((List.range 50).map UInt8.ofNat) ((strides 50 4 (-3) 6).take 6 ++ ((strides 50 4 (-3) 6).drop 8).take 2)).flatMap Prod.snd) ∧
    widthPrint 16 ((List.range 50).map UInt8.ofNat) (fun _ => some 100) 4 (-3) 6 5 = .error .panic := by
  decide +kernel

/-- **Counterexample** (a stream that retains a lent slice): `--width 3,s..s+1` of a 376-byte file, read with
block size 64 in pieces of 64, 62, 64, 63, 63, ... bytes.  The drain counts a retained slice twice
(`src_consumed += count`), so that later a slice is skipped: after the byte 59 at 315 comes 65 at 321; and finally the
program aborts. -/
theorem C29_retained_counterexample :
    widthPrint 64 ((List.range 376).map UInt8.ofNat) (fun i => some ([64, 62, 64].getD i 63)) 3 0 1 6 =
      .ok ((slicesOf ((List.range 376).map UInt8.ofNat) (strides 318 3 0 1)).flatMap Prod.snd ++
        [65, 68, 71, 74, 77, 80, 83, 86, 89, 92, 95, 98, 101, 104, 107, 110, 113, 116, 119]) ∧
    ((318, [62]) : Nat × Bytes) ∈ slicesOf ((List.range 376).map UInt8.ofNat) (strides 376 3 0 1) ∧
    widthPrint 64 ((List.range 376).map UInt8.ofNat) (fun i => some ([64, 62, 64].getD i 63)) 3 0 1 10 = .error .panic := by
  decide +kernel

/-- **Counterexample**: the same with reads that are never short, as from a regular file.  `--width 3,s..s+1` of six blocks of 64 bytes: what is lent behind the last slice grows from
block to block until another slice fits; then it is shorter than before, and a slice is retained.  It stays counted as printed, and the empty rest at the end aborts the program. -/
theorem C29_full_reads_counterexample :
    widthPrint 64 ((List.range 384).map UInt8.ofNat) (fun _ => some 64) 3 0 1 6 =
      .ok ((slicesOf ((List.range 384).map UInt8.ofNat) (strides 384 3 0 1)).flatMap Prod.snd) ∧
    widthPrint 64 ((List.range 384).map UInt8.ofNat) (fun _ => some 64) 3 0 1 7 = .error .panic := by
  decide +kernel

/-! ## C30 -/

/-- What the slices `xs`, numbered from `i`, contribute to the file `name`. -/
def shareOf {ν : Type} [DecidableEq ν] (f : Formatting) (nm : Nat → Nat → ν) (name : ν) : Nat → List (Nat × Bytes) → List Bytes
  | _, [] => []
  | i, x :: rest => if nm x.1 i = name then f.line x :: shareOf f nm name (i + 1) rest else shareOf f nm name (i + 1) rest

theorem dumpSlices_template {ν : Type} [DecidableEq ν] (f : Formatting) (render : Nat → Nat → Except Err ν) (nm : Nat → Nat → ν) :
    ∀ (xs : List (Nat × Bytes)) (i : Nat) (c : ScatterContext ν), c.drain = .template render →
      (∀ k x, xs[k]? = some x → render x.1 (i + k) = .ok (nm x.1 (i + k))) →
      ∃ c', ScatterDrain.dumpSlices f i xs c = .ok c' ∧
        ∀ name, c'.fs name =
          if name ∈ c.files then
            (if shareOf f nm name i xs = [] then c.fs name else some ((c.fs name).getD [] ++ (shareOf f nm name i xs).flatten))
          else if shareOf f nm name i xs = [] then c.fs name else some (shareOf f nm name i xs).flatten
  | [], i, c, _, _ => ⟨c, rfl, by intro name; simp [shareOf]⟩
  | x :: rest, i, c, hc, hr => by
    have h0 := hr 0 x rfl
    rw [Nat.add_zero] at h0
    have hrest : ∀ k y, rest[k]? = some y → render y.1 (i + 1 + k) = .ok (nm y.1 (i + 1 + k)) := by
      intro k y hy
      have := hr (k + 1) y (by simpa using hy)
      rwa [show i + (k + 1) = i + 1 + k by omega] at this
    simp only [ScatterDrain.dumpSlices, ScatterContext.dump, hc, h0]
    split
    · rename_i c1 heq
      split at heq <;> cases heq
    · rename_i c1 heq
      by_cases hm : nm x.1 i ∈ c.files
      · rw [if_pos hm] at heq
        cases heq
        obtain ⟨c', h1, h2⟩ := dumpSlices_template f render nm rest (i + 1)
          { c with fs := ScatterContext.set c.fs (nm x.1 i) ((c.fs (nm x.1 i)).getD [] ++ f.line x) } hc hrest
        refine ⟨c', by rw [← h1]; congr 1; rw [hc], fun name => ?_⟩
        rw [h2 name]
        simp only [shareOf, ScatterContext.set]
        by_cases he : nm x.1 i = name
        · subst he
          simp only [hm, if_true]
          split
          · rename_i h; simp [h]
          · simp
        · simp only [if_neg he, if_neg (fun h : name = nm x.1 i => he h.symm)]
      · rw [if_neg hm] at heq
        cases heq
        obtain ⟨c', h1, h2⟩ := dumpSlices_template f render nm rest (i + 1)
          { c with files := nm x.1 i :: c.files, fs := ScatterContext.set c.fs (nm x.1 i) (f.line x) } hc hrest
        refine ⟨c', by rw [← h1]; congr 1; rw [hc], fun name => ?_⟩
        rw [h2 name]
        simp only [shareOf, ScatterContext.set]
        by_cases he : nm x.1 i = name
        · subst he
          simp only [hm, if_true, if_false, List.mem_cons, true_or]
          split
          · rename_i h; simp [h]
          · simp
        · simp only [if_neg he, if_neg (fun h : name = nm x.1 i => he h.symm)]
          have : (name ∈ nm x.1 i :: c.files) ↔ name ∈ c.files := by
            rw [List.mem_cons]; exact ⟨fun h => h.resolve_left fun h => he h.symm, Or.inr⟩
          simp only [this]

/-- **C30**: `--output TEMPLATE`, where the template gives the slice at `offset` with number `line` the file name `nm offset
line`.  After the run every file that gets at least one slice contains exactly its slices, in order, whatever it contained
before; all other files are unchanged. -/
theorem C30_template_partial {ν : Type} [DecidableEq ν] {S : SegSrc σ} {K F} (hK : K.exact = true) (f : Formatting) (fuel : Nat)
    (s : σ) (w : Nat) (content : Bytes) (segs : List Seg) (h : SegDelivers S K F s w content segs)
    (hlen : content.length < 2 ^ 64) (hf : w + 1 < fuel) (fs : FileSys ν) (render : Nat → Nat → Except Err ν) (nm : Nat → Nat → ν)
    (hr : ∀ line x, (slicesOf content segs)[line]? = some x → render x.1 line = .ok (nm x.1 line)) :
    (∃ e, F e ∧ ScatterDrain.scatter S f fuel (ScatterDrain.new s) (ScatterContext.openTemplate fs render) = .error e) ∨
    ∃ c, ScatterDrain.scatter S f fuel (ScatterDrain.new s) (ScatterContext.openTemplate fs render) = .ok c ∧
      ∀ name, c.fs name = if shareOf f nm name 0 (slicesOf content segs) = [] then fs name
        else some (shareOf f nm name 0 (slicesOf content segs)).flatten := by
  obtain ⟨R, hR, hs⟩ := h
  rcases ScatterDrain.scatter_eq hR hK f fuel (ScatterDrain.new s) (ScatterContext.openTemplate fs render) 0 w content segs hs rfl
    (by simpa [ScatterDrain.new] using hlen) hf with h | h
  · exact Or.inl h
  · right
    rw [h]
    show ∃ c, ScatterDrain.dumpSlices f 0 (absOf 0 content segs) _ = _ ∧ _
    rw [absOf_zero]
    obtain ⟨c, h1, h2⟩ := dumpSlices_template f render nm (slicesOf content segs) 0 (ScatterContext.openTemplate fs render) rfl
      (by simpa using hr)
    exact ⟨c, h1, by simpa [ScatterContext.openTemplate] using h2⟩

theorem dumpSlices_file {ν : Type} [DecidableEq ν] (f : Formatting) (name : ν) :
    ∀ (xs : List (Nat × Bytes)) (i pos : Nat) (c : ScatterContext ν) (old : Bytes), c.drain = .file name pos → c.fs name = some old → pos ≤ old.length →
      ∃ c', ScatterDrain.dumpSlices f i xs c = .ok c' ∧
        c'.fs name = some (old.take pos ++ xs.flatMap f.line ++ old.drop (pos + (xs.flatMap f.line).length)) ∧
        ∀ other, other ≠ name → c'.fs other = c.fs other
  | [], i, pos, c, old, hc, ho, hp => ⟨c, rfl, by simp [ho], fun _ _ => rfl⟩
  | x :: rest, i, pos, c, old, hc, ho, hp => by
    simp only [ScatterDrain.dumpSlices, ScatterContext.dump, hc, ho, Option.getD_some]
    have hl : (ScatterContext.writeAt old pos (f.line x)).length = max old.length (pos + (f.line x).length) := by
      simp [ScatterContext.writeAt, List.length_take, List.length_drop]; omega
    obtain ⟨c', h1, h2, h3⟩ := dumpSlices_file f name rest (i + 1) (pos + (f.line x).length)
      { c with drain := .file name (pos + (f.line x).length), fs := ScatterContext.set c.fs name (ScatterContext.writeAt old pos (f.line x)) }
      (ScatterContext.writeAt old pos (f.line x)) rfl (by simp [ScatterContext.set]) (by omega)
    refine ⟨c', h1, ?_, fun other hne => ?_⟩
    · rw [h2]
      congr 1
      have ht : (ScatterContext.writeAt old pos (f.line x)).take (pos + (f.line x).length) = old.take pos ++ f.line x := by
        unfold ScatterContext.writeAt
        rw [List.take_append_of_le_length (by simp; omega), List.take_of_length_le (by simp [Nat.min_le_left])]
      have hd : ∀ k, (ScatterContext.writeAt old pos (f.line x)).drop (pos + (f.line x).length + k) = old.drop (pos + (f.line x).length + k) := by
        intro k
        unfold ScatterContext.writeAt
        rw [List.drop_append, List.drop_eq_nil_of_le (by simp; omega), List.drop_drop]
        simp only [List.length_append, List.length_take, List.nil_append]
        congr 1
        omega
      rw [ht, hd, List.flatMap_cons, List.length_append, Nat.add_assoc]
      simp
    · rw [h3 other hne]
      simp [ScatterContext.set, hne]

/-- **C30** for a plain file name: the output replaces the beginning of the file.  Only if the file was not longer than the
output does it contain nothing else. -/
theorem C30_plain_file_partial {ν : Type} [DecidableEq ν] {S : SegSrc σ} {K F} (hK : K.exact = true) (f : Formatting) (fuel : Nat)
    (s : σ) (w : Nat) (content : Bytes) (segs : List Seg) (h : SegDelivers S K F s w content segs)
    (hlen : content.length < 2 ^ 64) (hf : w + 1 < fuel) (fs : FileSys ν) (name : ν) :
    (∃ e, F e ∧ ScatterDrain.scatter S f fuel (ScatterDrain.new s) (ScatterContext.openFile fs name) = .error e) ∨
    ∃ c, ScatterDrain.scatter S f fuel (ScatterDrain.new s) (ScatterContext.openFile fs name) = .ok c ∧
      c.fs name = some ((slicesOf content segs).flatMap f.line ++ ((fs name).getD []).drop ((slicesOf content segs).flatMap f.line).length) ∧
      ∀ other, other ≠ name → c.fs other = fs other := by
  obtain ⟨R, hR, hs⟩ := h
  rcases ScatterDrain.scatter_eq hR hK f fuel (ScatterDrain.new s) (ScatterContext.openFile fs name) 0 w content segs hs rfl
    (by simpa [ScatterDrain.new] using hlen) hf with h | h
  · exact Or.inl h
  · right
    rw [h]
    show ∃ c, ScatterDrain.dumpSlices f 0 (absOf 0 content segs) _ = _ ∧ _
    rw [absOf_zero]
    obtain ⟨c, h1, h2, h3⟩ := dumpSlices_file f name (slicesOf content segs) 0 0 (ScatterContext.openFile fs name) ((fs name).getD []) rfl
      (by simp [ScatterContext.openFile, ScatterContext.set]) (by omega)
    refine ⟨c, h1, by simpa using h2, fun other hne => ?_⟩
    rw [h3 other hne]
    simp [ScatterContext.openFile, ScatterContext.set, hne]

/-- The file contents after `nd --width 2 --output X` (no headers) on a five-byte file; `X` is a template if `render` is given. -/
def outputRun (fs : FileSys Nat) (target : Nat ⊕ (Nat → Nat → Except Err Nat)) (name : Nat) : Except Err (Option Bytes) :=
  match ConstSlicerParams.fromRaw 100 2 .whole with
  | .error e => .error e
  | .ok p =>
    match ConstSlicer.new (RawStream.new 2000 (Reader.open [1, 2, 3, 4, 5] fun _ => some 3) 1 0) p with
    | .error e => .error e
    | .ok st =>
      match ScatterDrain.scatter (ConstSlicer.segSrc (RawStream.byteSrc 2000 100)) ⟨.binary, 0⟩ 100 (ScatterDrain.new st)
        (match target with
          | .inl name => ScatterContext.openFile fs name
          | .inr render => ScatterContext.openTemplate fs render) with
      | .error e => .error e
      | .ok c => .ok (c.fs name)

/-- `--output {offset/4}`-like names: file 0 gets the slices at 0 and 2, file 1 the one at 4, file 2 is not touched. -/
example : outputRun (fun n => some [9, UInt8.ofNat n]) (.inr fun off _ => .ok (off / 4)) 0 = .ok (some [1, 2, 3, 4]) ∧
    outputRun (fun n => some [9, UInt8.ofNat n]) (.inr fun off _ => .ok (off / 4)) 1 = .ok (some [5]) ∧
    outputRun (fun n => some [9, UInt8.ofNat n]) (.inr fun off _ => .ok (off / 4)) 2 = .ok (some [9, 2]) := by decide +kernel

/-- The theorem for these names. -/
example (sched : Nat → Option Nat) (fs : FileSys Nat) : ∃ p st, ConstSlicerParams.fromRaw 2 2 .whole = .ok p ∧
    ConstSlicer.new (RawStream.new (2 ^ 21) (Reader.open [1, 2, 3, 4, 5] sched) 1 0) p = .ok st ∧
    ((∃ e, IoErr [sched] e ∧ ScatterDrain.scatter (ConstSlicer.segSrc (RawStream.byteSrc (2 ^ 21) 6)) ⟨.binary, 0⟩ 7 (ScatterDrain.new st)
        (ScatterContext.openTemplate fs fun off _ => .ok (off / 4)) = .error e) ∨
      ∃ c, ScatterDrain.scatter (ConstSlicer.segSrc (RawStream.byteSrc (2 ^ 21) 6)) ⟨.binary, 0⟩ 7 (ScatterDrain.new st)
        (ScatterContext.openTemplate fs fun off _ => .ok (off / 4)) = .ok c ∧
        c.fs 0 = some [1, 2, 3, 4] ∧ c.fs 1 = some [5] ∧ c.fs 2 = fs 2) := by
  obtain ⟨p, st, h1, h2, _, h3⟩ := width_delivers .any (file_amply (2 ^ 21) 6 0 [1, 2, 3, 4, 5] sched (by decide) (by decide)) (fun _ => NlMargin.any) 2 2 .whole 0 2
    (by decide) (by decide) (by decide) (by decide) (by decide) (by decide) (by decide)
  refine ⟨p, st, h1, h2, ?_⟩
  rcases C30_template_partial (by decide) ⟨.binary, 0⟩ 7 st _ _ _ h3 (by decide) (by decide) fs (fun off _ => .ok (off / 4)) (fun off _ => off / 4)
    (fun _ _ _ => rfl) with h | ⟨c, h, hc⟩
  · exact Or.inl h
  · exact Or.inr ⟨c, h, by rw [hc]; rfl, by rw [hc]; rfl, by rw [hc]; rfl⟩

/-- **Counterexample**: a plain output file is not truncated; the end of its old contents stays behind the output. -/
theorem C30_not_truncated_counterexample :
    outputRun (fun _ => some [9, 9, 9, 9, 9, 9, 9]) (.inl 0) 0 = .ok (some [1, 2, 3, 4, 5, 9, 9]) := by decide +kernel

/-- The file `name` after `nd --width 3,s..s+1 --output '{l}'` (no headers), read with block size 64. -/
def numberedRun (content : Bytes) (sched : Nat → Option Nat) (name : Nat) : Except Err (Option Bytes) :=
  match ConstSlicerParams.fromRaw 100 3 (fromStart 0 1) with
  | .error e => .error e
  | .ok p =>
    match ConstSlicer.new (RawStream.new 64 (Reader.open content sched) 1 0) p with
    | .error e => .error e
    | .ok st =>
      match ScatterDrain.scatter (ConstSlicer.segSrc (RawStream.byteSrc 64 1000)) ⟨.binary, 0⟩ 100 (ScatterDrain.new st)
        (ScatterContext.openTemplate (fun _ => none) fun _ line => .ok line) with
      | .error e => .error e
      | .ok c => .ok (c.fs name)

/-- **Counterexample**: after a slice has been retained, the slices are numbered from it again.  Of the 108 slices of a 323-byte file, read in whole blocks, the slice 107 (the byte 65 at 321)
is put into the file of the slice 106 (the byte 62 at 318), and the file 107 does not exist. -/
theorem C30_numbers_counterexample :
    ((List.range 323).map UInt8.ofNat)[3 * 106]? = some 62 ∧ ((List.range 323).map UInt8.ofNat)[3 * 107]? = some 65 ∧
    numberedRun ((List.range 323).map UInt8.ofNat) (fun _ => some 64) 105 = .ok (some [59]) ∧
    numberedRun ((List.range 323).map UInt8.ofNat) (fun _ => some 64) 106 = .ok (some [62, 65]) ∧
    numberedRun ((List.range 323).map UInt8.ofNat) (fun _ => some 64) 107 = .ok none := by decide +kernel

/-! ## C33 -/

theorem fills_le_enough (align : Nat) (filler : Byte) (files : Files) (ha : 0 < align) :
    CatStream.fills (files.map fun f => (f.1.length, Spec.alignTo align filler f.1)) ≤ enough align files := by
  simp only [CatStream.fills, enough, List.map_map]
  induction files with
  | nil => simp
  | cons g files ih =>
    have := (C01_alignment align filler g.1 ha).2
    simp only [List.map_cons, List.sum_cons, Function.comp] at ih ⊢
    omega

/-- `--cat N` lends at least an eighth of a block (less the margin) before its end. -/
theorem cat_amply (B fuel align : Nat) (filler : Byte) (files : Files) (hB : 0 < B) (ha : 0 < align) (hne : files ≠ [])
    (hf : enough align files < fuel) :
    ServesAmply (CatStream.byteSrc (RawStream.byteSrc B fuel) B fuel) (IoErr (files.map Prod.snd)) AnyMargin ((B - 1784) / 8)
      (CatStream.new B (rawStreams B align filler files)) (CatStream.fills (files.map fun f => (f.1.length, Spec.alignTo align filler f.1)))
      (Spec.cat (files.map fun f => Spec.alignTo align filler f.1)) := by
  have hs := rawStreams_deliver B fuel align filler files hB ha (fun f h => Nat.lt_of_le_of_lt (le_enough align files f h) hf)
  have := CatStream.amply (buffered_ample (f := RawStream.feed B) (fuel := fuel) (F := IoErr (files.map Prod.snd)) (M := NlMargin) hB).1 (buffered_ample hB).2 (fun _ => NlMargin.any) hB
    (srcs := rawStreams B align filler files) (cs := files.map fun f => (f.1.length, Spec.alignTo align filler f.1)) (fuel := fuel)
    (by simpa [rawStreams] using hne) (by
      unfold rawStreams at hs ⊢
      rw [List.forall₂_map_left_iff, List.forall₂_map_right_iff, List.forall₂_same] at hs ⊢
      intro f hm
      exact ⟨hs f hm, StreamBuf.Ready.new B align filler⟩)
    (Nat.lt_of_le_of_lt (fills_le_enough align filler files ha) hf)
  rw [Nat.min_self, List.map_map] at this
  exact this

/-- The rows of a dump: 16 bytes each, the last one possibly shorter. -/
def rows (content : Bytes) : List Rec :=
  (List.range ((content.length + 15) / 16)).map fun i =>
    { offset := 16 * i, span := min 16 (content.length - 16 * i), data := (content.drop (16 * i)).take 16 }

theorem strides_rows (len : Nat) :
    (∀ i (h : i < (strides len 16 0 16).length), ((strides len 16 0 16)[i]'h).pos = i * 16 ∧ ((strides len 16 0 16)[i]'h).len = min 16 (len - i * 16)) ∧
    (strides len 16 0 16).length = (len + 16 - 1) / 16 := C19_tiling len 16 (by decide)

theorem rows_eq (content : Bytes) (hlen : content.length < 2 ^ 48) :
    (strides content.length 16 0 16).map (recOf .hhh 0 content) = rows content := by
  obtain ⟨h1, h2⟩ := strides_rows content.length
  refine List.ext_getElem (by simpa [rows] using h2) fun i hi hi' => ?_
  rw [List.length_map] at hi
  obtain ⟨h3, h4⟩ := h1 i hi
  simp only [rows, List.getElem_map, List.getElem_range]
  have hi16 : 16 * i < content.length := by
    simp [rows] at hi'
    omega
  simp only [recOf, h3, h4, Seg.bytes, if_true, Nat.zero_add]
  refine congr (congr (congrArg Rec.mk ?_) ?_) ?_
  · omega
  · rw [Nat.mul_comm]
  · rw [Nat.mul_comm i 16, List.take_eq_take_iff, List.length_drop]
    omega

/-- **C33**: `nd FILE...` prints, for all files and all `read()` schedules, a text whose lines are documented records: one
line per 16 bytes, with ascending offsets, whose arrays are the bytes of the concatenated files.  If `read()` fails, the
output is a prefix of that text and the error is reported. -/
theorem C33_hexdump (B fuel : Nat) (filler : Byte) (files : Files) (hB : 2176 ≤ B) (hne : files ≠ []) (hf : enough 1 files + 1 < fuel)
    (hlen : (files.map Prod.fst).flatten.length < 2 ^ 48) :
    ∃ text, Reading (Line StrictColumns .hex .hex) (lines text) (rows (files.map Prod.fst).flatten) false ∧
      (hexdump (RawStream.byteSrc B fuel) B fuel (rawStreams B 1 filler files) = .ok (text, none) ∨
        ∃ e out, IoErr (files.map Prod.snd) e ∧
          hexdump (RawStream.byteSrc B fuel) B fuel (rawStreams B 1 filler files) = .ok (out, some e) ∧ out <+: text) := by
  have hc : Spec.cat (files.map fun f => Spec.alignTo 1 filler f.1) = (files.map Prod.fst).flatten := by
    simp only [alignTo_one, Spec.cat]
  have ha := cat_amply B fuel 1 filler files (by omega) (by decide) hne (by omega)
  rw [hc] at ha
  have hw := fills_le_enough 1 filler files (by decide)
  generalize (files.map Prod.fst).flatten = content at *
  obtain ⟨p, st, h1, h2, _, h3⟩ := width_delivers .any ha (fun _ h => h) fuel 16 .whole 0 16 (by decide) (by decide) (by decide) (by decide) (by decide)
    (by omega) (by show 16 + 16 + 16 + 1 ≤ _; omega)
  have hd := ScatterDrain.delivers (by decide) { style := .hhh, minWidth := 16 } (B := B) (fuel := fuel) (by omega) h3 (by omega) (by omega)
  obtain ⟨text, ht, hread, _⟩ := segments_spec .hhh (by decide) 0 16 content (strides content.length 16 0 16) (fun s hs => by
    obtain ⟨i, hi, rfl⟩ := List.getElem_of_mem hs
    obtain ⟨h5, h6⟩ := (strides_rows content.length).1 i hi
    have h7 := (strides_rows content.length).2
    rw [h5, h6]
    refine ⟨by omega, ?_⟩
    show _ < 2 ^ 56
    omega)
  have hl := segments_line { style := .hhh, minWidth := 16 } 0 content (strides content.length 16 0 16) (fun s hs => by
    obtain ⟨i, hi, rfl⟩ := List.getElem_of_mem hs
    obtain ⟨h5, h6⟩ := (strides_rows content.length).1 i hi
    have h7 := (strides_rows content.length).2
    rw [h5, h6]
    omega)
  have hte : (slicesOf content (strides content.length 16 0 16)).flatMap (Formatting.line { style := .hhh, minWidth := 16 }) = text := by
    rw [ht] at hl
    simp only [Nat.zero_add, Except.ok.injEq] at hl
    exact hl.symm
  refine ⟨text, by rw [← rows_eq content hlen]; exact hread, ?_⟩
  have hcopy := C08_copy_exact B fuel _ _ _ hd (by omega)
  simp only [hexdump, h1, h2]
  rw [← hte]
  rcases hcopy with h | ⟨e, out, he, h, hp⟩
  · left; rw [h]
  · right; exact ⟨e, out, he, by rw [h], hp⟩

/-- Two files dumped by `nd A B`, with block size 2 MiB. -/
example : ∃ text, hexdump (RawStream.byteSrc (2 ^ 21) 20) (2 ^ 21) 20 (rawStreams (2 ^ 21) 1 0 [([1, 2, 3], fun _ => some 2), ([65], fun _ => some 7)]) = .ok (text, none) ∧
    Reading (Line StrictColumns .hex .hex) (lines text) [{ offset := 0, span := 4, data := [1, 2, 3, 65] }] false := by
  obtain ⟨text, h1, h2 | ⟨e, _, ⟨_, s, hs, i, hi⟩, _⟩⟩ := C33_hexdump (2 ^ 21) 20 0 [([1, 2, 3], fun _ => some 2), ([65], fun _ => some 7)]
    (by decide) (by decide) (by decide) (by decide)
  · exact ⟨text, h2, h1⟩
  · simp only [List.map_cons, List.map_nil, List.mem_cons, List.not_mem_nil, or_false] at hs
    rcases hs with h | h <;> subst h <;> cases hi

theorem tiles_rows (len pitch : Nat) : ∀ (n p : Nat) (segs : List Seg), segs.length = n → p ≤ len → len ≤ p + n * pitch →
    (∀ i (h : i < segs.length), (segs[i]'h).pos = p + i * pitch ∧ (segs[i]'h).len = min pitch (len - (p + i * pitch)) ∧ p + i * pitch < len) →
    Tiles len p segs
  | 0, p, segs, hn, hp, hl, h => by
    rw [List.length_eq_zero_iff] at hn
    subst hn
    show p = len
    omega
  | n + 1, p, segs, hn, hp, hl, h => by
    cases segs with
    | nil => cases hn
    | cons s rest =>
      obtain ⟨h1, h2, h3⟩ := h 0 (by simp)
      simp only [List.getElem_cons_zero, Nat.zero_mul, Nat.add_zero] at h1 h2 h3
      have hm : (n + 1) * pitch = n * pitch + pitch := Nat.succ_mul _ _
      refine ⟨h1, ?_⟩
      by_cases hc : p + pitch ≤ len
      · have hs : s.len = pitch := by omega
        rw [hs]
        refine tiles_rows len pitch n (p + pitch) rest (by simpa using hn) hc (by omega) fun i hi => ?_
        have := h (i + 1) (by simpa using hi)
        simp only [List.getElem_cons_succ] at this
        have hm' : (i + 1) * pitch = i * pitch + pitch := Nat.succ_mul _ _
        rw [show p + pitch + i * pitch = p + (i + 1) * pitch by omega]
        exact this
      · have : rest = [] := by
          cases rest with
          | nil => rfl
          | cons y ys =>
            have := (h 1 (by simp)).2.2
            omega
        subst this
        show p + s.len = len
        omega

/-- **C33**: what `nd FILE...` prints, given to `nd --in-format x`, is the concatenation of the files again, whatever the `read()`
schedules of both runs. -/
theorem C33_restored (I : Impl) (B fuel fuel' : Nat) (filler : Byte) (files : Files) (hB : 2673 ≤ B) (hne : files ≠ []) (hf : enough 1 files + 1 < fuel)
    (hlen : (files.map Prod.fst).flatten.length < 2 ^ 48) (text : Bytes)
    (hd : hexdump (RawStream.byteSrc B fuel) B fuel (rawStreams B 1 filler files) = .ok (text, none))
    (sched : Nat → Option Nat) (hf' : text.length < fuel') (hf'' : (files.map Prod.fst).flatten.length < fuel') :
    (∃ s, TextStream.new (fileParser I B fuel' .hex .hex) B (openText B filler text sched) 1 filler = .ok s ∧
      Reads (TextStream.byteSrc (fileParser I B fuel' .hex .hex) B fuel' filler) (IoErr [sched]) s (files.map Prod.fst).flatten) ∨
    (TextStream.new (fileParser I B fuel' .hex .hex) B (openText B filler text sched) 1 filler = .error .panic ∧ ∃ e, IoErr [sched] e) := by
  have hc : Spec.cat (files.map fun f => Spec.alignTo 1 filler f.1) = (files.map Prod.fst).flatten := by
    simp only [alignTo_one, Spec.cat]
  have ha := cat_amply B fuel 1 filler files (by omega) (by decide) hne (by omega)
  rw [hc] at ha
  have hw := fills_le_enough 1 filler files (by decide)
  generalize (files.map Prod.fst).flatten = content at *
  obtain ⟨p, st, h1, h2, _, h3⟩ := width_delivers .any ha (fun _ h => h) fuel 16 .whole 0 16 (by decide) (by decide) (by decide) (by decide) (by decide)
    (by omega) (by show 16 + 16 + 16 + 1 ≤ _; omega)
  have hdel := ScatterDrain.delivers (by decide) { style := .hhh, minWidth := 16 } (B := B) (fuel := fuel) (by omega) h3 (by omega) (by omega)
  have hseg : segments .hhh 0 16 content (strides content.length 16 0 16) = .ok text := by
    have hl := segments_line { style := .hhh, minWidth := 16 } 0 content (strides content.length 16 0 16) (fun s hs => by
      obtain ⟨i, hi, rfl⟩ := List.getElem_of_mem hs
      obtain ⟨h5, h6⟩ := (strides_rows content.length).1 i hi
      have h7 := (strides_rows content.length).2
      rw [h5, h6]
      omega)
    simp only [Nat.zero_add] at hl
    rw [hl]
    congr 1
    simp only [hexdump, h1, h2] at hd
    rcases C08_copy_exact B fuel _ _ _ hdel (by omega) with h | ⟨e, out, he, h, hp⟩
    · rw [h] at hd
      simp only [Except.ok.injEq, Prod.mk.injEq, and_true] at hd
      exact hd
    · rw [h] at hd
      cases hd
  have ht : Tiles content.length 0 (strides content.length 16 0 16) := by
    have h7 := (strides_rows content.length).2
    refine tiles_rows content.length 16 _ 0 _ rfl (Nat.zero_le _) (by omega) fun i hi => ?_
    obtain ⟨h5, h6⟩ := (strides_rows content.length).1 i hi
    rw [h5, h6, Nat.zero_add]
    exact ⟨rfl, rfl, by omega⟩
  have := C11_dump_restores I B fuel' 16 1 filler content (strides content.length 16 0 16) sched (by omega) (by decide) ht hlen (fun s hs => by
      obtain ⟨i, hi, rfl⟩ := List.getElem_of_mem hs
      obtain ⟨h5, h6⟩ := (strides_rows content.length).1 i hi
      rw [h6]
      omega) text hseg hf' (by
      have h7 := (strides_rows content.length).2
      omega)
  rwa [alignTo_one] at this

end Nd.Props
