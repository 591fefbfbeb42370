import Verif.Props.BoundedDump
import Verif.Props.Regex
import Verif.Proof.BoundedRegex
/-!
# C46: `--regex`
-/
namespace Nd.Props
open Nd Spec

/-- What the program holds while it prints matches: the text to be written, the matches and the slices they are searched in, and what the stream behind them holds, which `H` counts.
Inside one round the slicer also holds the matches that are just being printed, at most as many as bytes are lent in slices (`RegexSlicer.spares`). -/
def heldSearching (H : σ → Nat) (d : Buffered (ScatterDrain (RegexSlicer (ConstSlicer σ)))) : Nat :=
  d.buf.buf.length + 16 * (d.inner.src.matches_.length + d.inner.src.src.segs.segments.length) + H d.inner.src.src.src

/-- The bound, if the stream lends at most `lent` bytes and holds at most `rest`. -/
def regexLimit (B pitch cols lent rest : Nat) : Nat :=
  25 * B + 7 + (lent / pitch + 1) * pitch * Format.reserve (max cols pitch) + MARGIN + 16 * (lent / pitch + 1) + rest

/-- **C46** (`--width N --regex PATTERN` of any stream, for adjacent slices): a stream that lends at most `N` bytes to clients which ask for at most `stop + 2 * pitch + 1` bytes and leave at most
`stop + 3 * pitch`, and holds at most `L` bytes before such clients, is searched in bounded memory, however many matches there are.  The matches in one slice are not empty and do not start at the same
place, as those of `find_iter`. -/
theorem C46_regex_partial {find : Bytes → List Seg} (hf : Searcher find) (hne : ∀ l, ∀ m ∈ find l, 0 < m.len) (hstrict : ∀ l, (find l).Pairwise fun x y => x.pos < y.pos)
    {S : ByteSrc σ} {F M} {s₀ : σ} {w : Nat} {content : Bytes} (H : σ → Nat) (B fuel fuel' pitch N L : Nat) (f : Formatting) (m : SegmentMapper) (start stop : Int) (hp : 0 < pitch)
    (hm : m.evaluate (0, pitch) (0, pitch) = (start, stop)) (hadj : stop - start = pitch) (hstop : 1 ≤ stop)
    (hA : ServesAmply S F M (stop.toNat + 2 * pitch + 1) s₀ w content) (hM : ∀ m, M m → AnyMargin m)
    (hN : ∀ s n e, LentTo S (stop.toNat + 2 * pitch + 1) (stop.toNat + 3 * pitch) s₀ s n e → n ≤ N)
    (hH : ∀ s, Visited S (stop.toNat + 2 * pitch + 1) (stop.toNat + 3 * pitch) s₀ s → H s ≤ L)
    {p : ConstSlicerParams} (hpar : ConstSlicerParams.fromRaw fuel' pitch m = .ok p) {st : ConstSlicer σ} (hnew : ConstSlicer.new s₀ p = .ok st)
    {d : Buffered (ScatterDrain (RegexSlicer (ConstSlicer σ)))}
    (h : Copying (ScatterDrain.byteSrc (RegexSlicer.segSrc find (ConstSlicer.segSrc S)) f B fuel) B (ScatterDrain.through B (RegexSlicer.new st)) d) :
    heldSearching H d ≤ regexLimit B pitch f.minWidth N L ∧
    ∀ eof n d', (ScatterDrain.byteSrc (RegexSlicer.segSrc find (ConstSlicer.segSrc S)) f B fuel).fill d B = .ok ((eof, n), d') → heldSearching H d' ≤ regexLimit B pitch f.minWidth N L := by
  have hamp := hA
  obtain ⟨R, E, hR, hAm, hs, hE⟩ := hA
  obtain ⟨h1, h2, h3, h4, h5, h6, h7, h8, h9, h10, h11⟩ := ConstSlicerParams.fromRaw_comb hp hpar content.length start stop hm
  have hhead := h10 hstop
  have ok : ConstSlicer.ParamsOk p := ⟨by omega, by omega, h4, h7 hstop, h5, h6, h8 (by omega)⟩
  have hesc : ConstSlicer.escape p ≤ stop.toNat := by
    unfold ConstSlicer.escape
    split <;> omega
  have hspan : p.span = p.pitch := by omega
  rw [← h2] at hN hH hAm hamp ⊢
  have hL' : ConstSlicer.Manner.any.need p.pitch p.span (ConstSlicer.escape p) ≤ stop.toNat + 2 * p.pitch + 1 := by
    simp only [ConstSlicer.Manner.need]
    omega
  obtain ⟨st', hst, hrel⟩ := ConstSlicer.new_spec (Src := S) .any p ok s₀ w content hs hE hL'
  rw [hnew] at hst
  cases hst
  have hfa := ConstSlicer.faithful hR hAm hM .any p.pitch p.span (p.tail + p.span).toNat (ConstSlicer.escape p) hL'
  have hfl : Flush (ConstSlicer.segSrc S) (ConstSlicer.Rel S R E (stop.toNat + 2 * p.pitch + 1) .any p.pitch p.span (p.tail + p.span).toNat (ConstSlicer.escape p)) := by
    rw [hspan]
    exact ConstSlicer.flush _ .any p.pitch _ _
  have hcs := ConstSlicer.spares (S := S) (s₀ := s₀) (P := p.pitch) (W := p.span) (M := (p.tail + p.span).toNat) (esc := ConstSlicer.escape p) (N := N)
    (fun s n e hl => hN s n e (hl.mono (by omega) (by omega)))
    (fun s n hl => by
      have := hl.ample hamp
      omega)
  have hadds := (RegexSlicer.spares hf hne hstrict hfa hfl rfl hcs).adds f (StreamBuf.limit B B 0 0 0 + 1)
  obtain ⟨st', g1, g2, g3, g4, g5⟩ := ConstSlicer.new_inv p ok s₀ 0
  rw [hnew] at g1
  cases g1
  have hrests : (ScatterDrain.through B (RegexSlicer.new st)).Rests B B 0 ((N / p.pitch + 1) * p.span * Format.reserve (max f.minWidth p.span)) 1
      (fun d => RegexSlicer.AtRest (ConstSlicer.Rel S R E (stop.toNat + 2 * p.pitch + 1) .any p.pitch p.span (p.tail + p.span).toNat (ConstSlicer.escape p))
        (ConstSlicer.AtRest S s₀ p.pitch p.span (p.tail + p.span).toNat (ConstSlicer.escape p) N) d.src)
      fun d => RegexSlicer.Spent (ConstSlicer.Spent S s₀ p.pitch p.span (ConstSlicer.escape p) N) d.src := by
    refine ⟨StreamBuf.Small.new _ _ _ _ _ _ (by decide), rfl, ?_⟩
    simp only [ScatterDrain.through, StreamBuf.new, StreamBuf.newWithAlign, Bool.false_eq_true, if_false, ScatterDrain.new]
    exact ⟨⟨⟨by simp only [RegexSlicer.new]; rw [g2]; exact .start, by simp only [RegexSlicer.new]; rw [g3]; exact Nat.zero_le _⟩, _, g5⟩, rfl, _, _, _, _, hrel⟩
  have hv := h.visited
  have key : ∀ d d', Visited (ScatterDrain.byteSrc (RegexSlicer.segSrc find (ConstSlicer.segSrc S)) f B fuel) B 0 (ScatterDrain.through B (RegexSlicer.new st)) d → d.inner = d'.inner →
      d'.buf.buf.length ≤ StreamBuf.limit B B 0 ((N / p.pitch + 1) * p.span * Format.reserve (max f.minWidth p.span)) 1 + MARGIN →
      heldSearching H d' ≤ regexLimit B p.pitch f.minWidth N L := by
    intro d d' hv hin htext
    have hr := hv.rests hadds (Nat.lt_succ_self _) hrests
    have hsp : RegexSlicer.Spent (ConstSlicer.Spent S s₀ p.pitch p.span (ConstSlicer.escape p) N) d'.inner.src := by
      rw [← hin]
      have := hr.inner
      split at this
      · exact this
      · exact ⟨this.src.spent, this.matches_⟩
    have hrest := hH _ (hsp.src.src.mono (by omega) (by omega))
    have hfew := hsp.src.few
    unfold heldSearching regexLimit
    unfold StreamBuf.limit at htext
    rw [hspan] at htext
    rw [hsp.matches_, List.length_nil]
    omega
  refine ⟨key d d hv rfl ?_, fun eof n d' hfill => ?_⟩
  · have hr := hv.rests hadds (Nat.lt_succ_self _) hrests
    have htext := small_length hr.small
    rw [hr.align] at htext
    exact htext
  · have hl := (LentTo.bounded hadds (Nat.lt_succ_self _) hrests ⟨d, B, hv, Nat.le_refl _, hfill⟩).1
    exact key _ d' (hv.round (Nat.le_refl _) hfill (Nat.le_refl n) (fun _ => by omega) rfl) rfl hl

/-- The bound for concatenated files. -/
def regexFilesLimit (B pitch stop cols files : Nat) : Nat :=
  regexLimit B pitch cols (catLimit B (stop + 2 * pitch + 1) (stop + 3 * pitch) 1)
    (catLimit B (stop + 2 * pitch + 1) (stop + 3 * pitch) 1 + fileLimit B (catRequest B (stop + 2 * pitch + 1) (stop + 3 * pitch)) (stop + 3 * pitch) 1 + (files + 2) * MARGIN)

/-- **C46** (`--width N --regex PATTERN FILE...`): files of any length are searched in bounded memory, for adjacent slices that are small compared with the block. -/
theorem C46_regex_files_partial {find : Bytes → List Seg} (hf : Searcher find) (hne : ∀ l, ∀ m ∈ find l, 0 < m.len) (hstrict : ∀ l, (find l).Pairwise fun x y => x.pos < y.pos)
    (B fuel fuel' pitch : Nat) (filler : Byte) (files : Files) (f : Formatting) (m : SegmentMapper) (start stop : Int) (hB : 0 < B) (hnf : files ≠ []) (hfu : enough 1 files < fuel) (hp : 0 < pitch)
    (hm : m.evaluate (0, pitch) (0, pitch) = (start, stop)) (hadj : stop - start = pitch) (hstop : 1 ≤ stop) (hL : stop.toNat + 2 * pitch + 1 ≤ (B - 1784) / 8)
    {p : ConstSlicerParams} (hpar : ConstSlicerParams.fromRaw fuel' pitch m = .ok p) {st : ConstSlicer (CatStream (Buffered Reader))}
    (hnew : ConstSlicer.new (CatStream.new B (rawStreams B 1 filler files)) p = .ok st) {d : Buffered (ScatterDrain (RegexSlicer (ConstSlicer (CatStream (Buffered Reader)))))}
    (h : Copying (ScatterDrain.byteSrc (RegexSlicer.segSrc find (ConstSlicer.segSrc (CatStream.byteSrc (RawStream.byteSrc B fuel) B fuel))) f B fuel) B (ScatterDrain.through B (RegexSlicer.new st)) d) :
    heldSearching catHeld d ≤ regexFilesLimit B pitch stop.toNat f.minWidth files.length ∧
    ∀ eof n d', (ScatterDrain.byteSrc (RegexSlicer.segSrc find (ConstSlicer.segSrc (CatStream.byteSrc (RawStream.byteSrc B fuel) B fuel))) f B fuel).fill d B = .ok ((eof, n), d') →
      heldSearching catHeld d' ≤ regexFilesLimit B pitch stop.toNat f.minWidth files.length :=
  C46_regex_partial hf hne hstrict catHeld B fuel fuel' pitch _ _ f m start stop hp hm hadj hstop ((cat_amply B fuel 1 filler files hB (by decide) hnf hfu).mono (fun _ h => h) (fun _ h => h) hL)
    (fun _ h => h) (fun _ n e hl => (C46_cat B fuel _ _ 1 filler (by decide) files hnf).1 n e hl) (fun _ hv => (C46_cat B fuel _ _ 1 filler (by decide) files hnf).2 hv) hpar hnew h

def sampleSearching : ByteSrc (Buffered (ScatterDrain (RegexSlicer (ConstSlicer (CatStream (Buffered Reader)))))) :=
  ScatterDrain.byteSrc (RegexSlicer.segSrc (byteSearch 3) (ConstSlicer.segSrc (CatStream.byteSrc (RawStream.byteSrc 2200 200) 2200 200))) { style := .hhh, minWidth := 16 } 2200 200

/-- The hypotheses are met by slices of four bytes of two files, searched for the byte 3, which occurs three times. -/
example : ∃ st d, ConstSlicer.new (CatStream.new 2200 (rawStreams 2200 1 0 [([1, 2, 3, 4, 5], fun _ => some 3), ([3, 3], fun _ => some 2)])) { head := 0, tail := -3, pitch := 4, span := 4 } = .ok st ∧
    Copying sampleSearching 2200 (ScatterDrain.through 2200 (RegexSlicer.new st)) d ∧ d.inner.lines = 3 ∧ heldSearching catHeld d ≤ regexFilesLimit 2200 4 4 16 2 := by
  obtain ⟨st, hst⟩ : ∃ st, ConstSlicer.new (CatStream.new 2200 (rawStreams 2200 1 0 [([1, 2, 3, 4, 5], fun _ => some 3), ([3, 3], fun _ => some 2)])) { head := 0, tail := -3, pitch := 4, span := 4 } = .ok st :=
    ⟨_, rfl⟩
  have hrun : (match ConstSlicer.new (CatStream.new 2200 (rawStreams 2200 1 0 [([1, 2, 3, 4, 5], fun _ => some 3), ([3, 3], fun _ => some 2)])) { head := 0, tail := -3, pitch := 4, span := 4 } with
    | .error _ => 0
    | .ok st => match sampleSearching.fill (ScatterDrain.through 2200 (RegexSlicer.new st)) 2200 with
      | .error _ => 0
      | .ok (r, d) => match sampleSearching.consume d r.2 with
        | .error _ => 0
        | .ok d => d.inner.lines) = 3 := by decide +kernel
  simp only [hst] at hrun
  split at hrun
  · cases hrun
  · rename_i r d hfill
    split at hrun
    · cases hrun
    · rename_i d' hcons
      obtain ⟨eof, n⟩ := r
      have hc : Copying sampleSearching 2200 (ScatterDrain.through 2200 (RegexSlicer.new st)) d' := Copying.start.next hfill hcons
      refine ⟨st, d', hst, hc, hrun, (C46_regex_files_partial (byteSearch_searcher 3) ?_ ?_ 2200 200 2 4 0 [([1, 2, 3, 4, 5], fun _ => some 3), ([3, 3], fun _ => some 2)] { style := .hhh, minWidth := 16 }
        (fromStart 0 4) 0 4 (by decide) (by decide) (by decide) (by decide) (by decide) (by decide) (by decide) (by decide) (p := { head := 0, tail := -3, pitch := 4, span := 4 }) (by decide) hst hc).1⟩
      · intro l m hm
        obtain ⟨i, _, rfl⟩ := List.mem_map.1 hm
        exact Nat.one_pos
      · intro l
        unfold byteSearch
        rw [List.pairwise_map]
        exact List.pairwise_lt_range.filter _

end Nd.Props
