import Verif.Props.BoundedDump
import Verif.Props.Filter
import Verif.Proof.BoundedLines
/-!
# C46: `--lines`
-/
namespace Nd.Props
open Nd Spec

/-- What the program holds while it prints some of the slices: the text to be written, the slices of both streams, and what the stream behind them holds, which `H` counts.
Inside one round the filter also holds the slices that are just being printed, at most as many as are lent (`FilterStream.spares`). -/
def heldPicking (H : σ → Nat) (d : Buffered (ScatterDrain (FilterStream (ConstSlicer σ)))) : Nat :=
  d.buf.buf.length + 16 * (d.inner.src.segments.length + d.inner.src.src.segs.segments.length) + H d.inner.src.src.src

/-- Both ends are counted from the first slice. -/
def FromFirst (m : SegmentMapper) : Prop := m.start.anchor = 0 ∧ m.stop.anchor = 0

theorem lines_rests {st : σ} {R : σ → SegPhase → Nat → Bytes → List Seg → Prop} {P : σ → Prop} {T lb w : Nat} {rem : Bytes} {segs : List Seg} {oc : Bool} {ms : List SegmentMapper} (hms : ∀ m ∈ ms, FromFirst m)
    (hP : P st) (hR : R st (.idle lb) w rem segs) (hT : segs.length ≤ T) {fl : FilterStream σ} (hfl : FilterStream.new oc st (ms.map RangeMapper.ofMapper) = .ok fl) :
    fl.src = st ∧ fl.AtRest R P T := by
  have hleft : ∀ r ∈ ms.map RangeMapper.ofMapper, r.hasRightAnchor = false := by
    intro r hr
    obtain ⟨m, hm, rfl⟩ := List.mem_map.1 hr
    simp [RangeMapper.hasRightAnchor, RangeMapper.ofMapper, RangeMapper.anchorOf, (hms m hm).1, (hms m hm).2]
  have hnone : (ms.map RangeMapper.ofMapper).filter RangeMapper.hasRightAnchor = [] := by
    rw [List.filter_eq_nil_iff]
    intro r hr
    simp [hleft r hr]
  unfold FilterStream.new Cutter.ofRanges at hfl
  simp only [hnone] at hfl
  cases hfl
  exact ⟨rfl, hP, rfl, rfl, rfl, rfl, lb, w, rem, segs, hR, by simp only; omega⟩

/-- **C46** (`--width N --lines RANGE,...` of any stream, until the end of the slices is reported): with ranges counted from the first slice and slices without gaps, a stream that lends at most `N` bytes to
clients which ask for at most `stop - start + stop + pitch + 1` bytes and leave at most `stop - start + stop + 2 * pitch`, and holds at most `L` bytes before such clients, is printed in bounded memory. -/
theorem C46_lines_partial {S : ByteSrc σ} {F M} {s₀ : σ} {w : Nat} {content : Bytes} (H : σ → Nat) (B fuel fuel' pitch N L : Nat) (f : Formatting) (m : SegmentMapper) (start stop : Int) (oc : Bool)
    (ms : List SegmentMapper) (hms : ∀ m ∈ ms, FromFirst m) (hp : 0 < pitch) (hm : m.evaluate (0, pitch) (0, pitch) = (start, stop)) (hgap : pitch ≤ stop - start) (hstop : 1 ≤ stop) (hstart : -(15 * pitch) < start)
    (hA : ServesAmply S F M ((stop - start).toNat + stop.toNat + pitch + 1) s₀ w content) (hM : ∀ m, M m → AnyMargin m) (hfit : content.length ≤ usizeMax)
    (hN : ∀ s n e, LentTo S ((stop - start).toNat + stop.toNat + pitch + 1) ((stop - start).toNat + stop.toNat + 2 * pitch) s₀ s n e → n ≤ N)
    (hH : ∀ s, Visited S ((stop - start).toNat + stop.toNat + pitch + 1) ((stop - start).toNat + stop.toNat + 2 * pitch) s₀ s → H s ≤ L)
    {p : ConstSlicerParams} (hpar : ConstSlicerParams.fromRaw fuel' pitch m = .ok p) {st : ConstSlicer σ} (hnew : ConstSlicer.new s₀ p = .ok st)
    {fl : FilterStream (ConstSlicer σ)} (hfl : FilterStream.new oc st (ms.map RangeMapper.ofMapper) = .ok fl) {d : Buffered (ScatterDrain (FilterStream (ConstSlicer σ)))}
    (h : Copying (ScatterDrain.byteSrc (FilterStream.segSrc (ConstSlicer.segSrc S)) f B fuel) B (ScatterDrain.through B fl) d) :
    (d.buf.isEof = false → heldPicking H d ≤ dumpLimit B pitch (stop - start).toNat f.minWidth N L) ∧
    ∀ eof n d', (ScatterDrain.byteSrc (FilterStream.segSrc (ConstSlicer.segSrc S)) f B fuel).fill d B = .ok ((eof, n), d') → d'.buf.isEof = false →
      heldPicking H d' ≤ dumpLimit B pitch (stop - start).toNat f.minWidth N L := by
  have hamp := hA
  obtain ⟨R, E, hR, hAm, hs, hE⟩ := hA
  obtain ⟨h1, h2, h3, h4, h5, h6, h7, h8, h9, h10, h11⟩ := ConstSlicerParams.fromRaw_comb hp hpar content.length start stop hm
  have hhead := h10 hstop
  have ok : ConstSlicer.ParamsOk p := ⟨by omega, by omega, h4, h7 hstop, h5, h6, h8 hstart⟩
  have hesc : ConstSlicer.escape p ≤ stop.toNat := by
    unfold ConstSlicer.escape
    split <;> omega
  have hspan : (stop - start).toNat = p.span := by omega
  rw [← h2, hspan] at hN hH hAm hamp ⊢
  have hL' : ConstSlicer.Manner.any.need p.pitch p.span (ConstSlicer.escape p) ≤ p.span + stop.toNat + p.pitch + 1 := by
    simp only [ConstSlicer.Manner.need]
    omega
  obtain ⟨st', hst, hrel⟩ := ConstSlicer.new_spec (Src := S) .any p ok s₀ w content hs hE hL'
  rw [hnew] at hst
  cases hst
  have hcount : (comb p.head p.pitch p.span (p.tail + p.span).toNat content.length).length ≤ usizeMax := by
    simp only [comb, List.length_map, List.length_range]
    refine Nat.le_trans (Nat.le_of_not_lt fun hlt => ?_) hfit
    have h := (lt_ccount ok.pitch).1 hlt
    have : (content.length : Int) * 1 ≤ content.length * p.pitch := Int.mul_le_mul_of_nonneg_left (by have := ok.pitch; omega) (by omega)
    omega
  have hfa := ConstSlicer.faithful hR hAm hM .any p.pitch p.span (p.tail + p.span).toNat (ConstSlicer.escape p) hL'
  have hcs := ConstSlicer.spares (S := S) (s₀ := s₀) (P := p.pitch) (W := p.span) (M := (p.tail + p.span).toNat) (esc := ConstSlicer.escape p) (N := N)
    (fun s n e hl => hN s n e (hl.mono (by omega) (by omega)))
    (fun s n hl => by
      have := hl.ample hamp
      omega)
  have hadds := (FilterStream.spares hfa rfl (by simp [ConstSlicer.kind]; omega) (Nat.le_refl usizeMax) hcs).adds f (StreamBuf.limit B B 0 0 0 + 1)
  obtain ⟨st', g1, g2, g3, g4, g5⟩ := ConstSlicer.new_inv p ok s₀ 0
  rw [hnew] at g1
  cases g1
  have hrests : (ScatterDrain.through B fl).Rests B B 0 ((N / p.pitch + 1) * Format.reserve (max f.minWidth p.span)) 1
      (fun d => FilterStream.AtRest (ConstSlicer.Rel S R E (p.span + stop.toNat + p.pitch + 1) .any p.pitch p.span (p.tail + p.span).toNat (ConstSlicer.escape p))
        (ConstSlicer.AtRest S s₀ p.pitch p.span (p.tail + p.span).toNat (ConstSlicer.escape p) N) usizeMax d.src) fun _ => True := by
    refine ⟨StreamBuf.Small.new _ _ _ _ _ _ (by decide), rfl, ?_⟩
    simp only [ScatterDrain.through, StreamBuf.new, StreamBuf.newWithAlign, Bool.false_eq_true, if_false, ScatterDrain.new]
    exact (lines_rests hms ⟨⟨by rw [g2]; exact .start, by rw [g3]; exact Nat.zero_le _⟩, _, g5⟩ hrel hcount hfl).2
  have hv := h.visited
  have key : ∀ d d', Visited (ScatterDrain.byteSrc (FilterStream.segSrc (ConstSlicer.segSrc S)) f B fuel) B 0 (ScatterDrain.through B fl) d → d.inner = d'.inner → d.buf.isEof = d'.buf.isEof →
      d'.buf.buf.length ≤ StreamBuf.limit B B 0 ((N / p.pitch + 1) * Format.reserve (max f.minWidth p.span)) 1 + MARGIN → d'.buf.isEof = false →
      heldPicking H d' ≤ dumpLimit B p.pitch p.span f.minWidth N L := by
    intro d d' hv hin heof htext hend
    have hr := (hv.rests hadds (Nat.lt_succ_self _) hrests).inner
    rw [heof, hend, if_neg (by simp), hin] at hr
    have hrest := hH _ (hr.src.spent.src.mono (by omega) (by omega))
    have hfew := hr.src.spent.few
    unfold heldPicking dumpLimit
    unfold StreamBuf.limit at htext
    rw [hr.segments, List.length_nil]
    omega
  refine ⟨key d d hv rfl rfl ?_, fun eof n d' hfill => ?_⟩
  · have hr := hv.rests hadds (Nat.lt_succ_self _) hrests
    have htext := small_length hr.small
    rw [hr.align] at htext
    exact htext
  · have hl := (LentTo.bounded hadds (Nat.lt_succ_self _) hrests ⟨d, B, hv, Nat.le_refl _, hfill⟩).1
    exact key _ d' (hv.round (Nat.le_refl _) hfill (Nat.le_refl n) (fun _ => by omega) rfl) rfl (StreamBuf.consume_keeps _ _ _).2 hl

/-- The bound for concatenated files. -/
def linesFilesLimit (B pitch span stop cols files : Nat) : Nat :=
  dumpLimit B pitch span cols (catLimit B (span + stop + pitch + 1) (span + stop + 2 * pitch) 1)
    (catLimit B (span + stop + pitch + 1) (span + stop + 2 * pitch) 1 + fileLimit B (catRequest B (span + stop + pitch + 1) (span + stop + 2 * pitch)) (span + stop + 2 * pitch) 1 + (files + 2) * MARGIN)

/-- **C46** (`--width N --lines RANGE,... FILE...`, until the end of the slices is reported): files of any length, for slices without gaps that are small compared with the block. -/
theorem C46_lines_files_partial (B fuel fuel' pitch : Nat) (filler : Byte) (files : Files) (f : Formatting) (m : SegmentMapper) (start stop : Int) (oc : Bool) (ms : List SegmentMapper)
    (hms : ∀ m ∈ ms, FromFirst m) (hB : 0 < B) (hnf : files ≠ []) (hfu : enough 1 files < fuel) (hfit : (files.map fun f => f.1.length).sum ≤ usizeMax) (hp : 0 < pitch)
    (hm : m.evaluate (0, pitch) (0, pitch) = (start, stop)) (hgap : pitch ≤ stop - start) (hstop : 1 ≤ stop) (hstart : -(15 * pitch) < start)
    (hL : (stop - start).toNat + stop.toNat + pitch + 1 ≤ (B - 1784) / 8)
    {p : ConstSlicerParams} (hpar : ConstSlicerParams.fromRaw fuel' pitch m = .ok p) {st : ConstSlicer (CatStream (Buffered Reader))}
    (hnew : ConstSlicer.new (CatStream.new B (rawStreams B 1 filler files)) p = .ok st) {fl : FilterStream (ConstSlicer (CatStream (Buffered Reader)))}
    (hfl : FilterStream.new oc st (ms.map RangeMapper.ofMapper) = .ok fl) {d : Buffered (ScatterDrain (FilterStream (ConstSlicer (CatStream (Buffered Reader)))))}
    (h : Copying (ScatterDrain.byteSrc (FilterStream.segSrc (ConstSlicer.segSrc (CatStream.byteSrc (RawStream.byteSrc B fuel) B fuel))) f B fuel) B (ScatterDrain.through B fl) d) :
    (d.buf.isEof = false → heldPicking catHeld d ≤ linesFilesLimit B pitch (stop - start).toNat stop.toNat f.minWidth files.length) ∧
    ∀ eof n d', (ScatterDrain.byteSrc (FilterStream.segSrc (ConstSlicer.segSrc (CatStream.byteSrc (RawStream.byteSrc B fuel) B fuel))) f B fuel).fill d B = .ok ((eof, n), d') → d'.buf.isEof = false →
      heldPicking catHeld d' ≤ linesFilesLimit B pitch (stop - start).toNat stop.toNat f.minWidth files.length :=
  C46_lines_partial catHeld B fuel fuel' pitch _ _ f m start stop oc ms hms hp hm hgap hstop hstart ((cat_amply B fuel 1 filler files hB (by decide) hnf hfu).mono (fun _ h => h) (fun _ h => h) hL)
    (fun _ h => h) (by rw [cat_length]; exact hfit) (fun _ n e hl => (C46_cat B fuel _ _ 1 filler (by decide) files hnf).1 n e hl)
    (fun _ hv => (C46_cat B fuel _ _ 1 filler (by decide) files hnf).2 hv) hpar hnew hfl h

def samplePicking : ByteSrc (Buffered (ScatterDrain (FilterStream (ConstSlicer (CatStream (Buffered Reader)))))) :=
  ScatterDrain.byteSrc (FilterStream.segSrc (ConstSlicer.segSrc (CatStream.byteSrc (RawStream.byteSrc 2200 20000) 2200 20000))) { style := .hhh, minWidth := 16 } 2200 20000

/-- The hypotheses are met by `--width 4 --lines 0..40,900..902` on a file of 3000 bytes: forty slices have been printed, and the end has not been reached. -/
example : ∃ st fl d, ConstSlicer.new (CatStream.new 2200 (rawStreams 2200 1 0 [(List.replicate 3000 7, fun _ => some 700)])) { head := 0, tail := -3, pitch := 4, span := 4 } = .ok st ∧
    FilterStream.new false st ([⟨⟨0, 0⟩, ⟨0, 40⟩⟩, ⟨⟨0, 900⟩, ⟨0, 902⟩⟩].map RangeMapper.ofMapper) = .ok fl ∧
    Copying samplePicking 2200 (ScatterDrain.through 2200 fl) d ∧ (d.inner.lines = 40 ∧ d.buf.isEof = false) ∧ heldPicking catHeld d ≤ linesFilesLimit 2200 4 4 4 16 1 := by
  obtain ⟨st, hst⟩ : ∃ st, ConstSlicer.new (CatStream.new 2200 (rawStreams 2200 1 0 [(List.replicate 3000 7, fun _ => some 700)])) { head := 0, tail := -3, pitch := 4, span := 4 } = .ok st := ⟨_, rfl⟩
  obtain ⟨fl, hfl⟩ := C25_new_ok st ([⟨⟨0, 0⟩, ⟨0, 40⟩⟩, ⟨⟨0, 900⟩, ⟨0, 902⟩⟩].map RangeMapper.ofMapper)
  have hrun : (match ConstSlicer.new (CatStream.new 2200 (rawStreams 2200 1 0 [(List.replicate 3000 7, fun _ => some 700)])) { head := 0, tail := -3, pitch := 4, span := 4 } with
    | .error _ => (0, true)
    | .ok st => match FilterStream.new false st ([⟨⟨0, 0⟩, ⟨0, 40⟩⟩, ⟨⟨0, 900⟩, ⟨0, 902⟩⟩].map RangeMapper.ofMapper) with
      | .error _ => (0, true)
      | .ok fl => match samplePicking.fill (ScatterDrain.through 2200 fl) 2200 with
        | .error _ => (0, true)
        | .ok (r, d) => match samplePicking.consume d r.2 with
          | .error _ => (0, true)
          | .ok d => (d.inner.lines, d.buf.isEof)) = (40, false) := by decide +kernel
  simp only [hst, hfl] at hrun
  split at hrun
  · cases hrun
  · rename_i r d hfill
    split at hrun
    · cases hrun
    · rename_i d' hcons
      obtain ⟨eof, n⟩ := r
      have hc : Copying samplePicking 2200 (ScatterDrain.through 2200 fl) d' := Copying.start.next hfill hcons
      have hrun := Prod.mk.inj hrun
      refine ⟨st, fl, d', hst, hfl, hc, hrun, (C46_lines_files_partial 2200 20000 2 4 0 [(List.replicate 3000 7, fun _ => some 700)] { style := .hhh, minWidth := 16 } (fromStart 0 4) 0 4 false
        [⟨⟨0, 0⟩, ⟨0, 40⟩⟩, ⟨⟨0, 900⟩, ⟨0, 902⟩⟩] ?_ (by decide) (List.cons_ne_nil _ _) (by decide +kernel) (by decide +kernel) (by decide) (by decide) (by decide) (by decide) (by decide) (by decide)
        (p := { head := 0, tail := -3, pitch := 4, span := 4 }) (by decide) hst hfl hc).1 hrun.2⟩
      unfold FromFirst
      decide

end Nd.Props
