import Verif.Props.BoundedFind
import Verif.Props.BoundedLines
import Verif.Props.Find
/-!
# C46: `--lines` behind `--find`
-/
namespace Nd.Props
open Nd Spec

/-- What the program holds while it prints some of the occurrences: the text to be written, the slices of both streams, and what the stream behind them holds, which `H` counts. -/
def heldSelecting (H : σ → Nat) (d : Buffered (ScatterDrain (FilterStream (ExactMatchSlicer σ)))) : Nat :=
  d.buf.buf.length + 16 * (d.inner.src.segments.length + d.inner.src.src.segments.length) + H d.inner.src.src.src

theorem occurrences_length (p content : Bytes) : (occurrences p content).length ≤ content.length := by
  rw [occurrences_eq]
  simp only [occIn, List.length_map]
  refine Nat.le_trans (List.length_filter_le _ _) ?_
  simp

/-- **C46** (`--find ARRAY --lines RANGE,...` of any stream, until the end of the slices is reported): with ranges counted from the first occurrence and an array that does not overlap itself, what is held is
bounded as for `--find`. -/
theorem C46_find_lines_partial {S : ByteSrc σ} {F M} {s₀ : σ} {w : Nat} {content : Bytes} (H : σ → Nat) (I : Impl) (B fuel N L : Nat) (f : Formatting) (oc : Bool) (ms : List SegmentMapper) (hms : ∀ m ∈ ms, FromFirst m)
    {text : Bytes} {st : ExactMatchSlicer σ} (hnew : ExactMatchSlicer.new I s₀ text = .ok st) (hub : Unbordered st.pattern) (hpat : 0 < st.pattern.length) (hA : ServesAmply S F M st.pattern.length s₀ w content)
    (hM : ∀ m, M m → AnyMargin m) (hfit : content.length ≤ usizeMax) (hN : ∀ s n e, LentTo S B st.pattern.length s₀ s n e → n ≤ N) (hH : ∀ s, Visited S B st.pattern.length s₀ s → H s ≤ L)
    {fl : FilterStream (ExactMatchSlicer σ)} (hfl : FilterStream.new oc st (ms.map RangeMapper.ofMapper) = .ok fl) {d : Buffered (ScatterDrain (FilterStream (ExactMatchSlicer σ)))}
    (h : Copying (ScatterDrain.byteSrc (FilterStream.segSrc (ExactMatchSlicer.segSrc S B)) f B fuel) B (ScatterDrain.through B fl) d) :
    (d.buf.isEof = false → heldSelecting H d ≤ findLimit B st.pattern.length f.minWidth N L) ∧
    ∀ eof n d', (ScatterDrain.byteSrc (FilterStream.segSrc (ExactMatchSlicer.segSrc S B)) f B fuel).fill d B = .ok ((eof, n), d') → d'.buf.isEof = false →
      heldSelecting H d' ≤ findLimit B st.pattern.length f.minWidth N L := by
  have hform : st = { src := s₀, segments := [], scanned := 0, pattern := st.pattern } := by
    unfold ExactMatchSlicer.new at hnew
    split at hnew
    · cases hnew
    · cases hnew
      rfl
  have hst : st.AtRest S B st.pattern s₀ := by
    rw [hform]
    exact ⟨.start, rfl, rfl, rfl⟩
  obtain ⟨R, hfa, _, hrel⟩ := ExactMatchSlicer.serves hub hA hM (Nat.le_refl _) hpat B
  rw [← hform] at hrel
  have hsp : (ExactMatchSlicer.segSrc S B).Spares (ExactMatchSlicer.AtRest S B st.pattern s₀) (ExactMatchSlicer.AtRest S B st.pattern s₀) N st.pattern.length :=
    fun _ _ _ _ _ _ _ _ h0 hf hc => let ⟨h1, h2, h3⟩ := ExactMatchSlicer.sparing hN (fun s n hl => hl.ample hA) _ _ _ _ _ _ _ _ h0 hf hc; ⟨h1, fun _ => h1, h2, h3⟩
  have hadds := (FilterStream.spares hfa rfl rfl (Nat.le_refl usizeMax) hsp).adds f (StreamBuf.limit B B 0 0 0 + 1)
  have hrests : (ScatterDrain.through B fl).Rests B B 0 (N * Format.reserve (max f.minWidth st.pattern.length)) 1
      (fun d => FilterStream.AtRest R (ExactMatchSlicer.AtRest S B st.pattern s₀) usizeMax d.src) fun _ => True := by
    refine ⟨StreamBuf.Small.new _ _ _ _ _ _ (by decide), rfl, ?_⟩
    simp only [ScatterDrain.through, StreamBuf.new, StreamBuf.newWithAlign, Bool.false_eq_true, if_false, ScatterDrain.new]
    exact (lines_rests hms hst hrel (Nat.le_trans (occurrences_length _ _) hfit) hfl).2
  have hv := h.visited
  have key : ∀ d d', Visited (ScatterDrain.byteSrc (FilterStream.segSrc (ExactMatchSlicer.segSrc S B)) f B fuel) B 0 (ScatterDrain.through B fl) d → d.inner = d'.inner → d.buf.isEof = d'.buf.isEof →
      d'.buf.buf.length ≤ StreamBuf.limit B B 0 (N * Format.reserve (max f.minWidth st.pattern.length)) 1 + MARGIN → d'.buf.isEof = false →
      heldSelecting H d' ≤ findLimit B st.pattern.length f.minWidth N L := by
    intro d d' hv hin heof htext hend
    have hr := (hv.rests hadds (Nat.lt_succ_self _) hrests).inner
    rw [heof, hend, if_neg (by simp), hin] at hr
    have hrest := hH _ hr.src.src
    unfold heldSelecting findLimit
    unfold StreamBuf.limit at htext
    rw [hr.segments, hr.src.segments, List.length_nil]
    omega
  refine ⟨key d d hv rfl rfl ?_, fun eof n d' hfill => ?_⟩
  · have hr := hv.rests hadds (Nat.lt_succ_self _) hrests
    have htext := small_length hr.small
    rw [hr.align] at htext
    exact htext
  · have hl := (LentTo.bounded hadds (Nat.lt_succ_self _) hrests ⟨d, B, hv, Nat.le_refl _, hfill⟩).1
    exact key _ d' (hv.round (Nat.le_refl _) hfill (Nat.le_refl n) (fun _ => by omega) rfl) rfl (StreamBuf.consume_keeps _ _ _).2 hl

/-- **C46** (`--find ARRAY --lines RANGE,... FILE...`, until the end of the slices is reported). -/
theorem C46_find_lines_files_partial (I : Impl) (B fuel : Nat) (filler : Byte) (files : Files) (f : Formatting) (oc : Bool) (ms : List SegmentMapper) (hms : ∀ m ∈ ms, FromFirst m) (hB : 0 < B) (hne : files ≠ [])
    (hf : enough 1 files < fuel) (hfit : (files.map fun f => f.1.length).sum ≤ usizeMax) {text : Bytes} {st : ExactMatchSlicer (CatStream (Buffered Reader))}
    (hnew : ExactMatchSlicer.new I (CatStream.new B (rawStreams B 1 filler files)) text = .ok st) (hub : Unbordered st.pattern) (hpat : 0 < st.pattern.length) (hL : st.pattern.length ≤ (B - 1784) / 8)
    {fl : FilterStream (ExactMatchSlicer (CatStream (Buffered Reader)))} (hfl : FilterStream.new oc st (ms.map RangeMapper.ofMapper) = .ok fl)
    {d : Buffered (ScatterDrain (FilterStream (ExactMatchSlicer (CatStream (Buffered Reader)))))}
    (h : Copying (ScatterDrain.byteSrc (FilterStream.segSrc (ExactMatchSlicer.segSrc (CatStream.byteSrc (RawStream.byteSrc B fuel) B fuel) B)) f B fuel) B (ScatterDrain.through B fl) d) :
    (d.buf.isEof = false → heldSelecting catHeld d ≤ findFilesLimit B st.pattern.length f.minWidth files.length) ∧
    ∀ eof n d', (ScatterDrain.byteSrc (FilterStream.segSrc (ExactMatchSlicer.segSrc (CatStream.byteSrc (RawStream.byteSrc B fuel) B fuel) B)) f B fuel).fill d B = .ok ((eof, n), d') → d'.buf.isEof = false →
      heldSelecting catHeld d' ≤ findFilesLimit B st.pattern.length f.minWidth files.length :=
  C46_find_lines_partial catHeld I B fuel _ _ f oc ms hms hnew hub hpat ((cat_amply B fuel 1 filler files hB (by decide) hne hf).mono (fun _ h => h) (fun _ h => h) hL) (fun _ h => h)
    (by rw [cat_length]; exact hfit) (fun _ n e hl => (C46_cat B fuel _ _ 1 filler (by decide) files hne).1 n e hl) (fun _ hv => (C46_cat B fuel _ _ 1 filler (by decide) files hne).2 hv) hfl h

def sampleSelecting : ByteSrc (Buffered (ScatterDrain (FilterStream (ExactMatchSlicer (CatStream (Buffered Reader)))))) :=
  ScatterDrain.byteSrc (FilterStream.segSrc (ExactMatchSlicer.segSrc (CatStream.byteSrc (RawStream.byteSrc 2200 20000) 2200 20000) 2200)) { style := .hhh, minWidth := 16 } 2200 20000

/-- Forty times the byte `A` and 2960 others. -/
def sampleLetters : Files := [(List.replicate 40 65 ++ List.replicate 2960 0, fun _ => some 700)]

/-- The hypotheses are met by `--find 41 --lines 0..40,50..51`: forty occurrences have been printed, and the end has not been reached. -/
example : ∃ st fl d, ExactMatchSlicer.new .portable (CatStream.new 2200 (rawStreams 2200 1 0 sampleLetters)) [52, 49] = .ok st ∧
    FilterStream.new false st ([⟨⟨0, 0⟩, ⟨0, 40⟩⟩, ⟨⟨0, 50⟩, ⟨0, 51⟩⟩].map RangeMapper.ofMapper) = .ok fl ∧
    Copying sampleSelecting 2200 (ScatterDrain.through 2200 fl) d ∧ (d.inner.lines = 40 ∧ d.buf.isEof = false) ∧ heldSelecting catHeld d ≤ findFilesLimit 2200 1 16 1 := by
  have hpat : (match ExactMatchSlicer.new .portable (CatStream.new 2200 (rawStreams 2200 1 0 sampleLetters)) [52, 49] with
    | .error _ => []
    | .ok st => st.pattern) = [65] := by decide +kernel
  have hrun : (match ExactMatchSlicer.new .portable (CatStream.new 2200 (rawStreams 2200 1 0 sampleLetters)) [52, 49] with
    | .error _ => (0, true)
    | .ok st => match FilterStream.new false st ([⟨⟨0, 0⟩, ⟨0, 40⟩⟩, ⟨⟨0, 50⟩, ⟨0, 51⟩⟩].map RangeMapper.ofMapper) with
      | .error _ => (0, true)
      | .ok fl => match sampleSelecting.fill (ScatterDrain.through 2200 fl) 2200 with
        | .error _ => (0, true)
        | .ok (r, d) => match sampleSelecting.consume d r.2 with
          | .error _ => (0, true)
          | .ok d => (d.inner.lines, d.buf.isEof)) = (40, false) := by decide +kernel
  split at hrun
  · cases hrun
  · rename_i st hst
    rw [hst] at hpat
    simp only at hpat
    obtain ⟨fl, hfl⟩ := C25_new_ok st ([⟨⟨0, 0⟩, ⟨0, 40⟩⟩, ⟨⟨0, 50⟩, ⟨0, 51⟩⟩].map RangeMapper.ofMapper)
    rw [hfl] at hrun
    simp only at hrun
    split at hrun
    · cases hrun
    · rename_i r d hfill
      split at hrun
      · cases hrun
      · rename_i d' hcons
        obtain ⟨eof, n⟩ := r
        have hc : Copying sampleSelecting 2200 (ScatterDrain.through 2200 fl) d' := Copying.start.next hfill hcons
        have hrun := Prod.mk.inj hrun
        have hmain := (C46_find_lines_files_partial .portable 2200 20000 0 sampleLetters { style := .hhh, minWidth := 16 } false [⟨⟨0, 0⟩, ⟨0, 40⟩⟩, ⟨⟨0, 50⟩, ⟨0, 51⟩⟩]
          (by unfold FromFirst; decide) (by decide) (List.cons_ne_nil _ _) (by decide +kernel) (by decide +kernel) hst (by rw [hpat]; intro k h0 h1; simp only [List.length_singleton] at h1; omega) (by rw [hpat]; decide) (by rw [hpat]; decide) hfl hc).1 hrun.2
        rw [hpat] at hmain
        exact ⟨st, fl, d', hst, hfl, hc, hrun, hmain⟩

end Nd.Props
