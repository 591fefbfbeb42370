import Verif.Props.BoundedDump
import Verif.Props.Range
import Verif.Proof.BoundedRange
/-!
# C46: `--slice`
-/
namespace Nd.Props
open Nd

/-- What the program holds while it prints slices: the text to be written, the slices, and what the stream behind them holds, which `H` counts. -/
def heldSlicing (H : σ → Nat) (d : Buffered (ScatterDrain (RangeSlicer σ))) : Nat := d.buf.buf.length + 16 * d.inner.src.segments.length + H d.inner.src.src

/-- The bound, if the stream holds at most `rest`. -/
def sliceLimit (B len cols ranges rest : Nat) : Nat := 25 * B + 7 + ranges * Format.reserve (max cols len) + MARGIN + 16 * ranges + rest

/-- A range of at most `D` bytes whose ends are both counted from the start, or one within the last `D` bytes. -/
def Nearby (D : Nat) (m : SegmentMapper) : Prop :=
  m.start.anchor = 0 ∧ m.stop.anchor = 0 ∧ m.stop.offset ≤ m.start.offset + D ∨ m.start.anchor ≠ 0 ∧ m.stop.anchor ≠ 0 ∧ -(D : Int) ≤ m.start.offset ∧ -(D : Int) ≤ m.stop.offset

theorem Nearby.brief {D : Nat} {m : SegmentMapper} (h : Nearby D m) :
    CutStream.Local (RangeMapper.ofMapper m) ∧ (RangeMapper.ofMapper m).tailMargin ≤ D ∧
    ((RangeMapper.ofMapper m).hasRightAnchor = false → RangeSlicer.Brief D (RangeMapper.ofMapper m)) ∧
    ((RangeMapper.ofMapper m).hasRightAnchor = true → RangeSlicer.Late D (RangeMapper.ofMapper m)) := by
  rcases h with ⟨h1, h2, h3⟩ | ⟨h1, h2, h3, h4⟩
  · refine ⟨by simp [CutStream.Local, RangeMapper.ofMapper, RangeMapper.anchorOf, h1, h2], by simp [RangeMapper.tailMargin, RangeMapper.ofMapper, RangeMapper.anchorOf, h1, h2], fun _ => ?_,
      by simp [RangeMapper.hasRightAnchor, RangeMapper.ofMapper, RangeMapper.anchorOf, h1, h2]⟩
    simp only [RangeSlicer.Brief, RangeMapper.ofMapper, RangeMapper.anchorOf, h1, h2, if_true]
    exact ⟨_, _, rfl, by omega⟩
  · refine ⟨by simp [CutStream.Local, RangeMapper.ofMapper, RangeMapper.anchorOf, h1, h2], by simp only [RangeMapper.tailMargin, RangeMapper.ofMapper, RangeMapper.anchorOf, h1, h2, if_false]; omega,
      by simp [RangeMapper.hasRightAnchor, RangeMapper.ofMapper, RangeMapper.anchorOf, h1, h2], fun _ => ?_⟩
    simp only [RangeSlicer.Late, RangeMapper.ofMapper, RangeMapper.anchorOf, h1, h2, if_false]
    exact ⟨_, _, rfl, by omega⟩

theorem slice_rests {S : ByteSrc σ} {R : σ → Phase → Nat → Bytes → Prop} {B D w : Nat} {oc : Bool} {s₀ : σ} {content : Bytes} {ms : List SegmentMapper} (hms : ∀ m ∈ ms, Nearby D m)
    (hs : R s₀ (.idle 1) w content) {st : RangeSlicer σ} (hnew : RangeSlicer.new oc s₀ (ms.map RangeMapper.ofMapper) = .ok st) :
    RangeSlicer.AtRest S R B content.length D ms.length s₀ st := by
  unfold RangeSlicer.new Cutter.ofRanges at hnew
  simp only at hnew
  rw [CutStream.minTrans_local _ _ fun r hr => by
    obtain ⟨m, hm, rfl⟩ := List.mem_map.1 (List.mem_filter.1 hr).1
    exact (hms m hm).brief.1] at hnew
  cases hnew
  refine ⟨.start, ⟨_, _, _, hs, by simp⟩, rfl, CutStream.foldr_max_le _ ?_, ?_, by simp, ?_, ?_⟩
  · intro x hx
    obtain ⟨r, hr, rfl⟩ := List.mem_map.1 hx
    obtain ⟨m, hm, rfl⟩ := List.mem_map.1 (List.mem_filter.1 hr).1
    exact (hms m hm).brief.2.1
  · simp only [Cutter.sortFilters, (stableSort_perm _ _).length_eq, List.length_nil]
    have := List.length_eq_countP_add_countP RangeMapper.hasRightAnchor (l := ms.map RangeMapper.ofMapper)
    rw [List.length_map] at this
    rw [← List.countP_eq_length_filter, ← List.countP_eq_length_filter]
    simp only [decide_not, Bool.decide_eq_true] at this
    omega
  · intro f hf
    simp only [Cutter.sortFilters, (stableSort_perm _ _).mem_iff] at hf
    obtain ⟨hf, ha⟩ := List.mem_filter.1 hf
    obtain ⟨m, hm, rfl⟩ := List.mem_map.1 hf
    exact (hms m hm).brief.2.2.1 (by simpa using ha)
  · intro f hf
    obtain ⟨hf, ha⟩ := List.mem_filter.1 hf
    obtain ⟨m, hm, rfl⟩ := List.mem_map.1 hf
    exact (hms m hm).brief.2.2.2 ha

/-- **C46** (`--slice RANGE,...` of any stream, until the end of the slices is reported): if the ranges have at most `D` bytes and both ends counted from the start, or lie within the last `D` bytes, a
stream that holds at most `L` bytes before clients which ask for a block and leave at most `D` bytes is sliced in bounded memory. -/
theorem C46_slice_partial {S : ByteSrc σ} {F M A} {s₀ : σ} {w : Nat} {content : Bytes} (H : σ → Nat) (B fuel D L : Nat) (f : Formatting) (oc : Bool) (ms : List SegmentMapper) (hms : ∀ m ∈ ms, Nearby D m)
    (hA : ServesAmply S F M A s₀ w content) (hfit : content.length ≤ usizeMax) (hH : ∀ s, Visited S B D s₀ s → H s ≤ L) {st : RangeSlicer σ}
    (hnew : RangeSlicer.new oc s₀ (ms.map RangeMapper.ofMapper) = .ok st) {d : Buffered (ScatterDrain (RangeSlicer σ))}
    (h : Copying (ScatterDrain.byteSrc (RangeSlicer.segSrc S B) f B fuel) B (ScatterDrain.through B st) d) :
    (d.buf.isEof = false → heldSlicing H d ≤ sliceLimit B D f.minWidth ms.length L) ∧
    ∀ eof n d', (ScatterDrain.byteSrc (RangeSlicer.segSrc S B) f B fuel).fill d B = .ok ((eof, n), d') → d'.buf.isEof = false → heldSlicing H d' ≤ sliceLimit B D f.minWidth ms.length L := by
  obtain ⟨R, E, hR, hAm, hs, hE⟩ := hA
  have hadds := (RangeSlicer.spares hR (B := B) (D := D) (C := ms.length) (s₀ := s₀) hfit).adds f (StreamBuf.limit B B 0 0 0 + 1)
  have hrests : (ScatterDrain.through B st).Rests B B 0 (ms.length * Format.reserve (max f.minWidth D)) 1 (fun d => RangeSlicer.AtRest S R B content.length D ms.length s₀ d.src) fun _ => True := by
    refine ⟨StreamBuf.Small.new _ _ _ _ _ _ (by decide), rfl, ?_⟩
    simp only [ScatterDrain.through, StreamBuf.new, StreamBuf.newWithAlign, Bool.false_eq_true, if_false, ScatterDrain.new]
    exact slice_rests hms hs hnew
  have hv := h.visited
  have key : ∀ d d', Visited (ScatterDrain.byteSrc (RangeSlicer.segSrc S B) f B fuel) B 0 (ScatterDrain.through B st) d → d.inner = d'.inner → d.buf.isEof = d'.buf.isEof →
      d'.buf.buf.length ≤ StreamBuf.limit B B 0 (ms.length * Format.reserve (max f.minWidth D)) 1 + MARGIN → d'.buf.isEof = false → heldSlicing H d' ≤ sliceLimit B D f.minWidth ms.length L := by
    intro d d' hv hin heof htext hend
    have hr := (hv.rests hadds (Nat.lt_succ_self _) hrests).inner
    rw [heof, hend, if_neg (by simp), hin] at hr
    have hrest := hH _ hr.src
    have hfew := hr.few
    unfold heldSlicing sliceLimit
    unfold StreamBuf.limit at htext
    omega
  refine ⟨key d d hv rfl rfl ?_, fun eof n d' hfill => ?_⟩
  · have hr := hv.rests hadds (Nat.lt_succ_self _) hrests
    have htext := small_length hr.small
    rw [hr.align] at htext
    exact htext
  · have hl := (LentTo.bounded hadds (Nat.lt_succ_self _) hrests ⟨d, B, hv, Nat.le_refl _, hfill⟩).1
    exact key _ d' (hv.round (Nat.le_refl _) hfill (Nat.le_refl n) (fun _ => by omega) rfl) rfl (StreamBuf.consume_keeps _ _ _).2 hl

/-- The bound for concatenated files. -/
def sliceFilesLimit (B len cols ranges files : Nat) : Nat :=
  sliceLimit B len cols ranges (catLimit B B len 1 + fileLimit B (catRequest B B len) len 1 + (files + 2) * MARGIN)

/-- **C46** (`--slice RANGE,... FILE...`, until the end of the slices is reported). -/
theorem C46_slice_files_partial (B fuel D : Nat) (filler : Byte) (files : Files) (f : Formatting) (oc : Bool) (ms : List SegmentMapper) (hms : ∀ m ∈ ms, Nearby D m) (hB : 0 < B) (hne : files ≠ [])
    (hf : enough 1 files < fuel) (hfit : (files.map fun f => f.1.length).sum ≤ usizeMax) {st : RangeSlicer (CatStream (Buffered Reader))}
    (hnew : RangeSlicer.new oc (CatStream.new B (rawStreams B 1 filler files)) (ms.map RangeMapper.ofMapper) = .ok st) {d : Buffered (ScatterDrain (RangeSlicer (CatStream (Buffered Reader))))}
    (h : Copying (ScatterDrain.byteSrc (RangeSlicer.segSrc (CatStream.byteSrc (RawStream.byteSrc B fuel) B fuel) B) f B fuel) B (ScatterDrain.through B st) d) :
    (d.buf.isEof = false → heldSlicing catHeld d ≤ sliceFilesLimit B D f.minWidth ms.length files.length) ∧
    ∀ eof n d', (ScatterDrain.byteSrc (RangeSlicer.segSrc (CatStream.byteSrc (RawStream.byteSrc B fuel) B fuel) B) f B fuel).fill d B = .ok ((eof, n), d') → d'.buf.isEof = false →
      heldSlicing catHeld d' ≤ sliceFilesLimit B D f.minWidth ms.length files.length :=
  C46_slice_partial catHeld B fuel D _ f oc ms hms (cat_amply B fuel 1 filler files hB (by decide) hne hf) (by rw [cat_length]; exact hfit)
    (fun _ hv => (C46_cat B fuel _ _ 1 filler (by decide) files hne).2 hv) hnew h

def sampleSlicing : ByteSrc (Buffered (ScatterDrain (RangeSlicer (CatStream (Buffered Reader))))) :=
  ScatterDrain.byteSrc (RangeSlicer.segSrc (CatStream.byteSrc (RawStream.byteSrc 4 200) 4 200) 4) { style := .hhh, minWidth := 16 } 4 200

/-- The hypotheses are met by `--slice 1..4,30..33,e-2..e` on a file of 36 bytes, read in small blocks: the first slice has been printed, and the end has not been reached. -/
example : ∃ st d, RangeSlicer.new false (CatStream.new 4 (rawStreams 4 1 0 [(List.replicate 36 7, fun _ => some 3)])) ([⟨⟨0, 1⟩, ⟨0, 4⟩⟩, ⟨⟨0, 30⟩, ⟨0, 33⟩⟩, ⟨⟨1, -2⟩, ⟨1, 0⟩⟩].map RangeMapper.ofMapper) = .ok st ∧
    Copying sampleSlicing 4 (ScatterDrain.through 4 st) d ∧ (d.inner.lines = 1 ∧ d.buf.isEof = false) ∧ heldSlicing catHeld d ≤ sliceFilesLimit 4 3 16 3 1 := by
  obtain ⟨st, hst⟩ := C20_new_ok (CatStream.new 4 (rawStreams 4 1 0 [(List.replicate 36 7, fun _ => some 3)])) ([⟨⟨0, 1⟩, ⟨0, 4⟩⟩, ⟨⟨0, 30⟩, ⟨0, 33⟩⟩, ⟨⟨1, -2⟩, ⟨1, 0⟩⟩].map RangeMapper.ofMapper)
  have hrun : (match RangeSlicer.new false (CatStream.new 4 (rawStreams 4 1 0 [(List.replicate 36 7, fun _ => some 3)]))
      ([⟨⟨0, 1⟩, ⟨0, 4⟩⟩, ⟨⟨0, 30⟩, ⟨0, 33⟩⟩, ⟨⟨1, -2⟩, ⟨1, 0⟩⟩].map RangeMapper.ofMapper) with
    | .error _ => (0, true)
    | .ok st => match sampleSlicing.fill (ScatterDrain.through 4 st) 4 with
      | .error _ => (0, true)
      | .ok (r, d) => match sampleSlicing.consume d r.2 with
        | .error _ => (0, true)
        | .ok d => (d.inner.lines, d.buf.isEof)) = (1, false) := by decide +kernel
  rw [hst] at hrun
  simp only at hrun
  split at hrun
  · cases hrun
  · rename_i r d hfill
    split at hrun
    · cases hrun
    · rename_i d' hcons
      obtain ⟨eof, n⟩ := r
      have hc : Copying sampleSlicing 4 (ScatterDrain.through 4 st) d' := Copying.start.next hfill hcons
      have hrun := Prod.mk.inj hrun
      refine ⟨st, d', hst, hc, hrun, (C46_slice_files_partial 4 200 3 0 [(List.replicate 36 7, fun _ => some 3)] { style := .hhh, minWidth := 16 } false
        [⟨⟨0, 1⟩, ⟨0, 4⟩⟩, ⟨⟨0, 30⟩, ⟨0, 33⟩⟩, ⟨⟨1, -2⟩, ⟨1, 0⟩⟩] ?_ (by decide) (by decide) (by decide) (by decide) hst hc).1 hrun.2⟩
      unfold Nearby
      decide

end Nd.Props
