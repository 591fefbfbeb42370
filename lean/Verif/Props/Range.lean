import Verif.Proof.Range
import Verif.Props.Cut
import Verif.Props.Drain
/-!
# C20: `--slice`
-/
namespace Nd.Props
open Nd Nd.Spec

/-- Without overflow checks every list of ranges is accepted. -/
theorem C20_new_ok (src : σ) (rs : List RangeMapper) : ∃ s, RangeSlicer.new false src rs = .ok s := by
  obtain ⟨t, ht⟩ := minTrans_ok (rs.filter RangeMapper.hasRightAnchor)
  simp [RangeSlicer.new, Cutter.ofRanges, ht]

/-- Every list of ranges denotes exactly one list of slices. -/
theorem C20_slices_unique (ranges : List (RangeEnd × RangeEnd)) (len : Nat) : ∃ segs, IsSlices ranges len segs ∧ ∀ segs', IsSlices ranges len segs' → segs' = segs := by
  obtain ⟨segs, h⟩ := RangeSlicer.isSlices_exists ranges len
  exact ⟨segs, h, fun segs' h' => strict_unique h'.1 h.1 fun x => by rw [h'.2, h.2]⟩

/-- **C20**: over every byte stream `--slice S..E,...` delivers exactly the distinct non-empty ranges, clipped and
sorted, whatever the client does.  The drain prints each of them once if the ranges that are anchored at the start
begin at different places. -/
theorem C20_slice {S : ByteSrc σ} {F M L} {s : σ} {w : Nat} {content : Bytes} (h : ServesAmply S F M L s w content) (hM : ∀ m, M m → AnyMargin m)
    (B : Nat) {oc : Bool} {ms : List SegmentMapper} {st : RangeSlicer σ} (hst : RangeSlicer.new oc s (ms.map RangeMapper.ofMapper) = .ok st)
    (hlen : content.length < 2 ^ 64 - 1) {segs : List Seg} (hs : IsSlices (ms.map SegmentMapper.toSpec) content.length segs) :
    SegReads (RangeSlicer.segSrc S B) F st (slicesOf content segs) ∧
    (RangeSlicer.Distinct ms → ∀ (f : Formatting) (fuel : Nat), 0 < B → w < fuel →
      Reads (ScatterDrain.byteSrc (RangeSlicer.segSrc S B) f B fuel) F (ScatterDrain.through B st) ((slicesOf content segs).flatMap f.line)) := by
  have hd := RangeSlicer.delivers h hM B hst (by unfold usizeMax; omega) hs
  exact ⟨hd.reads fun _ _ => trivial, fun hdt f fuel hB hf =>
    C29_prints_every_slice_partial (by simp [RangeSlicer.kind, hdt]) f B fuel hB st _ content _ hd (by omega) hf⟩

/-- **C20** for a file, every `read()` schedule and every block size. -/
theorem C20_file (B fuel : Nat) (filler : Byte) (content : Bytes) (sched : Nat → Option Nat) (hB : 0 < B) (hf : content.length < fuel)
    (hlen : content.length < 2 ^ 64 - 1) (ms : List SegmentMapper) {segs : List Seg} (hs : IsSlices (ms.map SegmentMapper.toSpec) content.length segs) :
    ∃ st, RangeSlicer.new false (RawStream.new B (Reader.open content sched) 1 filler) (ms.map RangeMapper.ofMapper) = .ok st ∧
      SegReads (RangeSlicer.segSrc (RawStream.byteSrc B fuel) B) (IoErr [sched]) st (slicesOf content segs) ∧
      (RangeSlicer.Distinct ms → ∀ f : Formatting,
        Reads (ScatterDrain.byteSrc (RangeSlicer.segSrc (RawStream.byteSrc B fuel) B) f B fuel) (IoErr [sched]) (ScatterDrain.through B st)
          ((slicesOf content segs).flatMap f.line)) := by
  obtain ⟨st, hst⟩ := C20_new_ok (RawStream.new B (Reader.open content sched) 1 filler) (ms.map RangeMapper.ofMapper)
  obtain ⟨h1, h2⟩ := C20_slice (file_amply B fuel filler content sched hB hf) (fun _ => NlMargin.any) B hst hlen hs
  exact ⟨st, hst, h1, fun hd f => h2 hd f fuel hB hf⟩

/-- `--slice e-2..e,1..3,e-6..2,1..3,5..4,9..20` of a seven-byte file. -/
example (sched : Nat → Option Nat) :
    let ms : List SegmentMapper := [⟨⟨1, -2⟩, ⟨1, 0⟩⟩, ⟨⟨0, 1⟩, ⟨0, 3⟩⟩, ⟨⟨1, -6⟩, ⟨0, 2⟩⟩, ⟨⟨0, 1⟩, ⟨0, 3⟩⟩, ⟨⟨0, 5⟩, ⟨0, 4⟩⟩, ⟨⟨0, 9⟩, ⟨0, 20⟩⟩]
    ∃ st, RangeSlicer.new false (RawStream.new 2 (Reader.open [0, 1, 2, 3, 4, 5, 6] sched) 1 0) (ms.map RangeMapper.ofMapper) = .ok st ∧
      SegReads (RangeSlicer.segSrc (RawStream.byteSrc 2 8) 2) (IoErr [sched]) st [(1, [1]), (1, [1, 2]), (5, [5, 6])] := by
  intro ms
  obtain ⟨st, h1, h2, _⟩ := C20_file 2 8 0 [0, 1, 2, 3, 4, 5, 6] sched (by decide) (by decide) (by decide) ms (segs := [⟨1, 1⟩, ⟨1, 2⟩, ⟨5, 2⟩]) (by
    refine ⟨by unfold StrictlySorted; decide, fun x => ?_⟩
    obtain ⟨p, l⟩ := x
    simp [ms, SegmentMapper.toSpec, RangeEnd.at, Seg.tail]
    omega)
  exact ⟨st, h1, h2⟩

/-- What `n` rounds of the drain print for `--slice`, without headers. -/
def slicePrint (B : Nat) (oc : Bool) (content : Bytes) (sched : Nat → Option Nat) (ms : List SegmentMapper) (n : Nat) : Except Err Bytes :=
  match RangeSlicer.new oc (RawStream.new B (Reader.open content sched) 1 0) (ms.map RangeMapper.ofMapper) with
  | .error e => .error e
  | .ok st => drainRounds (RangeSlicer.segSrc (RawStream.byteSrc B 1000) B) n (ScatterDrain.new st) []

/-- **Counterexample** (two ranges with the same start): `--slice 3..5,3..300,310..312` of a 376-byte file, read with block
size 64.  The slice 3..5 is lent and retained until 3..300 is complete; the drain counts it again in every round and
the program aborts (`segments[src_consumed..]`).  If both ranges end in the same chunk all is well. -/
theorem C20_same_start_counterexample :
    slicePrint 64 false ((List.range 376).map UInt8.ofNat) (fun _ => some 64) [⟨⟨0, 3⟩, ⟨0, 5⟩⟩, ⟨⟨0, 3⟩, ⟨0, 300⟩⟩, ⟨⟨0, 310⟩, ⟨0, 312⟩⟩] 5 = .error .panic ∧
    slicePrint 64 false ((List.range 376).map UInt8.ofNat) (fun _ => some 64) [⟨⟨0, 3⟩, ⟨0, 5⟩⟩, ⟨⟨0, 3⟩, ⟨0, 6⟩⟩, ⟨⟨0, 310⟩, ⟨0, 312⟩⟩] 5 = .ok [3, 4, 3, 4, 5, 54, 55] := by
  have h : ∀ (y : Nat) {σ : Type} (src : σ), 5 ≤ y → RangeSlicer.new false src ([⟨⟨0, 3⟩, ⟨0, 5⟩⟩, ⟨⟨0, 3⟩, ⟨0, (y : Int)⟩⟩, ⟨⟨0, 310⟩, ⟨0, 312⟩⟩].map RangeMapper.ofMapper) =
      .ok ⟨src, 0, 0, [], ⟨[⟨.fromStart 3, .fromStart 5⟩, ⟨.fromStart 3, .fromStart y⟩, ⟨.fromStart 310, .fromStart 312⟩], [], usizeMax, 0⟩⟩ := by
    intro y σ src hy
    simp [RangeSlicer.new, Cutter.ofRanges, Cutter.minTrans, RangeMapper.ofMapper, RangeMapper.anchorOf, RangeMapper.hasRightAnchor, List.filter, Cutter.sortFilters,
      stableSort, insertSorted, RangeMapper.sortKey, keyLe, hy]
  unfold slicePrint
  rw [show (300 : Int) = ((300 : Nat) : Int) from rfl, show (6 : Int) = ((6 : Nat) : Int) from rfl, h 300 _ (by decide), h 6 _ (by decide)]
  decide +kernel

/-- With overflow checks enabled (debug builds), `e-1..0` aborts the program. -/
theorem C20_overflow_check_counterexample (src : σ) : RangeSlicer.new true src ([⟨⟨1, -1⟩, ⟨0, 0⟩⟩].map RangeMapper.ofMapper) = .error .panic := rfl

end Nd.Props
