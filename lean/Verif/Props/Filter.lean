import Verif.Spec.Filter
import Verif.Proof.FilterStream
import Verif.Proof.StrideLands
import Verif.Props.Cut
import Verif.Props.Drain
/-!
# C25: `--lines`
-/
namespace Nd.Props
open Nd Nd.Spec

theorem coverAny_lines (ms : List SegmentMapper) (segs : List Seg) :
    keep (coverAny segs.length (ms.map RangeMapper.ofMapper)) 0 segs = pick (ms.map SegmentMapper.toSpec) segs := by
  unfold pick
  rw [coverAny_ranges]

/-- Without overflow checks every list of ranges is accepted. -/
theorem C25_new_ok (src : σ) (rs : List RangeMapper) : ∃ s, FilterStream.new false src rs = .ok s := by
  obtain ⟨t, ht⟩ := minTrans_ok (rs.filter RangeMapper.hasRightAnchor)
  simp [FilterStream.new, Cutter.ofRanges, ht]

/-- **C25**, at least one end of a range counted from the last slice: over every stream that lends all bytes up to its end and keeps
what it lends, `--lines S..E,...` delivers exactly the slices whose index lies in one of the ranges, in order, whatever the chunking
and whatever the client does.  The slices have to be strictly sorted. -/
theorem C25_lines_partial {S : SegSrc σ} {K F} {s : σ} {w : Nat} {content : Bytes} {segs : List Seg} (h : SegServes S K F s w content segs)
    (hfull : K.full = true) (hh : K.honest = true) (hfree : K.Free) (hst : segs.Pairwise Seg.Lt) {oc : Bool} {ms : List SegmentMapper}
    (hr : ∃ m ∈ ms, m.toSpec.1.fromEnd = true ∨ m.toSpec.2.fromEnd = true)
    {st : FilterStream σ} (hnew : FilterStream.new oc s (ms.map RangeMapper.ofMapper) = .ok st)
    (hz : K.strict = false := by first | rfl | assumption) :
    SegReads (FilterStream.segSrc S) F st (slicesOf content (pick (ms.map SegmentMapper.toSpec) segs)) := by
  rw [← coverAny_lines]
  refine FilterStream.reads h hh hfull hfree hst ?_ hnew
  obtain ⟨m, hm, hm'⟩ := hr
  refine ⟨_, List.mem_map_of_mem hm, ?_⟩
  rcases m with ⟨⟨a, x⟩, ⟨b, y⟩⟩
  simp only [SegmentMapper.toSpec, bne_iff_ne] at hm'
  simp only [RangeMapper.ofMapper, RangeMapper.anchorOf, RangeMapper.hasRightAnchor]
  by_cases ha : a = 0 <;> by_cases hb : b = 0 <;> simp_all

/-- **C25** for any ranges: over a stream of disjoint slices that can be consumed up to the end of any slice, the drains of `nd` see exactly
the slices whose index lies in one of the ranges and print each of them once. -/
theorem C25_disjoint_partial {S : SegSrc σ} {K F R} (h : SegFaithful S K F R) (hl : SegLands S R) (hh : K.honest = true) (hfree : K.Free) {s : σ} {w : Nat}
    {content : Bytes} {segs : List Seg} (hR : R s (.idle 0) w content segs) (hpos : ∀ x ∈ segs, 0 < x.len) (hdis : segs.Pairwise fun a b => a.tail ≤ b.pos)
    (hlen : content.length < 2 ^ 64) {oc : Bool} {ms : List SegmentMapper} {st : FilterStream σ} (hnew : FilterStream.new oc s (ms.map RangeMapper.ofMapper) = .ok st) :
    SegDrains (FilterStream.segSrc S) F st (slicesOf content (pick (ms.map SegmentMapper.toSpec) segs)) ∧
    ∀ (f : Formatting) (B fuel : Nat), 0 < B → w < fuel →
      Reads (ScatterDrain.byteSrc (FilterStream.segSrc S) f B fuel) F (ScatterDrain.through B st)
        ((slicesOf content (pick (ms.map SegmentMapper.toSpec) segs)).flatMap f.line) := by
  have hd := FilterStream.delivers h hl hh hfree hR hpos hdis hnew
  rw [coverAny_lines] at hd
  exact ⟨hd.drains, fun f B fuel hB hf => C29_prints_every_slice_partial rfl f B fuel hB st _ content _ hd hlen hf⟩

theorem strides_pairwise {R : Seg → Seg → Prop} (len pitch : Nat) (start stop : Int)
    (h : ∀ i j : Nat, i < j → max 0 (i * pitch + start) < min (len : Int) (i * pitch + stop) → max 0 (j * pitch + start) < min (len : Int) (j * pitch + stop) →
      R ⟨(max 0 (i * pitch + start)).toNat, (min (len : Int) (i * pitch + stop) - max 0 (i * pitch + start)).toNat⟩
        ⟨(max 0 (j * pitch + start)).toNat, (min (len : Int) (j * pitch + stop) - max 0 (j * pitch + start)).toNat⟩) :
    (strides len pitch start stop).Pairwise R := by
  unfold strides
  rw [List.pairwise_filterMap]
  refine (List.pairwise_lt_range (n := (len + pitch - 1) / pitch)).imp ?_
  intro i j hij x hx y hy
  split at hx
  · split at hy
    · cases hx
      cases hy
      exact h i j hij ‹_› ‹_›
    · cases hy
  · cases hx

/-- The slices of `--width N,S..E` are strictly sorted, unless two of them cover the whole stream. -/
theorem strides_strict (len pitch : Nat) (start stop : Int) (hp : 0 < pitch) (h : 0 ≤ start ∨ stop - start < len + pitch) : (strides len pitch start stop).Pairwise Seg.Lt := by
  refine strides_pairwise len pitch start stop fun i j hij h1 h2 => ?_
  have := mul_le_int pitch (show i + 1 ≤ j from hij)
  rw [succ_mul_int] at this
  have hi := mul_le_int pitch (Nat.zero_le i)
  simp only [Seg.Lt, Seg.tail]
  omega

theorem strides_tiles (len pitch : Nat) (hp : 0 < pitch) :
    (∀ x ∈ strides len pitch 0 pitch, 0 < x.len) ∧ (strides len pitch 0 pitch).Pairwise fun a b => a.tail ≤ b.pos := by
  refine ⟨?_, strides_pairwise len pitch 0 pitch fun i j hij h1 h2 => ?_⟩
  · intro x hx
    simp only [strides, List.mem_filterMap] at hx
    obtain ⟨i, _, hi⟩ := hx
    split at hi
    · cases hi
      simp only
      omega
    · cases hi
  · have := mul_le_int pitch (show i + 1 ≤ j from hij)
    rw [succ_mul_int] at this
    have hi := mul_le_int pitch (Nat.zero_le i)
    simp only [Seg.tail]
    omega

/-- **C25** for a file, every `read()` schedule and every client: `--width N,S..E --lines R` with a range that counts from the last slice. -/
theorem C25_width_from_end_partial (B fuel fuel' : Nat) (filler : Byte) (content : Bytes) (sched : Nat → Option Nat) (hB : 0 < B) (hf : content.length < fuel)
    (pitch : Nat) (m : SegmentMapper) (start stop : Int) (hp : 0 < pitch) (hm : m.evaluate (0, pitch) (0, pitch) = (start, stop))
    (hne : start < stop) (hstop : 1 ≤ stop) (hstart : -(15 * pitch) < start) (hf' : 1 < fuel')
    (hL : 2 * stop - start + pitch < ((B - 1784) / 8 : Nat)) (hclip : 0 ≤ start ∨ stop - start < content.length + pitch) (ms : List SegmentMapper)
    (hr : ∃ m ∈ ms, m.toSpec.1.fromEnd = true ∨ m.toSpec.2.fromEnd = true) :
    ∃ p st fl, ConstSlicerParams.fromRaw fuel' pitch m = .ok p ∧
      ConstSlicer.new (RawStream.new B (Reader.open content sched) 1 filler) p = .ok st ∧
      FilterStream.new false st (ms.map RangeMapper.ofMapper) = .ok fl ∧
      SegReads (FilterStream.segSrc (ConstSlicer.segSrc (RawStream.byteSrc B fuel))) (IoErr [sched]) fl
        (slicesOf content (pick (ms.map SegmentMapper.toSpec) (strides content.length pitch start stop))) := by
  obtain ⟨p, st, h1, h2, _, h3⟩ := width_serves .any (file_amply B fuel filler content sched hB hf) (fun _ => NlMargin.any) fuel' pitch m start stop
    hp hm hne hstop hstart hf' (by simp only [ConstSlicer.Manner.need]; omega)
  obtain ⟨fl, hfl⟩ := C25_new_ok st (ms.map RangeMapper.ofMapper)
  exact ⟨p, st, fl, h1, h2, hfl, C25_lines_partial h3 rfl rfl (fun _ _ => trivial) (strides_strict _ _ _ _ hp hclip) hr hfl⟩

/-- `--width 3 --lines e-2..e,0..1` of an eleven-byte file, with nd's block size: the first, and the last two slices. -/
example (sched : Nat → Option Nat) : ∃ p st fl, ConstSlicerParams.fromRaw 2 3 (fromStart 0 3) = .ok p ∧
    ConstSlicer.new (RawStream.new (2 ^ 21) (Reader.open [0, 1, 2, 3, 4, 5, 6, 7, 8, 9, 10] sched) 1 0) p = .ok st ∧
    FilterStream.new false st ([⟨⟨1, -2⟩, ⟨1, 0⟩⟩, ⟨⟨0, 0⟩, ⟨0, 1⟩⟩].map RangeMapper.ofMapper) = .ok fl ∧
    SegReads (FilterStream.segSrc (ConstSlicer.segSrc (RawStream.byteSrc (2 ^ 21) 12))) (IoErr [sched]) fl [(0, [0, 1, 2]), (6, [6, 7, 8]), (9, [9, 10])] :=
  C25_width_from_end_partial (2 ^ 21) 12 2 0 [0, 1, 2, 3, 4, 5, 6, 7, 8, 9, 10] sched (by decide) (by decide) 3 (fromStart 0 3) 0 3 (by decide) (by decide)
    (by decide) (by decide) (by decide) (by decide) (by decide) (by decide) [⟨⟨1, -2⟩, ⟨1, 0⟩⟩, ⟨⟨0, 0⟩, ⟨0, 1⟩⟩] ⟨⟨⟨1, -2⟩, ⟨1, 0⟩⟩, by decide, by decide⟩

/-- **C25** for a file and every `read()` schedule: `nd --width N --lines S..E,...` prints exactly the slices whose index lies in one of the
ranges, each once, in order, for all ranges. -/
theorem C25_width (B fuel fuel' : Nat) (filler : Byte) (content : Bytes) (sched : Nat → Option Nat) (hB : 0 < B) (hf : content.length < fuel)
    (hlen : content.length < 2 ^ 64) (pitch : Nat) (m : SegmentMapper) (hp : 0 < pitch) (hm : m.evaluate (0, pitch) (0, pitch) = (0, (pitch : Int)))
    (hL : 3 * pitch < (B - 1784) / 8) (ms : List SegmentMapper) (f : Formatting) :
    ∃ p st fl, ConstSlicerParams.fromRaw fuel' pitch m = .ok p ∧
      ConstSlicer.new (RawStream.new B (Reader.open content sched) 1 filler) p = .ok st ∧
      FilterStream.new false st (ms.map RangeMapper.ofMapper) = .ok fl ∧
      Reads (ScatterDrain.byteSrc (FilterStream.segSrc (ConstSlicer.segSrc (RawStream.byteSrc B fuel))) f B fuel) (IoErr [sched]) (ScatterDrain.through B fl)
        ((slicesOf content (pick (ms.map SegmentMapper.toSpec) (strides content.length pitch 0 pitch))).flatMap f.line) := by
  obtain ⟨R, E, hR, hA, hs, hE⟩ := file_amply B fuel filler content sched hB hf
  have hpr : ConstSlicerParams.fromRaw fuel' pitch m = .ok ⟨0, 1 - pitch, pitch, pitch⟩ := by
    unfold ConstSlicerParams.fromRaw
    rw [hm]
    simp only [Int.sub_zero]
    rw [if_neg (by omega), if_pos (by omega), if_neg (by omega)]
    simp
  have hcomb := (ConstSlicerParams.fromRaw_comb hp hpr content.length 0 pitch hm).2.2.2.2.2.2.2.2.2.2
  have ok : ConstSlicer.ParamsOk ⟨0, 1 - pitch, pitch, pitch⟩ := by
    constructor <;> simp only <;> omega
  have hneed : ConstSlicer.Manner.any.need pitch pitch (ConstSlicer.escape ⟨0, 1 - pitch, pitch, pitch⟩) ≤ (B - 1784) / 8 := by
    simp only [ConstSlicer.Manner.need, ConstSlicer.escape]
    simp
    omega
  obtain ⟨st, hst, hrel⟩ := ConstSlicer.new_spec (Src := RawStream.byteSrc B fuel) .any ⟨0, 1 - pitch, pitch, pitch⟩ ok (RawStream.new B (Reader.open content sched) 1 filler) _ content hs hE hneed
  rw [hcomb] at hrel
  obtain ⟨fl, hfl⟩ := C25_new_ok st (ms.map RangeMapper.ofMapper)
  have htiles := strides_tiles content.length pitch hp
  exact ⟨_, st, fl, hpr, hst, hfl, (C25_disjoint_partial (ConstSlicer.faithful hR hA (fun _ => NlMargin.any) .any pitch pitch _ _ hneed)
    (ConstSlicer.lands .any pitch _ _ (by simp [ConstSlicer.escape])) rfl (fun _ _ => trivial) hrel htiles.1 htiles.2 hlen hfl).2 f B fuel hB (by omega)⟩

/-- `--width 3 --lines 1..2,3..9,0..1` of an eleven-byte file, without headers. -/
example (sched : Nat → Option Nat) : ∃ p st fl, ConstSlicerParams.fromRaw 2 3 (fromStart 0 3) = .ok p ∧
    ConstSlicer.new (RawStream.new (2 ^ 21) (Reader.open [0, 1, 2, 3, 4, 5, 6, 7, 8, 9, 10] sched) 1 0) p = .ok st ∧
    FilterStream.new false st ([⟨⟨0, 1⟩, ⟨0, 2⟩⟩, ⟨⟨0, 3⟩, ⟨0, 9⟩⟩, ⟨⟨0, 0⟩, ⟨0, 1⟩⟩].map RangeMapper.ofMapper) = .ok fl ∧
    Reads (ScatterDrain.byteSrc (FilterStream.segSrc (ConstSlicer.segSrc (RawStream.byteSrc (2 ^ 21) 12))) ⟨.binary, 0⟩ (2 ^ 21) 12) (IoErr [sched])
      (ScatterDrain.through (2 ^ 21) fl) [0, 1, 2, 3, 4, 5, 9, 10] :=
  C25_width (2 ^ 21) 12 2 0 [0, 1, 2, 3, 4, 5, 6, 7, 8, 9, 10] sched (by decide) (by decide) (by decide) 3 (fromStart 0 3) (by decide) (by decide)
    (by decide) [⟨⟨0, 1⟩, ⟨0, 2⟩⟩, ⟨⟨0, 3⟩, ⟨0, 9⟩⟩, ⟨⟨0, 0⟩, ⟨0, 1⟩⟩] ⟨.binary, 0⟩

/-- What `n` rounds of the drain print for `--width pitch,s+a..s+b --lines R`, without headers. -/
def linesPrint (B : Nat) (content : Bytes) (sched : Nat → Option Nat) (pitch : Nat) (a b : Int) (ms : List SegmentMapper) (n : Nat) : Except Err Bytes :=
  match ConstSlicerParams.fromRaw 100 pitch (fromStart a b) with
  | .error e => .error e
  | .ok p =>
    match ConstSlicer.new (RawStream.new B (Reader.open content sched) 1 0) p with
    | .error e => .error e
    | .ok st =>
      match FilterStream.new false st (ms.map RangeMapper.ofMapper) with
      | .error e => .error e
      | .ok st => drainRounds (FilterStream.segSrc (ConstSlicer.segSrc (RawStream.byteSrc B 1000))) n (ScatterDrain.new st) []

/-- **Counterexample** (overlapping slices, all ranges counted from the start): `--width 2,s..s+3 --lines 0..30` of a 376-byte file read with
block size 64.  The filter reports its end, but the source does not let it consume the last slice it has lent; the drain counts that
slice twice and the program aborts. -/
theorem C25_overlap_counterexample :
    linesPrint 64 ((List.range 376).map UInt8.ofNat) (fun _ => some 64) 2 0 3 [⟨⟨0, 0⟩, ⟨0, 30⟩⟩] 3 = .error .panic := by
  have h : ∀ {σ : Type} (src : σ), FilterStream.new false src ([⟨⟨0, 0⟩, ⟨0, 30⟩⟩].map RangeMapper.ofMapper) =
      .ok ⟨src, 0, 0, 0, [], ⟨[⟨.fromStart 0, .fromStart 30⟩], [], usizeMax, 0⟩⟩ := by
    intro σ src
    simp [FilterStream.new, Cutter.ofRanges, Cutter.minTrans, RangeMapper.ofMapper, RangeMapper.anchorOf, RangeMapper.hasRightAnchor, List.filter, Cutter.sortFilters, stableSort, insertSorted]
  unfold linesPrint
  simp only [h]
  decide +kernel

/-- **Counterexample** (equal slices): if the source shows the same slice twice at its end, as `--width 3,s-5..s+10` does for a five-byte file,
then `--lines 0..2` shows it once. -/
theorem C25_duplicate_counterexample (S : SegSrc σ) (s s' : σ) (hfill : S.fill s = .ok ((true, 5, 2, 5), s')) (hs : (S.slices s').2 = strides 5 3 (-5) 10) :
    (S.slices s').2 = [⟨0, 5⟩, ⟨0, 5⟩] ∧ pick [(⟨false, 0⟩, ⟨false, 2⟩)] (strides 5 3 (-5) 10) = [⟨0, 5⟩, ⟨0, 5⟩] ∧
    ∃ st st', FilterStream.new false s ([⟨⟨0, 0⟩, ⟨0, 2⟩⟩].map RangeMapper.ofMapper) = .ok st ∧
      FilterStream.fill S st = .ok ((true, 5, 1, 5), st') ∧ st'.segments = [⟨0, 5⟩] := by
  have hd : strides 5 3 (-5) 10 = [⟨0, 5⟩, ⟨0, 5⟩] := by decide
  refine ⟨hs.trans hd, by decide, ?_⟩
  simp [FilterStream.new, Cutter.ofRanges, Cutter.minTrans, RangeMapper.ofMapper, RangeMapper.anchorOf, RangeMapper.hasRightAnchor, List.filter, Cutter.sortFilters,
    FilterStream.fill, hfill, hs, hd, Cutter.accumulateLines, Cutter.scan, stableSort, insertSorted, Seg.keyLe, dedupRuns, Seg.tail, RangeMapper.toRange, Cutter.isEmpty]

/-- **C25** (order, for every source): what `--lines` shows at the end of its source is in order, by start and then by end, and no slice is shown twice, whatever order the source shows them in. -/
theorem C25_end_ordered {S : SegSrc σ} {st st' : FilterStream σ} {src : σ} {bytes count maxc : Nat} {r : Bool × Nat × Nat × Nat} (hs : S.fill st.src = .ok ((true, bytes, count, maxc), src))
    (h : FilterStream.fill S st = .ok (r, st')) : st'.segments.Pairwise fun x y => x.pos < y.pos ∨ (x.pos = y.pos ∧ x.len < y.len) := by
  unfold FilterStream.fill at h
  rw [hs] at h
  simp only at h
  split at h
  · cases h
  · cases h
    simp only [Cutter.accumulateLines, if_true]
    refine (dedupRuns_strict _ ((stableSort_pairwise (le := Seg.keyLe) ?_ ?_ _).imp ?_)).imp ?_
    · intro a b c h1 h2
      simp only [Seg.keyLe, decide_eq_true_eq] at *
      omega
    · intro a b
      simp only [Bool.or_eq_true, Seg.keyLe, decide_eq_true_eq]
      omega
    · intro a b hab
      simp only [Seg.keyLe, decide_eq_true_eq, Seg.Le, Seg.tail] at *
      omega
    · intro a b hab
      simp only [Seg.Lt, Seg.tail] at *
      omega

/-- A source of one fill, which shows the longer of two slices first, and one of them twice. -/
example : ∃ st r st', FilterStream.new false () ([⟨⟨0, 0⟩, ⟨0, 3⟩⟩].map RangeMapper.ofMapper) = .ok st ∧
    FilterStream.fill { fill := fun _ => .ok ((true, 5, 3, 5), ()), slices := fun _ => ([1, 2, 3, 4, 5], [⟨0, 4⟩, ⟨0, 2⟩, ⟨0, 4⟩]), consume := fun _ _ => .error .panic } st = .ok (r, st') ∧
    st'.segments = [⟨0, 2⟩, ⟨0, 4⟩] := by
  simp [FilterStream.new, Cutter.ofRanges, Cutter.minTrans, RangeMapper.ofMapper, RangeMapper.anchorOf, RangeMapper.hasRightAnchor, List.filter, Cutter.sortFilters,
    FilterStream.fill, Cutter.accumulateLines, Cutter.scan, stableSort, insertSorted, Seg.keyLe, dedupRuns, RangeMapper.toRange, Cutter.isEmpty]

end Nd.Props
