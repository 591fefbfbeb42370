import Verif.Model.Cut
import Verif.Model.Segment
/-!
# `RangeSlicer` (src/segment/range.rs)
-/
namespace Nd

/-- `Vec::dedup`: of every run of equal elements one is kept. -/
def dedupRuns : List Seg → List Seg
  | [] => []
  | [x] => [x]
  | x :: y :: rest => if x = y then dedupRuns (y :: rest) else x :: dedupRuns (y :: rest)

/-- The loop of `Cutter::accumulate` (`src/segment/range.rs` 75-95): the new segments, the remaining stack
(its top first) and `max_consume`. -/
def Cutter.collect (offset clamp tail : Nat) : Nat → List RangeMapper → List Seg × List RangeMapper × Nat
  | maxConsume, [] => ([], [], maxConsume)
  | maxConsume, f :: fs =>
    let range := f.toRange offset
    let start := min range.1 clamp
    let stop := min range.2 clamp
    if start ≥ maxConsume ∨ stop > tail then ([], f :: fs, min maxConsume start)
    else if start ≥ stop then collect offset clamp tail maxConsume fs
    else
      let r := collect offset clamp tail maxConsume fs
      ({ pos := start, len := stop - start } :: r.1, r.2)

/-- `Cutter::accumulate` (`src/segment/range.rs` 53-99): `max_consume`, the segments and the new state.  The struct
and its constructor (11-47) are the same as in `src/byte/cut.rs`. -/
def Cutter.accumulateSegs (c : Cutter) (offset : Nat) (isEof : Bool) (bytes : Nat) (v : List Seg) : Nat × List Seg × Cutter :=
  let c :=
    if isEof && !c.tailFilters.isEmpty then
      { c with
        filters := sortFilters (c.filters ++ c.tailFilters.map fun f => f.toLeftAnchored (offset + bytes))
        tailFilters := [] }
    else c
  let r :=
    if isEof then collect offset bytes usizeMax bytes c.filters
    else collect offset usizeMax bytes (min (bytes - c.tailMargin) (c.transOffset - offset)) c.filters
  (r.2.2, dedupRuns (v ++ r.1), { c with filters := r.2.1 })

/-- `struct RangeSlicer` (`src/segment/range.rs` 102-108). -/
structure RangeSlicer (σ : Type u) where
  src : σ
  srcConsumed : Nat
  maxConsume : Nat
  segments : List Seg
  cutter : Cutter

namespace RangeSlicer

/-- `RangeSlicer::new` (`src/segment/range.rs` 111-119) after the expressions have been parsed. -/
def new (oc : Bool) (src : σ) (rs : List RangeMapper) : Except Err (RangeSlicer σ) :=
  match Cutter.ofRanges oc rs with
  | .error e => .error e
  | .ok c => .ok { src := src, srcConsumed := 0, maxConsume := 0, segments := [], cutter := c }

/-- `RangeSlicer::fill_segment_buf` (`src/segment/range.rs` 123-138). -/
def fill (S : ByteSrc σ) (B : Nat) (st : RangeSlicer σ) : Except Err ((Bool × Nat × Nat × Nat) × RangeSlicer σ) :=
  match S.fill st.src B with
  | .error e => .error e
  | .ok ((isEof, bytes), src) =>
    let r := st.cutter.accumulateSegs st.srcConsumed isEof bytes st.segments
    if r.2.2.isEmpty then
      let bytes := (r.2.1.getLast?.map Seg.tail).getD st.maxConsume
      .ok ((true, bytes, r.2.1.length, min bytes r.1),
        { st with src := src, segments := r.2.1, cutter := r.2.2, maxConsume := min bytes r.1 })
    else
      .ok ((isEof, bytes, r.2.1.length, r.1), { st with src := src, segments := r.2.1, cutter := r.2.2, maxConsume := r.1 })

/-- `impl SegmentStream for RangeSlicer` (`src/segment/range.rs` 122-162). -/
def segSrc (S : ByteSrc σ) (B : Nat) : SegSrc (RangeSlicer σ) where
  fill := fill S B
  slices st := (S.slice st.src, st.segments)
  consume st k :=
    let bytes := min k st.maxConsume
    match S.consume st.src bytes with
    | .error e => .error e
    | .ok src =>
      match cutSegs bytes st.segments with
      | .error e => .error e
      | .ok (from_, segments) =>
        .ok ((bytes, from_), { st with src := src, segments := segments, srcConsumed := st.srcConsumed + bytes,
                                       maxConsume := st.maxConsume - bytes })

end RangeSlicer

end Nd
