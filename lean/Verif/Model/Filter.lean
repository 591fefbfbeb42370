import Verif.Model.Range
/-!
# `FilterStream`, the option `--lines` (src/segment/filter.rs)
-/
namespace Nd

/-- The order of `v.sort_by_key(|x| (x.pos, x.len))` (`src/segment/filter.rs` 105). -/
def Seg.keyLe (a b : Seg) : Bool := decide (a.pos < b.pos ∨ (a.pos = b.pos ∧ a.len ≤ b.len))

/-- `Cutter::accumulate` (`src/segment/filter.rs` 48-111): the number of slices scanned, the slices kept and the new
state.  The struct and its constructor (9-46) are the same as in `src/byte/cut.rs`; so is the loop (79-102), which here
starts at `scanned`. -/
def Cutter.accumulateLines (c : Cutter) (scanned offset : Nat) (isEof : Bool) (count : Nat) (segments v : List Seg) : Nat × List Seg × Cutter :=
  let c :=
    if isEof && !c.tailFilters.isEmpty then
      { c with
        filters := sortFilters (c.filters ++ c.tailFilters.map fun f => f.toLeftAnchored (offset + count))
        tailFilters := [] }
    else c
  let scanUpto := if isEof then count else min (count - c.tailMargin) (c.transOffset - offset)
  let r := scan offset isEof scanUpto segments scanned c.filters
  let v := v ++ r.1
  (max scanUpto scanned, if isEof then dedupRuns (stableSort Seg.keyLe v) else v, { c with filters := r.2 })

/-- `struct FilterStream` (`src/segment/filter.rs` 114-121). -/
structure FilterStream (σ : Type u) where
  src : σ
  srcScanned : Nat
  srcConsumed : Nat
  maxConsume : Nat
  segments : List Seg
  cutter : Cutter

namespace FilterStream

/-- `FilterStream::new` (`src/segment/filter.rs` 124-133) after the expressions have been parsed. -/
def new (oc : Bool) (src : σ) (rs : List RangeMapper) : Except Err (FilterStream σ) :=
  match Cutter.ofRanges oc rs with
  | .error e => .error e
  | .ok c => .ok { src := src, srcScanned := 0, srcConsumed := 0, maxConsume := 0, segments := [], cutter := c }

/-- The position of the first slice that has not been scanned, `segments[scanned].pos`, or the source's `max_consume`
(`src/segment/filter.rs` 154-160). -/
def limit (segments : List Seg) (scanned maxc : Nat) : Nat :=
  match segments[scanned]? with
  | some x => min x.pos maxc
  | none => maxc

/-- `FilterStream::fill_segment_buf` (`src/segment/filter.rs` 137-163).  `&segments[start..end]` panics if the source
shows fewer slices than it reports. -/
def fill (S : SegSrc σ) (st : FilterStream σ) : Except Err ((Bool × Nat × Nat × Nat) × FilterStream σ) :=
  match S.fill st.src with
  | .error e => .error e
  | .ok ((isEof, bytes, count, maxc), src) =>
    let segments := (S.slices src).2
    if segments.length < count then .error .panic
    else
      let r := st.cutter.accumulateLines st.srcScanned st.srcConsumed isEof count segments st.segments
      let eof := r.2.2.isEmpty || isEof
      let bytes := if r.2.2.isEmpty then (r.2.1.getLast?.map Seg.tail).getD st.maxConsume else bytes
      let m := if eof then bytes else limit segments r.1 maxc
      .ok ((eof, bytes, r.2.1.length, m), { st with src := src, srcScanned := r.1, maxConsume := m, segments := r.2.1, cutter := r.2.2 })

/-- `FilterStream::consume` (`src/segment/filter.rs` 170-188). -/
def consume (S : SegSrc σ) (st : FilterStream σ) (k : Nat) : Except Err ((Nat × Nat) × FilterStream σ) :=
  match S.consume st.src (min k st.maxConsume) with
  | .error e => .error e
  | .ok ((bytes, count), src) =>
    if st.srcScanned < count then .error .panic
    else
      match cutSegs bytes st.segments with
      | .error e => .error e
      | .ok (from_, segments) =>
        if st.maxConsume < bytes then .error .panic
        else
          .ok ((bytes, from_), { st with src := src, srcScanned := st.srcScanned - count, srcConsumed := st.srcConsumed + count,
                                         maxConsume := st.maxConsume - bytes, segments := segments })

/-- `impl SegmentStream for FilterStream` (`src/segment/filter.rs` 136-189). -/
def segSrc (S : SegSrc σ) : SegSrc (FilterStream σ) where
  fill := fill S
  slices st := ((S.slices st.src).1, st.segments)
  consume := consume S

end FilterStream

end Nd
