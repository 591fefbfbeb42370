import Verif.Model.Segment
/-!
# Merging neighbouring slices (`src/segment/merge.rs`)
-/
namespace Nd

/-- `struct Accumulator` (`src/segment/merge.rs` 7-16). -/
structure Accumulator where
  count : Nat
  start : Nat
  stop : Nat
  thresh : Nat
  deriving DecidableEq, Repr

namespace Accumulator

/-- `Accumulator::new` (`src/segment/merge.rs` 19-26). -/
def new (thresh : Nat) : Accumulator := { count := 0, start := usizeMax, stop := usizeMax, thresh := thresh }

/-- `Accumulator::init` (`src/segment/merge.rs` 28-32). -/
def init (a : Accumulator) (start stop : Nat) : Accumulator := { a with count := 1, start := start, stop := stop }

/-- `Accumulator::pop` (`src/segment/merge.rs` 34-45).  `tail - pos` panics on underflow. -/
def pop (a : Accumulator) : Except Err (Seg × Accumulator) :=
  if a.stop < a.start then .error .panic
  else .ok ({ pos := a.start, len := a.stop - a.start }, { a with count := 0, start := usizeMax, stop := usizeMax })

/-- `Accumulator::resume` (`src/segment/merge.rs` 47-57). -/
def resume (a : Accumulator) (s : Seg) : Bool × Accumulator :=
  if 0 < a.count then (false, a) else (true, a.init s.pos s.tail)

/-- `Accumulator::append` (`src/segment/merge.rs` 59-81); the `debug_assert!`s are not modelled. -/
def append (a : Accumulator) (s : Seg) : Except Err (Option Seg × Accumulator) :=
  if a.stop > s.pos ∨ s.pos - a.stop ≤ a.thresh then
    .ok (none, { a with count := a.count + 1, stop := max a.stop s.tail })
  else
    match a.pop with
    | .error e => .error e
    | .ok (popped, a) => .ok (some popped, a.init s.pos s.tail)

/-- `Accumulator::furthest_margable_pos` (`src/segment/merge.rs` 102-107). -/
def furthest (a : Accumulator) : Nat := if a.count = 0 then 0 else min (a.stop + a.thresh) usizeMax

/-- `Accumulator::suspend` (`src/segment/merge.rs` 83-94). -/
def suspend (a : Accumulator) (eof : Bool) (maxc : Nat) : Except Err (Option Seg × Accumulator) :=
  if a.count = 0 then .ok (none, a)
  else if eof = false ∧ maxc ≤ a.furthest then .ok (none, a)
  else
    match a.pop with
    | .error e => .error e
    | .ok (s, a) => .ok (some s, a)

/-- `Accumulator::unwind` (`src/segment/merge.rs` 96-100). -/
def unwind (a : Accumulator) (k : Nat) : Except Err Accumulator :=
  if a.start < k ∨ a.stop < k then .error .panic
  else .ok { a with start := a.start - k, stop := a.stop - k }

/-- The loop over the new segments (`src/segment/merge.rs` 157-161): appends the closed segments to `out`. -/
def appendAll (a : Accumulator) : List Seg → List Seg → Except Err (List Seg × Accumulator)
  | [], out => .ok (out, a)
  | s :: rest, out =>
    match a.append s with
    | .error e => .error e
    | .ok (none, a) => a.appendAll rest out
    | .ok (some p, a) => a.appendAll rest (out ++ [p])

end Accumulator

/-- `struct MergeStream` (`src/segment/merge.rs` 110-123). -/
structure MergeStream (σ : Type u) where
  src : σ
  segments : List Seg
  acc : Accumulator
  srcScanned : Nat
  maxConsume : Nat

namespace MergeStream

/-- `MergeStream::new` (`src/segment/merge.rs` 126-134). -/
def new (src : σ) (thresh : Nat) : MergeStream σ :=
  { src := src, segments := [], acc := .new thresh, srcScanned := 0, maxConsume := 0 }

/-- `MergeStream::update_max_consume` (`src/segment/merge.rs` 136-147). -/
def updateMaxConsume (m : MergeStream σ) (eof : Bool) (bytes maxc : Nat) : MergeStream σ :=
  if eof then { m with maxConsume := bytes }
  else if maxc ≤ m.acc.furthest then { m with maxConsume := m.acc.start }
  else { m with maxConsume := maxc }

/-- The first part of `MergeStream::extend_segment_buf` (`src/segment/merge.rs` 150-162): feeds the new segments to the
accumulator.  `segments[..count]` panics if fewer segments are lent than reported. -/
def scan (m : MergeStream σ) (segs : List Seg) (count : Nat) : Except Err (List Seg × Accumulator) :=
  if m.srcScanned < count then
    if segs.length < count then .error .panic
    else
      match (segs.take count).drop m.srcScanned with
      | [] => .error .panic
      | first :: rest =>
        match m.acc.resume first with
        | (true, a) => a.appendAll rest m.segments
        | (false, a) => a.appendAll (first :: rest) m.segments
  else .ok (m.segments, m.acc)

/-- `MergeStream::extend_segment_buf` (`src/segment/merge.rs` 149-169). -/
def extendSegmentBuf (m : MergeStream σ) (segs : List Seg) (eof : Bool) (count maxc : Nat) : Except Err (MergeStream σ) :=
  match m.scan segs count with
  | .error e => .error e
  | .ok (out, a) =>
    match a.suspend eof maxc with
    | .error e => .error e
    | .ok (none, a) => .ok { m with segments := out, acc := a, srcScanned := count }
    | .ok (some s, a) => .ok { m with segments := out ++ [s], acc := a, srcScanned := count }

/-- `impl SegmentStream for MergeStream` (`src/segment/merge.rs` 172-206). -/
def segSrc (S : SegSrc σ) : SegSrc (MergeStream σ) where
  fill m :=
    match S.fill m.src with
    | .error e => .error e
    | .ok ((eof, bytes, count, maxc), src) =>
      match ({ m with src := src } : MergeStream σ).extendSegmentBuf (S.slices src).2 eof count maxc with
      | .error e => .error e
      | .ok m =>
        let m := m.updateMaxConsume eof bytes maxc
        .ok ((eof, bytes, m.segments.length, m.maxConsume), m)
  slices m := ((S.slices m.src).1, m.segments)
  consume m k :=
    match S.consume m.src (min k m.maxConsume) with
    | .error e => .error e
    | .ok ((bytes, srcCount), src) =>
      if m.srcScanned < srcCount then .error .panic
      else
        match cutSegs bytes m.segments with
        | .error e => .error e
        | .ok (from_, segments) =>
          match m.acc.unwind bytes with
          | .error e => .error e
          | .ok acc =>
            if m.maxConsume < bytes then .error .panic
            else
              .ok ((bytes, from_), { src := src, segments := segments, acc := acc, srcScanned := m.srcScanned - srcCount,
                                     maxConsume := m.maxConsume - bytes })

end MergeStream

end Nd
