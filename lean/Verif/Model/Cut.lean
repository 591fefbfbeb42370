import Verif.Model.StreamBuf
import Verif.Model.Mapper
import Verif.Model.Sort
/-!
# `CutStream` (src/byte/cut.rs)
-/
namespace Nd

/-- `struct Cutter` (`src/byte/cut.rs` 10-15).  `filters` is a stack sorted in descending order whose top
is the last element of the vector; here the top is the head of the list, so the list is ascending. -/
structure Cutter where
  filters : List RangeMapper
  tailFilters : List RangeMapper
  transOffset : Nat
  tailMargin : Nat
  deriving DecidableEq, Repr

namespace Cutter

/-- `filters.sort_by_key(|x| Reverse(x.sort_key()))` (`src/byte/cut.rs` 32, 62) on the reversed vector. -/
def sortFilters (fs : List RangeMapper) : List RangeMapper :=
  stableSort (fun a b => keyLe a.sortKey b.sortKey) fs

/-- The minimum of the `trans_offset`s (`src/byte/cut.rs` 34). -/
def minTrans (oc : Bool) : List RangeMapper → Except Err Nat
  | [] => .ok usizeMax
  | r :: rs =>
    match r.transOffset oc with
    | .error e => .error e
    | .ok x =>
      match minTrans oc rs with
      | .error e => .error e
      | .ok y => .ok (min x y)

/-- `Cutter::from_str` (`src/byte/cut.rs` 18-43) after the expressions have been parsed. -/
def ofRanges (oc : Bool) (rs : List RangeMapper) : Except Err Cutter :=
  let tail := rs.filter RangeMapper.hasRightAnchor
  match minTrans oc tail with
  | .error e => .error e
  | .ok trans => .ok {
      filters := sortFilters (rs.filter fun r => !r.hasRightAnchor)
      tailFilters := tail
      transOffset := trans
      tailMargin := (tail.map RangeMapper.tailMargin).foldr max 0 }

/-- `Cutter::is_empty` (`src/byte/cut.rs` 49-51). -/
def isEmpty (c : Cutter) : Bool := c.tailFilters.isEmpty && c.filters.isEmpty

/-- The scan loop of `Cutter::accumulate` (`src/byte/cut.rs` 76-99; on slices instead of bytes, `src/segment/filter.rs` 79-102): returns what is appended and the
remaining stack.  `&stream[start..end]` with `start <= end <= bytes` cannot panic. -/
def scan {α : Type u} (offset : Nat) (isEof : Bool) (scanUpto : Nat) (stream : List α) :
    Nat → List RangeMapper → List α × List RangeMapper
  | _, [] => ([], [])
  | last, f :: fs =>
    let range := f.toRange offset
    let start := min (max range.1 last) scanUpto
    let stop := min (max range.2 last) scanUpto
    let out := (stream.take stop).drop start
    if !isEof && decide (range.2 > scanUpto) then (out, f :: fs)
    else
      let r := scan offset isEof scanUpto stream stop fs
      (out ++ r.1, r.2)

/-- `Cutter::accumulate` (`src/byte/cut.rs` 53-101): returns what is appended to `v`, the number of bytes
scanned, and the new state. -/
def accumulate (c : Cutter) (offset : Nat) (isEof : Bool) (bytes : Nat) (stream : Bytes) : Bytes × Nat × Cutter :=
  let c :=
    if isEof && !c.tailFilters.isEmpty then
      { c with
        filters := sortFilters (c.filters ++ c.tailFilters.map fun f => f.toLeftAnchored (offset + bytes))
        tailFilters := [] }
    else c
  let scanUpto := if isEof then bytes else min (bytes - c.tailMargin) (c.transOffset - offset)
  let r := scan offset isEof scanUpto stream 0 c.filters
  (r.1, scanUpto, { c with filters := r.2 })

end Cutter

/-- The fields of `struct CutStream` (`src/byte/cut.rs` 104-110) other than its buffer. -/
structure CutState (σ : Type u) where
  src : σ
  srcConsumed : Nat
  cutter : Cutter

/-- The closure in `CutStream::fill_buf` (`src/byte/cut.rs` 125-137), with `min_fill_bytes` (45-47). -/
def CutStream.feed (S : ByteSrc σ) : StreamBuf.Closure (CutState σ) := fun c request buf =>
  match S.fill c.src (request + c.cutter.tailMargin + 1) with
  | .error e => .error e
  | .ok ((isEof, bytes), s) =>
    let r := c.cutter.accumulate c.srcConsumed isEof bytes (S.slice s)
    match S.consume s r.2.1 with
    | .error e => .error e
    | .ok s =>
      .ok (isEof || r.2.2.isEmpty, buf ++ r.1,
        { src := s, srcConsumed := c.srcConsumed + r.2.1, cutter := r.2.2 })

/-- `CutStream::new` (`src/byte/cut.rs` 113-120). -/
def CutStream.new (B : Nat) (oc : Bool) (src : σ) (rs : List RangeMapper) : Except Err (Buffered (CutState σ)) :=
  match Cutter.ofRanges oc rs with
  | .error e => .error e
  | .ok c => .ok { inner := { src := src, srcConsumed := 0, cutter := c }, buf := StreamBuf.new B }

/-- `impl ByteStream for CutStream` (`src/byte/cut.rs` 123-147). -/
def CutStream.byteSrc (S : ByteSrc σ) (B fuel : Nat) : ByteSrc (Buffered (CutState σ)) :=
  bufferedSrc B fuel (CutStream.feed S)

end Nd
