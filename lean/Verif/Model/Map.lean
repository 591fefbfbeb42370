import Verif.Model.Segment
import Verif.Model.Mapper
import Verif.Model.Sort
/-!
# Slice streams computed from another slice stream: `BridgeStream` (src/segment/bridge.rs) and `ExtendStream` (src/segment/extend.rs)

The two structures share their fields (except `last_end`) and most of their code; they are instances of one
definition that leaves the differences open.
-/
namespace Nd

/-- `struct BridgeStream` (`src/segment/bridge.rs` 8-25) and `struct ExtendStream` (`src/segment/extend.rs` 26-44); `aux` is
`last_end` of the former. -/
structure MapStream (σ : Type u) (α : Type) where
  src : σ
  segments : List Seg
  aux : α
  srcScanned : Nat
  maxConsume : Nat

/-- The differences. -/
structure MapOps (α : Type) where
  /-- the segments appended by `extend_segment_buf` for the new source segments, and the new `aux` -/
  grow : α → Bool → Nat → List Seg → List Seg × α
  /-- `update_max_consume` before the end -/
  limit : α → Nat → Nat
  /-- the effect of `consume` on `aux` -/
  unwind : α → Nat → α
  /-- whether `&segments[src_scanned..count]` is evaluated even if `count < src_scanned` (and panics) -/
  strict : Bool

namespace MapStream

def new (src : σ) (aux : α) : MapStream σ α := { src := src, segments := [], aux := aux, srcScanned := 0, maxConsume := 0 }

/-- `fill_segment_buf`, `as_slices`, `consume` (`src/segment/bridge.rs` 123-163, `src/segment/extend.rs` 131-168). -/
def segSrc (S : SegSrc σ) (ops : MapOps α) : SegSrc (MapStream σ α) where
  fill m :=
    match S.fill m.src with
    | .error e => .error e
    | .ok ((eof, bytes, count, maxc), src) =>
      let segs := (S.slices src).2
      if (ops.strict ∧ (count < m.srcScanned ∨ segs.length < count)) ∨ (m.srcScanned < count ∧ segs.length < count) then .error .panic
      else
        let r := ops.grow m.aux eof bytes ((segs.take count).drop m.srcScanned)
        let limit := if eof then bytes else ops.limit r.2 maxc
        .ok ((eof, bytes, (m.segments ++ r.1).length, min maxc limit),
          { src := src, segments := m.segments ++ r.1, aux := r.2, srcScanned := count, maxConsume := limit })
  slices m := ((S.slices m.src).1, m.segments)
  consume m k :=
    match S.consume m.src (min k m.maxConsume) with
    | .error e => .error e
    | .ok ((bytes, srcCount), src) =>
      if m.srcScanned < srcCount then .error .panic
      else
        match cutSegs bytes m.segments with
        | .error e => .error e
        | .ok (from_, segments) =>
          if m.maxConsume < bytes then .error .panic
          else
            .ok ((bytes, from_), { src := src, segments := segments, aux := ops.unwind m.aux bytes, srcScanned := m.srcScanned - srcCount,
                                   maxConsume := m.maxConsume - bytes })

end MapStream

/-- The closure `map_segment` (`src/segment/bridge.rs` 69-84, `src/segment/extend.rs` 89-107).  Of `SorterElement` only the
segment is kept: `original_end` only orders elements that denote the same segment. -/
def mapSegment (tail : Nat) (input : Int × Int) (m : SegmentMapper) : Option Seg :=
  let r := m.evaluate input input
  let start := min (max r.1 0).toNat tail
  let stop := min (max r.2 0).toNat tail
  if start < stop then some { pos := start, len := stop - start } else none

/-- The closure `eval_phantom` and the minimum over the mappers (`src/segment/bridge.rs` 52-61, `src/segment/extend.rs` 72-81). -/
def phantomLimit (ms : List SegmentMapper) (phantom : Int × Int) : Nat :=
  (max 0 (((ms.map fun (m : SegmentMapper) => min (m.evaluate phantom phantom).1 (m.evaluate phantom phantom).2).min?).getD 0)).toNat

namespace Bridge

/-- The loop over the new source segments (`src/segment/bridge.rs` 89-108). -/
def scan (ms : List SegmentMapper) (tail : Nat) : Int → List Seg → List Seg × Int
  | prevEnd, [] => ([], prevEnd)
  | prevEnd, x :: xs =>
    if prevEnd ≥ (x.pos : Int) then scan ms tail (max prevEnd (x.tail : Int)) xs
    else
      let r := scan ms tail (max prevEnd (x.tail : Int)) xs
      (ms.filterMap (mapSegment tail (prevEnd, (x.pos : Int))) ++ r.1, r.2)

/-- `extend_segment_buf` (`src/segment/bridge.rs` 66-119), `update_max_consume` (44-64) and the update of `last_end` in
`consume` (159). -/
def ops (ms : List SegmentMapper) : MapOps Int where
  grow lastEnd eof bytes news :=
    let tail := if eof then bytes else usizeMax
    let r := scan ms tail lastEnd news
    if eof ∧ r.2 < (bytes : Int) then (r.1 ++ ms.filterMap (mapSegment tail (r.2, (bytes : Int))), (bytes : Int)) else r
  limit lastEnd _ := phantomLimit ms (lastEnd, lastEnd + 1)
  unwind lastEnd k := lastEnd - k
  strict := false

/-- `BridgeStream::new` (`src/segment/bridge.rs` 28-47) after the expressions have been parsed. -/
def new (src : σ) : MapStream σ Int := MapStream.new src 0

end Bridge

namespace Extend

/-- The order of `SorterElement` (`src/segment/extend.rs` 10-15). -/
def le (a b : Seg) : Bool := decide (a.pos < b.pos ∨ (a.pos = b.pos ∧ a.len ≤ b.len))

/-- `extend_segment_buf` (`src/segment/extend.rs` 86-128) and `update_max_consume` (64-84).  The heap is emptied in every
call, so popping it yields the sorted elements. -/
def ops (ms : List SegmentMapper) : MapOps Unit where
  grow _ eof bytes news :=
    let tail := if eof then bytes else usizeMax
    (stableSort le (news.flatMap fun x => ms.filterMap (mapSegment tail ((x.pos : Int), (x.tail : Int)))), ())
  limit _ maxc := phantomLimit ms ((maxc : Int), (maxc : Int) + 1)
  unwind _ _ := ()
  strict := true

/-- `ExtendStream::new` (`src/segment/extend.rs` 47-62) after the expressions have been parsed. -/
def new (src : σ) : MapStream σ Unit := MapStream.new src ()

end Extend

end Nd
