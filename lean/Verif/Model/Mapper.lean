import Verif.Model.Basic
/-!
# Range expressions after parsing: `SegmentMapper`, `RangeMapper` (src/mapper.rs)
-/
namespace Nd

/-- `struct SegmentMapperAnchor` (`src/mapper.rs` 11-15): `anchor` 0 is the start, 1 the end of the input
slice.  `isize` is `Int`. -/
structure SegmentMapperAnchor where
  anchor : Nat
  offset : Int
  deriving DecidableEq, Repr

/-- `SegmentMapperAnchor::evaluate` (`src/mapper.rs` 50-52); `anchor` is 0 or 1 by construction. -/
def SegmentMapperAnchor.evaluate (a : SegmentMapperAnchor) (input : Int × Int) : Int :=
  (if a.anchor = 0 then input.1 else input.2) + a.offset

/-- `struct SegmentMapper` (`src/mapper.rs` 55-59). -/
structure SegmentMapper where
  start : SegmentMapperAnchor
  stop : SegmentMapperAnchor
  deriving DecidableEq, Repr

/-- `SegmentMapper::evaluate` (`src/mapper.rs` 79-81). -/
def SegmentMapper.evaluate (m : SegmentMapper) (start stop : Int × Int) : Int × Int :=
  (m.start.evaluate start, m.stop.evaluate stop)

/-- `enum RangeMapperAnchor` (`src/mapper.rs` 164-168). -/
inductive Anchor where
  | fromStart (x : Nat)
  | fromEnd (x : Nat)
  deriving DecidableEq, Repr

/-- `struct RangeMapper` (`src/mapper.rs` 170-174). -/
structure RangeMapper where
  start : Anchor
  stop : Anchor
  deriving DecidableEq, Repr

namespace RangeMapper

/-- One end in `RangeMapper::from_str` (`src/mapper.rs` 180-190). -/
def anchorOf (a : SegmentMapperAnchor) : Anchor :=
  if a.anchor = 0 then .fromStart a.offset.toNat else .fromEnd (-a.offset).toNat

/-- `RangeMapper::from_str` (`src/mapper.rs` 177-193) after the expression has been parsed. -/
def ofMapper (m : SegmentMapper) : RangeMapper := { start := anchorOf m.start, stop := anchorOf m.stop }

/-- `RangeMapper::trans_offset` (`src/mapper.rs` 195-201).  `x - 1` panics for `x = 0` in builds with
overflow checks (`oc`) and wraps around otherwise. -/
def transOffset (oc : Bool) (r : RangeMapper) : Except Err Nat :=
  match r.start, r.stop with
  | .fromStart x, .fromEnd _ => .ok x
  | .fromEnd _, .fromStart x => if x = 0 then (if oc then .error .panic else .ok usizeMax) else .ok (x - 1)
  | _, _ => .ok usizeMax

/-- `RangeMapper::tail_margin` (`src/mapper.rs` 203-210). -/
def tailMargin (r : RangeMapper) : Nat :=
  match r.start, r.stop with
  | .fromStart _, .fromStart _ => 0
  | .fromStart _, .fromEnd y => y
  | .fromEnd x, .fromStart _ => x
  | .fromEnd x, .fromEnd y => max x y

/-- `RangeMapper::to_range` (`src/mapper.rs` 212-222). -/
def toRange (r : RangeMapper) (base : Nat) : Nat × Nat :=
  match r.start, r.stop with
  | .fromStart x, .fromStart y => (x - base, max (x - base) (y - base))
  | _, _ => (0, 0)

/-- `RangeMapper::to_left_anchored` (`src/mapper.rs` 224-234). -/
def toLeftAnchored (r : RangeMapper) (tail : Nat) : RangeMapper :=
  let flip : Anchor → Anchor
    | .fromEnd x => .fromStart (tail - x)
    | .fromStart x => .fromStart x
  { start := flip r.start, stop := flip r.stop }

/-- `RangeMapper::has_right_anchor` (`src/mapper.rs` 236-238). -/
def hasRightAnchor (r : RangeMapper) : Bool :=
  match r.start, r.stop with
  | .fromEnd _, _ => true
  | _, .fromEnd _ => true
  | _, _ => false

/-- `RangeMapper::sort_key` (`src/mapper.rs` 240-245). -/
def sortKey (r : RangeMapper) : Nat × Nat :=
  match r.start, r.stop with
  | .fromStart x, .fromStart y => (x, y)
  | _, _ => (0, 0)

end RangeMapper

/-- Lexicographic comparison of sort keys (`Ord for (usize, usize)`). -/
def keyLe (a b : Nat × Nat) : Bool := decide (a.1 < b.1 ∨ (a.1 = b.1 ∧ a.2 ≤ b.2))

end Nd
