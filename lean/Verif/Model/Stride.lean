import Verif.Model.Mapper
/-!
# The constant-stride slicer `--width N[,S..E]` (src/segment/stride.rs)
-/
namespace Nd

/-- A subtraction of `usize`s that must not underflow. -/
def ckSub (a b : Nat) : Except Err Nat := if b ≤ a then .ok (a - b) else .error .panic

/-- `struct ConstSlicerParams` (`src/segment/stride.rs` 11-16) without `open_ended`, which
`ConstSlicerParams::from_raw` always sets to `(false, false)`. -/
structure ConstSlicerParams where
  head : Int
  tail : Int
  pitch : Nat
  span : Nat
  deriving DecidableEq, Repr

namespace ConstSlicerParams

/-- `while margin >= span { margin -= pitch; }` (`src/segment/stride.rs` 44-46); with `pitch = 0` the loop
never ends. -/
def headLoop (pitch span : Int) : Nat → Int → Except Err Int
  | 0, _ => .error .diverge
  | fuel + 1, margin => if span ≤ margin then headLoop pitch span fuel (margin - pitch) else .ok margin

/-- `ConstSlicerParams::from_raw` (`src/segment/stride.rs` 19-58) after the range expression has been parsed
(`s..e` if there is none). -/
def fromRaw (fuel pitch : Nat) (m : SegmentMapper) : Except Err ConstSlicerParams :=
  let (start, stop) := m.evaluate (0, pitch) (0, pitch)
  if stop ≤ start then .error .invalid
  else
    let span := stop - start
    let tail := if stop < 1 then 1 - stop else max (1 - stop) (1 - span)
    if 0 ≤ start then .ok { head := start, tail := tail, pitch := pitch, span := span.toNat }
    else
      match headLoop pitch span fuel (-start) with
      | .error e => .error e
      | .ok margin => .ok { head := -margin, tail := tail, pitch := pitch, span := span.toNat }

end ConstSlicerParams

/-- `struct ConstSegments` (`src/segment/stride.rs` 94-118): `init_state` is `off` and `minEscape`,
`phase` is `curr` and `prev`.  `open_ended` is omitted: with `(false, false)` the methods `patch_head` and
`patch_tail` (`src/segment/stride.rs` 244-270) do nothing. -/
structure ConstSegments where
  segments : List Seg
  off : Nat
  minEscape : Nat
  curr : Nat
  prev : Nat
  isEof : Bool
  lend : Nat × Nat
  tailMargin : Nat
  reserved : Nat
  pitch : Nat
  span : Nat
  deriving DecidableEq, Repr

namespace ConstSegments

/-- `ConstSegments::new` (`src/segment/stride.rs` 182-215). -/
def new (p : ConstSlicerParams) : Except Err ConstSegments :=
  if 0 < p.head + p.span ∧ 0 < p.tail + p.span then
    let om0 := (p.head + p.span).toNat
    let om1 := (p.tail + p.span).toNat
    let phase := p.head % p.pitch
    .ok {
      segments := []
      off := if p.head < 0 then (phase - p.head).toNat else 0
      minEscape := if p.head < 0 then om0 else p.head.toNat + 1
      curr := if p.head < 0 then phase.toNat else p.head.toNat
      prev := usizeMax
      isEof := false
      lend := (0, 0)
      tailMargin := om1
      reserved := om1 - p.span + p.pitch
      pitch := p.pitch
      span := p.span }
  else .error .panic

/-- `ConstSegments::count_segments` (`src/segment/stride.rs` 217-219). -/
def countSegments (s : ConstSegments) (len : Nat) : Nat := (len + s.pitch - 1) / s.pitch

/-- `ConstSegments::min_fill_len` (`src/segment/stride.rs` 221-223). -/
def minFillLen (s : ConstSegments) : Nat := max s.span s.minEscape + s.reserved + 1

/-- `ConstSegments::get_next_tail` (`src/segment/stride.rs` 225-231). -/
def nextTail (s : ConstSegments) : Except Err Nat :=
  match s.segments.getLast? with
  | some x => .ok (x.tail + s.pitch)
  | none => ckSub (s.curr + s.span) s.off

/-- `ConstSegments::update_lend_state` (`src/segment/stride.rs` 233-242). -/
def updateLend (s : ConstSegments) (nextTail len count : Nat) : ConstSegments :=
  { s with lend := (min (nextTail - s.span) len, count) }

/-- The loop of `extend_segments_with_clip` (`src/segment/stride.rs` 275-281). -/
def clipLoop (s : ConstSegments) (len : Nat) : Nat → Nat → List Seg → Except Err (List Seg)
  | 0, _, _ => .error .diverge
  | fuel + 1, nextTail, segs =>
    if nextTail + s.tailMargin ≤ len + s.span then
      match ckSub (min nextTail len) (nextTail - s.span) with
      | .error e => .error e
      | .ok l => clipLoop s len fuel (nextTail + s.pitch) (segs ++ [{ pos := nextTail - s.span, len := l }])
    else .ok segs

/-- The loop of `extend_segments` (`src/segment/stride.rs` 293-299): the new list and `next_tail`. -/
def extendLoop (s : ConstSegments) (len : Nat) : Nat → Nat → List Seg → Except Err (List Seg × Nat)
  | 0, _, _ => .error .diverge
  | fuel + 1, nextTail, segs =>
    if nextTail + s.reserved ≤ len then
      extendLoop s len fuel (nextTail + s.pitch) (segs ++ [{ pos := nextTail - s.span, len := nextTail - (nextTail - s.span) }])
    else .ok (segs, nextTail)

/-- `ConstSegments::fill_segment_buf` (`src/segment/stride.rs` 305-329) with `extend_segments_with_clip`
(272-288) and `extend_segments` (290-303).  The loops advance by `pitch > 0`, so `len + span + 2` rounds are
enough. -/
def fill (s : ConstSegments) (isEof : Bool) (len : Nat) : Except Err ConstSegments :=
  if isEof then
    let s := { s with isEof := true, minEscape := min len s.minEscape, segments := [] }
    match s.nextTail with
    | .error e => .error e
    | .ok t =>
      match clipLoop s len (len + s.span + 2) t [] with
      | .error e => .error e
      | .ok segs => .ok { s with segments := segs, lend := (len, segs.length) }
  else
    match s.nextTail with
    | .error e => .error e
    | .ok t =>
      if t + s.reserved ≤ len then
        match extendLoop s len (len + s.span + 2) t s.segments with
        | .error e => .error e
        | .ok (segs, t) => .ok ({ s with segments := segs }.updateLend t len segs.length)
      else if t + s.reserved ≤ len + s.pitch then .ok (s.updateLend t len s.segments.length)
      else
        let extra := s.countSegments (t - (len + s.pitch))
        match ckSub t (extra * s.pitch), ckSub s.segments.length extra with
        | .ok t, .ok count => .ok (s.updateLend t len count)
        | _, _ => .error .panic

/-- `ConstSegments::update_phase` (`src/segment/stride.rs` 335-364): the new `phase.curr`, `bytes` and `count`. -/
def updatePhase (s : ConstSegments) (bytes count off : Nat) : Except Err (Nat × Nat × Nat) :=
  if count = 0 ∧ bytes < s.curr then .ok (s.curr - bytes, bytes, count)
  else
    let phase :=
      if bytes ≤ s.curr then s.curr - bytes
      else
        let shift := (bytes - s.curr) % s.pitch
        if shift = 0 then 0 else s.pitch - shift
    if count < 16 then .ok (phase, bytes, count)
    else
      let count := if phase = 0 then count else count - 1
      match ckSub (count * s.pitch + s.prev) off with
      | .error e => .error e
      | .ok bytes => .ok (0, bytes, count)

/-- `ConstSegments::consume` (`src/segment/stride.rs` 366-396). -/
def consume (s : ConstSegments) (bytes : Nat) : Except Err ((Nat × Nat) × ConstSegments) :=
  if bytes < s.minEscape then .ok ((0, 0), s)
  else
    let s := if 0 < s.minEscape then { s with minEscape := 0, segments := [] } else s
    let off := s.off
    let s := { s with off := 0, prev := s.curr }
    if s.isEof ∧ s.lend.1 ≤ bytes then .ok (s.lend, s)
    else
      let count := min (s.countSegments (bytes + off - s.curr)) s.lend.2
      match s.updatePhase bytes count off with
      | .error e => .error e
      | .ok (curr, bytes, count) =>
        .ok ((bytes, count), { s with curr := curr, segments := if s.prev ≠ curr then [] else s.segments })

end ConstSegments

/-- `struct ConstSlicer` (`src/segment/stride.rs` 399-402). -/
structure ConstSlicer (σ : Type u) where
  src : σ
  segs : ConstSegments

namespace ConstSlicer

/-- `ConstSlicer::new` / `from_raw` (`src/segment/stride.rs` 404-418) with their assertions. -/
def new (src : σ) (p : ConstSlicerParams) : Except Err (ConstSlicer σ) :=
  if 0 < p.pitch ∧ 0 < p.span then
    match ConstSegments.new p with
    | .error e => .error e
    | .ok segs => .ok { src := src, segs := segs }
  else .error .panic

/-- `impl SegmentStream for ConstSlicer` (`src/segment/stride.rs` 420-438).  `as_slice` (331-333) would panic if fewer segments
than promised were cached; the contract proved for it says that the slice has exactly `count` segments. -/
def segSrc (S : ByteSrc σ) : SegSrc (ConstSlicer σ) where
  fill s :=
    match S.fill s.src s.segs.minFillLen with
    | .error e => .error e
    | .ok ((isEof, len), src) =>
      match s.segs.fill isEof len with
      | .error e => .error e
      | .ok segs => .ok ((isEof, len, segs.lend.2, segs.lend.1), { src := src, segs := segs })
  slices s := (S.slice s.src, s.segs.segments.take s.segs.lend.2)
  consume s bytes :=
    match s.segs.consume bytes with
    | .error e => .error e
    | .ok ((bytes, count), segs) =>
      match S.consume s.src bytes with
      | .error e => .error e
      | .ok src => .ok ((bytes, count), { src := src, segs := segs })

end ConstSlicer
end Nd
