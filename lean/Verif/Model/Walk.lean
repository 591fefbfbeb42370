import Verif.Model.Eval
import Verif.Model.Segment
/-!
# `WalkSlicer`, the option `--walk` (src/segment/walk.rs)

Offsets are natural numbers: the wrap-around of `usize` in `index * elem_size` and in sums of spans is not modelled.
-/
namespace Nd

namespace Eval

/-- `evalStep` with a variable lookup that has effects: the closure `F: FnMut(usize, i64) -> i64` passed to `Rpn::evaluate`
(`src/eval.rs` 1156-1190, 1297-1302). -/
def evalStepM (get : σ → Nat → Int64 → Except Err (Int64 × σ)) (s : σ) (stack : List Int64) (t : Tok) : Except Err (List Int64 × σ) :=
  match t.1, t.2, stack with
  | .var id _, 0, _ =>
    match get s id 0 with
    | .error e => .error e
    | .ok (v, s) => (evalStep (fun _ _ => v) stack t).map fun st => (st, s)
  | .var id _, _ + 1, x :: _ =>
    match get s id x with
    | .error e => .error e
    | .ok (v, s) => (evalStep (fun _ _ => v) stack t).map fun st => (st, s)
  | _, _, _ => (evalStep (fun _ _ => 0) stack t).map fun st => (st, s)

/-- `evalLoop` with a variable lookup that has effects. -/
def evalLoopM (get : σ → Nat → Int64 → Except Err (Int64 × σ)) : List Tok → σ → List Int64 → Except Err (List Int64 × σ)
  | [], s, stack => .ok (stack, s)
  | t :: ts, s, stack =>
    match evalStepM get s stack t with
    | .error e => .error e
    | .ok (stack, s) => evalLoopM get ts s stack

/-- `Rpn::evaluate` (`src/eval.rs` 1297-1302) with a variable lookup that has effects. -/
def evalRpnM (get : σ → Nat → Int64 → Except Err (Int64 × σ)) (ts : List Tok) (s : σ) : Except Err (Int64 × σ) :=
  match evalLoopM get ts s [] with
  | .error e => .error e
  | .ok ([], _) => .error .parse
  | .ok ([v], s) => .ok (v, s)
  | .ok _ => .error .panic

end Eval

/-- `struct WalkSlicer` (`src/segment/walk.rs` 79-85).  `fetchers` are the compiled expressions of the `SpanFetcher`s; `spans` is passed
from `calc_next_chunk_len` to `extend_segment_buf` as a value. -/
structure WalkSlicer (σ : Type u) where
  src : σ
  fetchers : List (List Tok)
  segments : List Seg
  pos : Nat

namespace WalkSlicer
open Nd.Eval

/-- The variables of `SpanFetcher::new` (`src/segment/walk.rs` 18-26). -/
def vars : Vars := [(['b'], 1, true), (['h'], 2, true), (['i'], 4, true), (['l'], 8, true)]

/-- `exprs.split(',')` (`src/segment/walk.rs` 92). -/
def splitComma : List Char → List (List Char)
  | [] => [[]]
  | c :: cs =>
    if c = ',' then [] :: splitComma cs
    else
      match splitComma cs with
      | [] => [[c]]
      | x :: xs => (c :: x) :: xs

/-- `exprs.strip_suffix(',').unwrap_or(exprs)` (`src/segment/walk.rs` 92). -/
def stripComma (exprs : List Char) : List Char := if exprs.getLast? = some ',' then exprs.dropLast else exprs

/-- `WalkSlicer::new` (`src/segment/walk.rs` 88-106) with `SpanFetcher::new` (`src/segment/walk.rs` 17-32). -/
def new (src : σ) (exprs : List Char) : Except Err (WalkSlicer σ) := do
  let fetchers ← (splitComma (stripComma exprs)).mapM (rpnNew vars)
  .ok { src := src, fetchers := fetchers, segments := [], pos := 0 }

/-- `i64::from_le_bytes` (`src/segment/walk.rs` 55). -/
def fromLeBytes (bs : Bytes) : Int64 := Int64.ofNat (bs.foldr (fun b acc => b.toNat + 256 * acc) 0)

/-- `SpanFetcher::get_array_element` (`src/segment/walk.rs` 34-58).  `S.slice` gives the bytes of `as_slice()` after the fill. -/
def getArrayElement (S : ByteSrc σ) (skip : Nat) (s : σ) (size : Nat) (index : Int64) : Except Err (Int64 × σ) :=
  if index < 0 then .error .panic
  else
    let offset := skip + index.toInt.toNat * size
    match S.fill s (offset + size) with
    | .error _ => .error .panic
    | .ok ((_, bytes), s) =>
      if bytes < offset + size then .ok (0, s)
      else if (S.slice s).length < offset + 8 then .error .panic
      else
        let val := fromLeBytes (((S.slice s).drop offset).take 8)
        let shift := Int64.ofNat (64 - 8 * size)
        .ok ((val <<< shift) >>> shift, s)

/-- `SpanFetcher::get_next_span` (`src/segment/walk.rs` 60-76). -/
def getNextSpan (S : ByteSrc σ) (skip : Nat) (rpn : List Tok) (s : σ) : Except Err (Nat × σ) :=
  match evalRpnM (getArrayElement S skip) rpn s with
  | .error _ => .error .panic
  | .ok (v, s) => if v ≤ 0 then .error .panic else .ok (v.toInt.toNat, s)

/-- `WalkSlicer::calc_next_chunk_len` (`src/segment/walk.rs` 108-117); it returns the spans, whose sum is the chunk length. -/
def nextSpans (S : ByteSrc σ) (skip : Nat) : List (List Tok) → σ → Except Err (List Nat × σ)
  | [], s => .ok ([], s)
  | rpn :: rpns, s =>
    match getNextSpan S skip rpn s with
    | .error e => .error e
    | .ok (span, s) =>
      match nextSpans S skip rpns s with
      | .error e => .error e
      | .ok (spans, s) => .ok (span :: spans, s)

/-- The loop of `WalkSlicer::extend_segment_buf` (`src/segment/walk.rs` 126-138). -/
def pushSpans (bytes : Nat) : List Nat → List Seg → Nat → List Seg × Nat
  | [], segments, pos => (segments, pos)
  | span :: spans, segments, pos =>
    if bytes ≤ pos then (segments, pos)
    else pushSpans bytes spans (segments ++ [{ pos := pos, len := min (pos + span) bytes - pos }]) (pos + span)

/-- The loop of `WalkSlicer::fill_segment_buf` with `extend_segment_buf` (`src/segment/walk.rs` 119-140, 154-164); `isEof` and `bytes` are the result of the fill
before the loop. -/
def loop (S : ByteSrc σ) (isEof : Bool) (bytes : Nat) : Nat → WalkSlicer σ → Except Err ((Bool × Nat) × WalkSlicer σ)
  | 0, _ => .error .diverge
  | fuel + 1, st =>
    match nextSpans S st.pos st.fetchers st.src with
    | .error e => .error e
    | .ok (spans, src) =>
      if bytes < st.pos + spans.sum then .ok ((isEof, bytes), { st with src := src })
      else
        match S.fill src spans.sum with
        | .error e => .error e
        | .ok ((isEof', bytes'), src) =>
          let (segments, pos) := pushSpans bytes' spans st.segments st.pos
          if bytes' ≤ pos then .ok ((isEof', bytes'), { st with src := src, segments := segments, pos := pos })
          else loop S isEof bytes fuel { st with src := src, segments := segments, pos := pos }

/-- `WalkSlicer::fill_segment_buf` (`src/segment/walk.rs` 144-169); `B` is `BLOCK_SIZE`. -/
def fill (S : ByteSrc σ) (B fuel : Nat) (st : WalkSlicer σ) : Except Err ((Bool × Nat × Nat × Nat) × WalkSlicer σ) :=
  match S.fill st.src (max B (2 * st.pos)) with
  | .error e => .error e
  | .ok ((isEof, bytes), src) =>
    if isEof && decide (bytes ≤ st.pos) then
      .ok ((isEof, bytes, st.segments.length, min bytes st.pos), { st with src := src })
    else
      match loop S isEof bytes fuel { st with src := src } with
      | .error e => .error e
      | .ok ((isEof, bytes), st) => .ok ((isEof, bytes, st.segments.length, min bytes st.pos), st)

/-- `impl SegmentStream for WalkSlicer` (`src/segment/walk.rs` 143-193). -/
def segSrc (S : ByteSrc σ) (B fuel : Nat) : SegSrc (WalkSlicer σ) where
  fill := fill S B fuel
  slices st := (S.slice st.src, st.segments)
  consume st k :=
    let bytes := min k st.pos
    match S.consume st.src bytes with
    | .error e => .error e
    | .ok src =>
      match cutSegs bytes st.segments with
      | .error e => .error e
      | .ok (from_, segments) => .ok ((bytes, from_), { st with src := src, segments := segments, pos := st.pos - bytes })

end WalkSlicer

end Nd
