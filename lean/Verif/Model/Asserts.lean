import Verif.Model.Hexdump
import Verif.Model.Merge
import Verif.Model.Guided
import Verif.Model.Map
/-!
# The debug build: `debug_assert!`

The other models describe the release build, in which `debug_assert!` is compiled away.  Here the calls that contain such assertions are wrapped:
a call whose assertion fails ends with `.panic`.  The assertions in `TeeStream::consume` (`src/byte/tee.rs` 62), `ClipStream::consume` (`src/byte/clip.rs` 216) and in
the closure of `CatStream` (`src/byte/cat.rs` 44) guard operations that panic anyway and are part of the other models.
-/
namespace Nd

/-- A stream with assertions about the state before a call, its result or argument, and the state after it. -/
def ByteSrc.asserting (S : ByteSrc σ) (onFill : σ → Bool × Nat → σ → Bool) (onConsume : σ → Nat → σ → Bool) : ByteSrc σ where
  fill s req :=
    match S.fill s req with
    | .error e => .error e
    | .ok (r, s') => if onFill s r s' then .ok (r, s') else .error .panic
  slice := S.slice
  consume s k :=
    match S.consume s k with
    | .error e => .error e
    | .ok s' => if onConsume s k s' then .ok s' else .error .panic

/-- The assertions of `StreamBuf::len` and `StreamBuf::as_slice` (`src/streambuf.rs` 46, 122).  Simplification: they are checked after every call, whether or not the
client looks at the slice; the first one also guards the subtraction in `StreamBuf::fill_buf` (87, 118). -/
def StreamBuf.asserts (s : StreamBuf) : Bool := decide (s.pos ≤ s.len) && decide (s.len + MARGIN ≤ s.buf.length)

/-- The assertion of `StreamBuf::consume` (`src/streambuf.rs` 151-153), given the state afterwards. -/
def StreamBuf.assertsTarget (amount : Nat) (s : StreamBuf) : Bool := decide (amount ≠ 0) || s.isEof || decide (s.len < s.targetLen)

/-- `bufferedSrc` in the debug build. -/
def bufferedAsserting (B fuel : Nat) (f : StreamBuf.Closure τ) : ByteSrc (Buffered τ) :=
  (bufferedSrc B fuel f).asserting (fun _ _ s' => s'.buf.asserts) fun _ k s' => s'.buf.asserts && s'.buf.assertsTarget k

namespace CatStream

/-- The stream is forwarded directly from the source (`src/byte/cat.rs` 95, 106). -/
def direct (c : CatStream σ) : Bool := decide (c.cache.length = 0) && !c.srcs.isEmpty

/-- `CatStream` in the debug build: `src/byte/cat.rs` 70 (all sources read: nothing is duplicated), 88 (implied by the branch taken), 114 and 115 (what is consumed and what is
duplicated lies in the cache), and the assertions of the cache. -/
def asserting (S : ByteSrc σ) (B fuel : Nat) : ByteSrc (CatStream σ) :=
  (byteSrc S B fuel).asserting (fun c _ c' => (!c.srcs.isEmpty || decide (c.dup = 0)) && c.cache.asserts && c'.cache.asserts)
    fun c k c' => c.cache.asserts && c'.cache.asserts &&
      (c.direct || (decide (k ≤ c.cache.length) && decide (c.dup ≤ c.cache.length) && c'.cache.assertsTarget k))

end CatStream

namespace ClipStream

/-- `ClipStream` in the debug build: `src/byte/clip.rs` 193 (nothing is left to skip), 198, 202 (more than the stripped bytes are lent unless the end is reported). -/
def asserting (S : ByteSrc σ) (B fuel : Nat) : ByteSrc (ClipStream σ) where
  fill c request :=
    match skipLoop S B fuel c with
    | .error e => .error e
    | .ok (true, c) => .ok ((true, 0), c)
    | .ok (false, c) =>
      if c.skip ≠ 0 then .error .panic
      else
        let request := min c.rem request + c.strip + 1
        if request ≤ c.strip then .error .panic
        else
          match S.fill c.src request with
          | .error e => .error e
          | .ok ((isEof, bytes), s) =>
            if isEof = false ∧ bytes ≤ c.strip then .error .panic
            else
              let bytes := min c.rem (bytes - c.strip)
              .ok ((isEof || decide (bytes = c.rem), bytes), { c with src := s })
  slice := (byteSrc S B fuel).slice
  consume := (byteSrc S B fuel).consume

/-- The padded source in the debug build (`src/byte/clip.rs` 155-164). -/
def paddedAsserting (S : ByteSrc σ) (B fuel : Nat) : ByteSrc (Padded σ) :=
  sumSrc S (CatStream.asserting (sumSrc (ZeroStream.byteSrc B) S) B fuel)

end ClipStream

namespace ScatterDrain

/-- The closure of `ScatterDrain::fill_buf_impl_through` in the debug build (`src/drain/scatter.rs` 117-142): at the end of the stream everything lent may be consumed
(120-122), and is consumed (132-134). -/
def feedAsserting (S : SegSrc σ) (f : Formatting) : StreamBuf.Closure (ScatterDrain σ) := fun d req buf =>
  match S.fill d.src with
  | .error e => .error e
  | .ok ((isEof, bytes, _, maxc), src) =>
    if isEof = true ∧ bytes ≠ maxc then .error .panic
    else
      match S.consume src maxc with
      | .error _ => feed S f d req buf
      | .ok ((bytes, _), _) => if isEof = true ∧ bytes ≠ maxc then .error .panic else feed S f d req buf

/-- `ScatterDrain` printing to the standard output in the debug build. -/
def asserting (S : SegSrc σ) (f : Formatting) (B fuel : Nat) : ByteSrc (Buffered (ScatterDrain σ)) := bufferedAsserting B fuel (feedAsserting S f)

end ScatterDrain

namespace GuidedSlicer

/-- `GuidedSlicer` in the debug build: all slices read before lie within the lent bytes, as that many were requested (`src/segment/guided.rs` 35-36). -/
def asserting (S : ByteSrc σ) (P : RecSrc τ) (B fuel : Nat) : SegSrc (GuidedSlicer σ τ) where
  fill st :=
    match S.fill st.src (max B ((st.segments.getLast?.map Seg.tail).getD 0)) with
    | .error e => .error e
    | .ok ((_, bytes), _) => if bytes < (st.segments.getLast?.map Seg.tail).getD 0 then .error .panic else fill S P B fuel st
  slices := (segSrc S P B fuel).slices
  consume := (segSrc S P B fuel).consume

end GuidedSlicer

namespace Accumulator

/-- `Accumulator::pop` in the debug build (`src/segment/merge.rs` 34-45): the merged slice is not empty (37). -/
def popAsserting (a : Accumulator) : Except Err (Seg × Accumulator) := if a.start < a.stop then a.pop else .error .panic

/-- `Accumulator::append` in the debug build (`src/segment/merge.rs` 59-81): something has been accumulated (63), and it does not start behind the new slice (67). -/
def appendAsserting (a : Accumulator) (s : Seg) : Except Err (Option Seg × Accumulator) :=
  if a.count = 0 ∨ s.pos < a.start then .error .panic
  else if a.stop > s.pos ∨ s.pos - a.stop ≤ a.thresh then
    .ok (none, { a with count := a.count + 1, stop := max a.stop s.tail })
  else
    match a.popAsserting with
    | .error e => .error e
    | .ok (popped, a) => .ok (some popped, a.init s.pos s.tail)

/-- The loop over the new segments in the debug build (`src/segment/merge.rs` 157-161). -/
def appendAllAsserting (a : Accumulator) : List Seg → List Seg → Except Err (List Seg × Accumulator)
  | [], out => .ok (out, a)
  | s :: rest, out =>
    match a.appendAsserting s with
    | .error e => .error e
    | .ok (none, a) => a.appendAllAsserting rest out
    | .ok (some p, a) => a.appendAllAsserting rest (out ++ [p])

/-- `Accumulator::suspend` in the debug build (`src/segment/merge.rs` 83-94). -/
def suspendAsserting (a : Accumulator) (eof : Bool) (maxc : Nat) : Except Err (Option Seg × Accumulator) :=
  if a.count = 0 then .ok (none, a)
  else if eof = false ∧ maxc ≤ a.furthest then .ok (none, a)
  else
    match a.popAsserting with
    | .error e => .error e
    | .ok (s, a) => .ok (some s, a)

end Accumulator

/-- The assertion of `ExtendStream::extend_segment_buf` (`src/segment/extend.rs` 123-125): the slices whose images are pushed end within the lent bytes, unless the end is reported
(then the limit is `usize::MAX`).  The assertion in line 110 guards an indexing that panics anyway and is part of `MapStream.segSrc`. -/
def Extend.asserts (ms : List SegmentMapper) (eof : Bool) (bytes : Nat) (news : List Seg) : Bool :=
  eof || news.all fun x => (ms.filterMap (mapSegment usizeMax ((x.pos : Int), (x.tail : Int)))).isEmpty || decide (x.tail ≤ bytes)

/-- `ExtendStream` in the debug build. -/
def Extend.asserting (S : SegSrc σ) (ms : List SegmentMapper) : SegSrc (MapStream σ Unit) where
  fill m :=
    match (MapStream.segSrc S (Extend.ops ms)).fill m with
    | .error e => .error e
    | .ok ((eof, bytes, count, maxc), m') =>
      if Extend.asserts ms eof bytes (((S.slices m'.src).2.take m'.srcScanned).drop m.srcScanned) then .ok ((eof, bytes, count, maxc), m') else .error .panic
  slices := (MapStream.segSrc S (Extend.ops ms)).slices
  consume := (MapStream.segSrc S (Extend.ops ms)).consume

/-- `nd FILE...` without options, in the debug build. -/
def hexdumpAsserting (B fuel : Nat) (inputs : List (Buffered Reader)) : Except Err (Bytes × Option Err) :=
  match ConstSlicerParams.fromRaw fuel 16 .whole with
  | .error e => .error e
  | .ok p =>
    match ConstSlicer.new (CatStream.new B inputs) p with
    | .error e => .error e
    | .ok s =>
      .ok (consumeStream
        (ScatterDrain.asserting (ConstSlicer.segSrc (CatStream.asserting (bufferedAsserting B fuel (RawStream.feed B)) B fuel)) { style := .hhh, minWidth := 16 } B fuel)
        B fuel (ScatterDrain.through B s))

end Nd
