import Verif.Model.Record
import Verif.Model.Segment
/-!
# `GuidedSlicer`, the option `--guide` (src/segment/guided.rs)
-/
namespace Nd

/-- `struct GuidedSlicer` (`src/segment/guided.rs` 11-19).  The guide is any source of records; the array text collected in `buf` is not
used. -/
structure GuidedSlicer (σ : Type u) (τ : Type v) where
  src : σ
  guide : τ
  segments : List Seg
  guideConsumed : Nat
  srcConsumed : Nat
  maxConsume : Nat

/-- Subtraction of `usize`s, which wraps in release builds. -/
def wsub (a b : Nat) : Nat := if b ≤ a then a - b else 2 ^ 64 + a - b

namespace GuidedSlicer

/-- `GuidedSlicer::new` (`src/segment/guided.rs` 22-32). -/
def new (src : σ) (guide : τ) : GuidedSlicer σ τ := { src := src, guide := guide, segments := [], guideConsumed := 0, srcConsumed := 0, maxConsume := 0 }

/-- The loop of `GuidedSlicer::extend_segment_buf` (`src/segment/guided.rs` 43-69); `tail` is the end of the lent bytes. -/
def loop (P : RecSrc τ) (isEof : Bool) (tail : Nat) : Nat → GuidedSlicer σ τ → Except Err (GuidedSlicer σ τ)
  | 0, _ => .error .diverge
  | fuel + 1, st =>
    match P.read st.guide with
    | .error e => .error e
    | .ok (none, guide) => .ok { st with guide := guide, guideConsumed := st.segments.length }
    | .ok (some r, guide) =>
      let stop := (r.offset + r.span) % 2 ^ 64
      let pos := wsub r.offset st.srcConsumed
      let len := if isEof then wsub (min stop tail) r.offset else r.span
      let segments := st.segments ++ [{ pos := pos, len := len }]
      if tail < stop then
        .ok { st with guide := guide, segments := segments, maxConsume := min st.maxConsume pos, guideConsumed := segments.length - 1 }
      else loop P isEof tail fuel { st with guide := guide, segments := segments }

/-- `GuidedSlicer::fill_segment_buf` and `extend_segment_buf` (`src/segment/guided.rs` 34-42, 74-81); `B` is `BLOCK_SIZE`. -/
def fill (S : ByteSrc σ) (P : RecSrc τ) (B fuel : Nat) (st : GuidedSlicer σ τ) : Except Err ((Bool × Nat × Nat × Nat) × GuidedSlicer σ τ) :=
  match S.fill st.src (max B ((st.segments.getLast?.map Seg.tail).getD 0)) with
  | .error e => .error e
  | .ok ((isEof, bytes), src) =>
    match loop P isEof (st.srcConsumed + bytes) fuel { st with src := src, maxConsume := bytes } with
    | .error e => .error e
    | .ok st => .ok ((isEof, bytes, st.guideConsumed, st.maxConsume), st)

/-- `impl SegmentStream for GuidedSlicer` (`src/segment/guided.rs` 73-108). -/
def segSrc (S : ByteSrc σ) (P : RecSrc τ) (B fuel : Nat) : SegSrc (GuidedSlicer σ τ) where
  fill := fill S P B fuel
  slices st := (S.slice st.src, st.segments.take st.guideConsumed)
  consume st k :=
    let bytes := min k st.maxConsume
    match S.consume st.src bytes with
    | .error e => .error e
    | .ok src =>
      match cutSegs bytes st.segments with
      | .error e => .error e
      | .ok (from_, segments) =>
        .ok ((bytes, from_), { st with src := src, segments := segments, guideConsumed := wsub st.guideConsumed from_,
                                       srcConsumed := st.srcConsumed + bytes, maxConsume := st.maxConsume - bytes })

end GuidedSlicer

end Nd
