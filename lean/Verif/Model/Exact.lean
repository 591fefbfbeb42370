import Verif.Model.Parser
import Verif.Model.Segment
/-!
# `ExactMatchSlicer`, the option `--find` (src/segment/exact.rs)
-/
namespace Nd

/-- `memchr::memmem::find_iter`: the occurrences of a non-empty pattern from left to right, each search starting behind the
previous occurrence.  `skip` bytes still belong to the previous one; the head of the list has index `i`. -/
def findIter (p : Bytes) : Nat → Nat → Bytes → List Nat
  | _, _, [] => []
  | skip + 1, i, _ :: l => findIter p skip (i + 1) l
  | 0, i, b :: l => if p.isPrefixOf (b :: l) then i :: findIter p (p.length - 1) (i + 1) l else findIter p 0 (i + 1) l

/-- `struct ExactMatchSlicer` (`src/segment/exact.rs` 10-15). -/
structure ExactMatchSlicer (σ : Type u) where
  src : σ
  segments : List Seg
  scanned : Nat
  pattern : Bytes

namespace ExactMatchSlicer

/-- The part of `ExactMatchSlicer::new` that reads the array (`src/segment/exact.rs` 21-30).  `resize(256)` also cuts longer
texts. -/
def parsePattern (I : Impl) (text : Bytes) : Except Err Bytes :=
  match I.body false ((text ++ List.replicate 256 10).take 256) with
  | none => .error .invalid
  | some ((_, parsed), d) => if 4 * 48 ≤ parsed then .error .invalid else .ok d

/-- `ExactMatchSlicer::new` (`src/segment/exact.rs` 20-38). -/
def new (I : Impl) (src : σ) (text : Bytes) : Except Err (ExactMatchSlicer σ) :=
  match parsePattern I text with
  | .error e => .error e
  | .ok p => .ok { src := src, segments := [], scanned := 0, pattern := p }

/-- `bytes - self.pattern.len() + 1`, which wraps in release builds (`src/segment/exact.rs` 61). -/
def holdBack (bytes len : Nat) : Nat := if len ≤ bytes + 1 then bytes + 1 - len else 2 ^ 64 + bytes + 1 - len

/-- `ExactMatchSlicer::fill_segment_buf` (`src/segment/exact.rs` 42-63); `B` is `BLOCK_SIZE`. -/
def fill (S : ByteSrc σ) (B : Nat) (st : ExactMatchSlicer σ) : Except Err ((Bool × Nat × Nat × Nat) × ExactMatchSlicer σ) :=
  match S.fill st.src B with
  | .error e => .error e
  | .ok ((isEof, bytes), src) =>
    if st.pattern.isEmpty then .ok ((isEof, bytes, 0, bytes), { st with src := src, scanned := bytes })
    else
      let stream := S.slice src
      if bytes < st.scanned ∨ stream.length < bytes then .error .panic
      else
        let found := (findIter st.pattern 0 0 ((stream.take bytes).drop st.scanned)).map fun pos =>
          ({ pos := st.scanned + pos, len := st.pattern.length } : Seg)
        let scanned := if isEof then bytes else holdBack bytes st.pattern.length
        .ok ((isEof, bytes, (st.segments ++ found).length, scanned), { st with src := src, segments := st.segments ++ found, scanned := scanned })

/-- `impl SegmentStream for ExactMatchSlicer` (`src/segment/exact.rs` 41-87). -/
def segSrc (S : ByteSrc σ) (B : Nat) : SegSrc (ExactMatchSlicer σ) where
  fill := fill S B
  slices st := (S.slice st.src, st.segments)
  consume st k :=
    let bytes := min k st.scanned
    match S.consume st.src bytes with
    | .error e => .error e
    | .ok src =>
      match cutSegs bytes st.segments with
      | .error e => .error e
      | .ok (from_, segments) => .ok ((bytes, from_), { st with src := src, segments := segments, scanned := st.scanned - bytes })

end ExactMatchSlicer

end Nd
