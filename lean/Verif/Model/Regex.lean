import Verif.Model.Segment
/-!
# `RegexSlicer`, the option `--regex` (src/segment/regex.rs)
-/
namespace Nd

/-- `struct RegexSlicer` (`src/segment/regex.rs` 9-14).  The compiled regular expression is a parameter of the functions below. -/
structure RegexSlicer (σ : Type u) where
  src : σ
  matches_ : List Seg
  scanned : Nat

namespace RegexSlicer

/-- `RegexSlicer::new` (`src/segment/regex.rs` 17-27) for a pattern that compiles. -/
def new (src : σ) : RegexSlicer σ := { src := src, matches_ := [], scanned := 0 }

/-- The loop over the lent slices (`src/segment/regex.rs` 42-49).  `find` is `Regex::find_iter`: the matches in a string, relative to its
start.  A slice that does not lie within the lent bytes is a panic. -/
def scan (find : Bytes → List Seg) (scanned : Nat) (stream : Bytes) : List Seg → Except Err (List Seg)
  | [] => .ok []
  | s :: rest =>
    if s.pos < scanned then scan find scanned stream rest
    else if stream.length < s.tail then .error .panic
    else
      match scan find scanned stream rest with
      | .error e => .error e
      | .ok ms => .ok ((find (s.bytes stream)).map (fun m => { pos := s.pos + m.pos, len := m.len }) ++ ms)

/-- `RegexSlicer::fill_segment_buf` (`src/segment/regex.rs` 31-54). -/
def fill (find : Bytes → List Seg) (S : SegSrc σ) (st : RegexSlicer σ) : Except Err ((Bool × Nat × Nat × Nat) × RegexSlicer σ) :=
  match S.fill st.src with
  | .error e => .error e
  | .ok ((isEof, bytes, count, maxc), src) =>
    if (S.slices src).2.length < count then .error .panic
    else
      match scan find st.scanned (S.slices src).1 ((S.slices src).2.take count) with
      | .error e => .error e
      | .ok ms => .ok ((isEof, bytes, (st.matches_ ++ ms).length, maxc), { src := src, matches_ := st.matches_ ++ ms, scanned := st.scanned + bytes })

/-- `impl SegmentStream for RegexSlicer` (`src/segment/regex.rs` 30-82). -/
def segSrc (find : Bytes → List Seg) (S : SegSrc σ) : SegSrc (RegexSlicer σ) where
  fill := fill find S
  slices st := ((S.slices st.src).1, st.matches_)
  consume st k :=
    match S.consume st.src k with
    | .error e => .error e
    | .ok ((bytes, _), src) =>
      if bytes = 0 then .ok ((0, 0), { st with src := src })
      else
        match cutSegs bytes st.matches_, ckSub st.scanned bytes with
        | .ok (from_, ms), .ok scanned => .ok ((bytes, from_), { src := src, matches_ := ms, scanned := scanned })
        | _, _ => .error .panic

end RegexSlicer
end Nd
