import Verif.Model.Scatter
/-!
# Helpers shared by the segment streams
-/
namespace Nd

/-- Subtracting from every position, `for s in &mut self.segments { s.pos -= bytes; }`
(`src/segment/merge.rs` 196-198 and the other segment streams).  An underflow is a panic. -/
def unwindAll (k : Nat) : List Seg → Except Err (List Seg)
  | [] => .ok []
  | s :: rest =>
    if s.pos < k then .error .panic
    else
      match unwindAll k rest with
      | .error e => .error e
      | .ok rest => .ok ({ pos := s.pos - k, len := s.len } :: rest)

/-- `let from = self.segments.partition_point(|x| x.pos < bytes); copy_within; truncate; unwind`
(`src/segment/merge.rs` 190-198 and the other segment streams).  `partition_point` is modelled as the length of the
longest prefix that satisfies the predicate; they agree on lists sorted by position. -/
def cutSegs (k : Nat) (segs : List Seg) : Except Err (Nat × List Seg) :=
  let from_ := (segs.takeWhile fun x => decide (x.pos < k)).length
  match unwindAll k (segs.drop from_) with
  | .error e => .error e
  | .ok rest => .ok (from_, rest)

end Nd
