import Verif.Spec.Segment
/-!
# What `--regex` means
-/
namespace Nd.Spec

/-- The matches of a searcher in every slice, at their places in the stream. -/
def searched (find : Bytes → List Seg) (content : Bytes) (segs : List Seg) : List Seg :=
  segs.flatMap fun s => (find (s.bytes content)).map fun m => { pos := s.pos + m.pos, len := m.len }

/-- What is assumed of the searcher: it finds parts of the string, from left to right. -/
structure Searcher (find : Bytes → List Seg) : Prop where
  within : ∀ l, ∀ m ∈ find l, m.tail ≤ l.length
  ascending : ∀ l, (find l).Pairwise fun x y => x.pos ≤ y.pos

end Nd.Spec
