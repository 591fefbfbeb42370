import Verif.Spec.Byte
import Verif.Spec.Segment
/-!
# What `--slice S..E,...` means
-/
namespace Nd.Spec

/-- Strictly sorted by start, then by end. -/
def StrictlySorted (segs : List Seg) : Prop := segs.Pairwise fun a b => a.pos < b.pos ∨ (a.pos = b.pos ∧ a.tail < b.tail)

/-- `segs` are the distinct non-empty ranges, evaluated on and clipped to a stream of `len` bytes, sorted by start
and end. -/
def IsSlices (ranges : List (RangeEnd × RangeEnd)) (len : Nat) (segs : List Seg) : Prop :=
  StrictlySorted segs ∧
  ∀ x, x ∈ segs ↔ 0 < x.len ∧ ∃ r ∈ ranges, (x.pos : Int) = max 0 (r.1.at len) ∧ (x.tail : Int) = min (len : Int) (r.2.at len)

end Nd.Spec
