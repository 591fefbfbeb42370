import Verif.Spec.Byte
import Verif.Spec.Segment
/-!
# What `--lines S..E,...` means
-/
namespace Nd.Spec

/-- The slices whose index, counted from zero, lies in at least one of the ranges. -/
def pick (ranges : List (RangeEnd × RangeEnd)) (segs : List Seg) : List Seg :=
  keep (fun i => ranges.any fun r => decide (r.1.at segs.length ≤ i ∧ (i : Int) < r.2.at segs.length)) 0 segs

end Nd.Spec
