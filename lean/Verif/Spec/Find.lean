import Verif.Spec.Segment
/-!
# What `--find ARRAY` means
-/
namespace Nd.Spec

/-- The places of `c` where the non-empty array `p` is found. -/
def occurrences (p c : Bytes) : List Seg :=
  (List.range c.length).filterMap fun i => if p ≠ [] ∧ (c.drop i).take p.length = p then some { pos := i, len := p.length } else none

/-- No end of the array is also its beginning, that is, two occurrences never overlap. -/
def Unbordered (p : Bytes) : Prop := ∀ k, 0 < k → k < p.length → p.drop k ≠ p.take (p.length - k)

end Nd.Spec
