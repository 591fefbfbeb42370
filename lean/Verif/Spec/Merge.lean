import Verif.Spec.Segment
/-!
# What `--merge N` means
-/
namespace Nd.Spec

/-- Growing the slice `acc` by the following slices until one starts more than `n` bytes after its end. -/
def mergeFrom (n : Nat) (acc : Seg) : List Seg → List Seg
  | [] => [acc]
  | x :: xs =>
    if x.pos ≤ acc.tail + n then mergeFrom n { pos := acc.pos, len := max acc.tail x.tail - acc.pos } xs
    else acc :: mergeFrom n x xs

/-- Slices that overlap or are at most `n` bytes apart become one, from left to right. -/
def merge (n : Nat) : List Seg → List Seg
  | [] => []
  | x :: xs => mergeFrom n x xs

/-- Sorted by start. -/
def Sorted (segs : List Seg) : Prop := segs.Pairwise fun a b => a.pos ≤ b.pos

end Nd.Spec
