import Verif.Spec.Segment
/-!
# What `--walk EXPR,...` means
-/
namespace Nd.Spec

/-- An unsigned little-endian number. -/
def leNat : Bytes → Nat
  | [] => 0
  | b :: bs => b.toNat + 256 * leNat bs

/-- Element `i` of the stream seen as an array of signed little-endian numbers of `size` bytes; zero if it does not lie in the stream. -/
def element (size i : Nat) (stream : Bytes) : Int :=
  if stream.length < i * size + size then 0
  else
    let u := leNat ((stream.drop (i * size)).take size)
    if 2 * u < 256 ^ size then u else (u : Int) - 256 ^ size

/-- Adjacent slices of the given lengths. -/
def adjacent : Nat → List Nat → List Seg
  | _, [] => []
  | p, l :: ls => { pos := p, len := l } :: adjacent (p + l) ls

/-- The stream is cut into slices from position `p`, where `stream` remains: `len stream ls` means that the expressions, evaluated there, give the
lengths `ls`; the next slices have these lengths.  The stream ends where a group of slices ends. -/
inductive Walks (len : Bytes → List Nat → Prop) : Nat → Bytes → List Seg → Prop where
  | nil (p : Nat) : Walks len p [] []
  | cut (p : Nat) (stream : Bytes) (ls : List Nat) (segs : List Seg) : stream ≠ [] → len stream ls → ls.sum ≤ stream.length →
      Walks len (p + ls.sum) (stream.drop ls.sum) segs → Walks len p stream (adjacent p ls ++ segs)

end Nd.Spec
