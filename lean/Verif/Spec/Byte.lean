import Verif.Model.Basic
/-!
# What the byte-stream combinators mean (README "Input stage"), on whole byte lists
-/
namespace Nd.Spec

/-- The length of the shortest list. -/
def minLen : List Bytes → Nat
  | [] => 0
  | [c] => c.length
  | c :: d :: cs => min c.length (minLen (d :: cs))

/-- `nd --zip N`: words of `w` bytes taken in turn from every input, until the shortest input has no
whole word left. -/
def zip (w : Nat) (cs : List Bytes) : Bytes :=
  (List.range (minLen cs / w)).flatMap fun i => cs.flatMap fun c => (c.drop (i * w)).take w

/-- `nd --cat`: the inputs one after another. -/
def cat (cs : List Bytes) : Bytes := cs.flatten

/-- Pad the tail of `c` with `filler` so that its length becomes a multiple of `n`. -/
def alignTo (n : Nat) (filler : Byte) (c : Bytes) : Bytes :=
  c ++ List.replicate ((n - c.length % n) % n) filler

/-- `nd --pad H,T`. -/
def pad (h t : Nat) (filler : Byte) (c : Bytes) : Bytes :=
  List.replicate h filler ++ c ++ List.replicate t filler

/-- The elements of `l` whose index satisfies `P`; the first element has index `i`. -/
def keep {α : Type u} (P : Nat → Bool) : Nat → List α → List α
  | _, [] => []
  | i, b :: l => if P i then b :: keep P (i + 1) l else keep P (i + 1) l

/-- One end of a range: `s + off` or `e + off` (README "Range expressions"). -/
structure RangeEnd where
  fromEnd : Bool
  off : Int

/-- The absolute position of a range end in a stream of `len` bytes. -/
def RangeEnd.at (r : RangeEnd) (len : Nat) : Int := (if r.fromEnd then (len : Int) else 0) + r.off

/-- `nd --cut S..E,S..E,...`: the bytes whose offset lies in at least one of the ranges. -/
def cut (ranges : List (RangeEnd × RangeEnd)) (c : Bytes) : Bytes :=
  keep (fun i => ranges.any fun r => decide (r.1.at c.length ≤ i ∧ (i : Int) < r.2.at c.length)) 0 c

end Nd.Spec
