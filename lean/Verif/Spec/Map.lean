import Verif.Spec.Byte
import Verif.Spec.Merge
/-!
# What `--invert S..E` and `--extend S..E` mean
-/
namespace Nd.Spec

/-- The position a range end denotes relative to the interval `g`. -/
def RangeEnd.on (r : RangeEnd) (g : Int × Int) : Int := (if r.fromEnd then g.2 else g.1) + r.off

/-- A non-empty interval, clipped to a stream of `len` bytes. -/
def clipped (len : Nat) (start stop : Int) : Option Seg :=
  if max 0 start < min (len : Int) stop then some { pos := (max 0 start).toNat, len := (min (len : Int) stop - max 0 start).toNat } else none

/-- The images of the interval `g` under the ranges. -/
def images (ranges : List (RangeEnd × RangeEnd)) (len : Nat) (g : Int × Int) : List Seg :=
  ranges.filterMap fun r => clipped len (r.1.on g) (r.2.on g)

/-- The gaps in front of the slices, with everything before `prev` taken as covered. -/
def gapsBefore (prev : Int) : List Seg → List (Int × Int)
  | [] => []
  | x :: xs => (if prev < (x.pos : Int) then [(prev, (x.pos : Int))] else []) ++ gapsBefore (max prev (x.tail : Int)) xs

/-- Where the last of the slices ends. -/
def lastEnd (prev : Int) : List Seg → Int
  | [] => prev
  | x :: xs => lastEnd (max prev (x.tail : Int)) xs

/-- The gaps between the slices, at the start and at the end of a stream of `len` bytes. -/
def gaps (prev : Int) (segs : List Seg) (len : Nat) : List (Int × Int) :=
  gapsBefore prev segs ++ if lastEnd prev segs < (len : Int) then [(lastEnd prev segs, (len : Int))] else []

/-- `--invert S..E,...`: the images of the gaps. -/
def invert (ranges : List (RangeEnd × RangeEnd)) (segs : List Seg) (len : Nat) : List Seg := (gaps 0 segs len).flatMap (images ranges len)

/-- `--extend S..E,...`: the images of the slices. -/
def extend (ranges : List (RangeEnd × RangeEnd)) (segs : List Seg) (len : Nat) : List Seg :=
  segs.flatMap fun x => images ranges len ((x.pos : Int), (x.tail : Int))

end Nd.Spec
