import Mathlib.Data.List.Forall2
import Verif.Spec.Anchored
import Verif.Spec.Byte
import Verif.Spec.Filter
import Verif.Spec.Find
import Verif.Spec.Guide
import Verif.Spec.Map
import Verif.Spec.Merge
import Verif.Spec.Range
import Verif.Spec.Record
import Verif.Spec.Regex
import Verif.Spec.Segment
import Verif.Spec.Text
import Verif.Spec.WalkText
/-!
# What a call of the program asks for

The texts of the options (README "Options and pipeline structure"), what they denote, and what the program has to print.
-/
namespace Nd.Spec

/-! ## Texts -/

/-- A text that denotes a natural number: a literal, or an expression with constant value. -/
def Numeral (text : List Char) (n : Nat) : Prop :=
  ∃ e : Expr, e.InC ∧ e.Plain ∧ e.Calm ∧ e.Narrow Env.none ∧ e.value Env.none = some (n : Int) ∧ Spaced e.lexemes text

/-- `N` or `N,M` -/
inductive PairText : List Char → Nat × Nat → Prop
  | one {t : List Char} {n : Nat} : Numeral t n → PairText t (n, 0)
  | two {t u : List Char} {n m : Nat} : Numeral t n → Numeral u m → PairText (t ++ ',' :: u) (n, m)

/-- `S..E` -/
inductive RangeText : List Char → RangeEnd × RangeEnd → Prop
  | mk {l r : List Char} {x y : End} {j k : Int} : Side .first l x j → Side .last r y k →
      RangeText (l ++ '.' :: '.' :: r) (⟨x == .last, j⟩, ⟨y == .last, k⟩)

/-- `S..E,S..E,...`, possibly with a comma at the end -/
def RangesText (text : List Char) (rs : List (RangeEnd × RangeEnd)) : Prop :=
  ∃ texts, texts ≠ [] ∧ List.Forall₂ RangeText texts rs ∧ (text = [','].intercalate texts ∨ text = [','].intercalate texts ++ [','])

/-- `N` or `N,S..E` -/
inductive WidthText : List Char → Nat → RangeEnd × RangeEnd → Prop
  | plain {t : List Char} {n : Nat} : Numeral t n → WidthText t n (⟨false, 0⟩, ⟨true, 0⟩)
  | range {t u : List Char} {n : Nat} {r : RangeEnd × RangeEnd} : Numeral t n → RangeText u r → WidthText (t ++ ',' :: u) n r

/-! ## Jobs -/

/-- How an input file is read (`--in-format`). -/
inductive Coding where
  /-- `b` -/
  | binary
  /-- `x` or `d`: records at their offsets -/
  | located (f : Field)
  /-- `nnx`: the arrays of the records one after the other -/
  | gapless

/-- The records of a text, all of whose lines are as documented. -/
def Records (f : Field) (text : Bytes) (recs : List Rec) : Prop :=
  Reading (Line StrictColumns f f) (lines text) recs false ∧ ∀ r ∈ recs, r.offset + r.span < 2 ^ 64 - 1

/-- What a file contains. -/
def Coding.Decodes (filler : Byte) : Coding → Bytes → Bytes → Prop
  | .binary, file, content => content = file
  | .located f, file, content => ∃ recs, Records f file recs ∧ Ordered 0 recs ∧ content = place filler 0 recs
  | .gapless, file, content => ∃ recs, Records .hex file recs ∧ content = (recs.map Rec.data).flatten

/-- `--cat N`, `--zip N` or `--inplace` -/
inductive Joint where
  | cat (align : Nat)
  | zip (word : Nat)
  | alone

def Joint.word : Joint → Nat
  | .cat n | .zip n => n
  | .alone => 1

/-- The inputs one after the other, or interleaved, each padded to whole words; or the only input as it is. -/
def Joint.join (filler : Byte) : Joint → List Bytes → Bytes
  | .cat n, cs => Spec.cat (cs.map (alignTo n filler))
  | .zip n, cs => Spec.zip n (cs.map (alignTo n filler))
  | .alone, cs => cs.getLastD []

/-- The slicers. -/
inductive Slicer where
  /-- `--width N,S..E` -/
  | width (pitch : Nat) (range : RangeEnd × RangeEnd)
  /-- `--slice S..E,...` -/
  | slice (ranges : List (RangeEnd × RangeEnd))
  /-- `--find ARRAY` -/
  | find (pattern : Bytes)
  /-- `--walk EXPR,...` -/
  | walk (exprs : List Expr)
  /-- `--guide FILE`, with the records of the file -/
  | guide (recs : List Rec)

/-- `segs` are the slices of the stream `content`. -/
def Slicer.Cuts (content : Bytes) : Slicer → List Seg → Prop
  | .width pitch r, segs => segs = strides content.length pitch (r.1.at pitch) (r.2.at pitch)
  | .slice rs, segs => IsSlices rs content.length segs
  | .find p, segs => segs = occurrences p content
  | .walk es, segs => Walks (Lengths es) 0 content segs
  | .guide recs, segs => segs = guided recs

/-- The length of the slices, 0 if unknown. -/
def Slicer.columns : Slicer → Nat
  | .width n r => (r.2.at n - r.1.at n).toNat
  | _ => 0

/-- What the slices are printed as (`--out-format`). -/
inductive Printing where
  /-- `b` -/
  | binary
  /-- `x` or `d` -/
  | text (f : Field)

/-- What a call asks for. -/
structure Job where
  coding : Coding := .binary
  filler : Byte := 0
  joint : Joint := .cat 1
  cut : Option (List (RangeEnd × RangeEnd)) := none
  pad : Nat × Nat := (0, 0)
  patch : Option (List Rec) := none
  slicer : Slicer := .width 16 (⟨false, 0⟩, ⟨true, 0⟩)
  /-- `--regex`, with the searcher of the pattern -/
  regex : Option (Bytes → List Seg) := none
  invert : Option (List (RangeEnd × RangeEnd)) := none
  extend : Option (List (RangeEnd × RangeEnd)) := none
  merge : Option Nat := none
  lines : Option (List (RangeEnd × RangeEnd)) := none
  printing : Printing := .text .hex

namespace Job

/-- The joined inputs cut, padded and patched. -/
def filtered (j : Job) (c : Bytes) : Bytes :=
  let c := match j.cut with | none => c | some rs => Spec.cut rs c
  let c := Spec.pad j.pad.1 j.pad.2 j.filler c
  match j.patch with | none => c | some recs => splice 0 c recs

/-- The stream that is sliced. -/
def stream (j : Job) (inputs : List Bytes) : Bytes := j.filtered (j.joint.join j.filler inputs)

/-- The matches in the slices. -/
def searched (j : Job) (content : Bytes) (segs : List Seg) : List Seg := match j.regex with | none => segs | some find => Spec.searched find content segs

/-- The gaps between the slices. -/
def inverted (j : Job) (len : Nat) (segs : List Seg) : List Seg := match j.invert with | none => segs | some rs => Spec.invert rs segs len

/-- The extended slices, sorted by their starts and ends. -/
def Extended (j : Job) (len : Nat) (segs out : List Seg) : Prop :=
  match j.extend with
  | none => out = segs
  | some rs => out.Perm (Spec.extend rs segs len) ∧ out.Pairwise fun a b => a.pos < b.pos ∨ (a.pos = b.pos ∧ a.tail ≤ b.tail)

/-- Slices that are close to each other are merged. -/
def merged (j : Job) (segs : List Seg) : List Seg := match j.merge with | none => segs | some n => Spec.merge n segs

/-- The chosen lines. -/
def picked (j : Job) (segs : List Seg) : List Seg := match j.lines with | none => segs | some rs => pick rs segs

/-- The slices of the stream: sliced, searched, inverted, extended, merged, and the chosen lines of them. -/
def Slices (j : Job) (content : Bytes) (segs : List Seg) : Prop :=
  ∃ raw ext, j.slicer.Cuts content raw ∧ j.Extended content.length (j.inverted content.length (j.searched content raw)) ext ∧ segs = j.picked (j.merged ext)

/-- No two of the ranges that are counted from the start begin at the same place. -/
def DistinctStarts (rs : List (RangeEnd × RangeEnd)) : Prop :=
  (rs.filter fun r => !r.1.fromEnd && !r.2.fromEnd).Pairwise fun a b => max 0 a.1.off ≠ max 0 b.1.off

/-- The jobs whose ranges of `--invert` and `--extend` the program is right about, where `L` is about an eighth of the block size: none; or one range after `--find`, for
`--invert` one from inside the gap to inside the gap, `s+x..e-y`, and for `--extend` one that begins not long before the slice and ends neither behind it nor before its own start. -/
def Near (L : Nat) (j : Job) : Prop :=
  (j.invert = none ∧ j.extend = none) ∨
  (∃ p r, j.slicer = .find p ∧ j.invert = some [r] ∧ j.extend = none ∧ r.1.fromEnd = false ∧ 0 ≤ r.1.off ∧ r.2.fromEnd = true ∧ r.2.off ≤ 0) ∨
  (∃ p r, j.slicer = .find p ∧ j.invert = none ∧ j.extend = some [r] ∧ r.1.fromEnd = false ∧ r.1.off ≤ 0 ∧ p.length - r.1.off < L ∧ r.1.off ≤ r.2.on (0, 1) ∧ r.2.at p.length ≤ p.length)

/-- The jobs that the program is right about, where `L` is about an eighth of the block size: slices without gaps that are small compared to the blocks,
ranges with different starts, or an array that does not overlap itself, then possibly inverted or extended.  `--lines` directly after `--width N`, or after `--find` if the slices stay apart. -/
def Fits (L : Nat) (j : Job) : Prop :=
  (j.regex = none ∧ j.Near L) ∧
  match j.slicer with
  | .width n r => 0 < n ∧ 1 ≤ r.2.at n ∧ -(15 * n) < r.1.at n ∧ n ≤ r.2.at n - r.1.at n ∧ 2 * r.2.at n - r.1.at n + 2 * n < L ∧
      (j.lines.isSome → j.merge = none ∧ r.1.at n = 0 ∧ r.2.at n = n)
  | .slice rs => DistinctStarts rs ∧ j.lines = none
  | .find p => Unbordered p ∧ 64 ≤ L ∧ (j.lines.isSome → j.merge = none ∧ ∀ rs, j.extend = some rs → ∀ r ∈ rs, r.1.off = 0)
  | .walk _ | .guide _ => False

/-- The slices of a guide that is in order, none of them empty or long compared to the blocks, all within the stream, and none of them changed by later stages. -/
def Follows (L : Nat) (j : Job) (content : Bytes) : Prop :=
  0 < L ∧ ∃ recs, j.slicer = .guide recs ∧ (j.regex = none ∧ j.invert = none ∧ j.extend = none ∧ j.merge = none ∧ j.lines = none) ∧
    (recs.Pairwise fun a b => a.offset < b.offset) ∧ ∀ r ∈ recs, 0 < r.span ∧ r.span ≤ L ∧ r.offset + r.span ≤ content.length

/-- `--walk` on a single file of bytes that nothing changes in front of it, with expressions that look at the first `H` bytes of a group, where every read of the file, the sizes of which are `reads`,
returns at least `H` bytes as far as there are any, and at most a block of `B` bytes.  No later stages. -/
def Strolls (B : Nat) (reads : List (Nat → Option Nat)) (j : Job) : Prop :=
  ∃ es H sched, j.slicer = .walk es ∧ (j.regex = none ∧ j.invert = none ∧ j.extend = none ∧ j.merge = none ∧ j.lines = none) ∧
    (j.coding = .binary ∧ (j.joint = .cat 1 ∨ j.joint = .alone) ∧ j.cut = none ∧ j.pad = (0, 0) ∧ j.patch = none) ∧
    (es ≠ [] ∧ ∀ e ∈ es, e.InC ∧ e.Plain ∧ e.Lone ∧ e.Reaches H) ∧ reads = [sched] ∧ ∀ i k, sched i = some k → H ≤ min (max 1 k) B

/-- Slices without gaps, of any size, that no later stage changes: with blocks of `B` bytes, none is clipped at the start of the stream and the first one ends in the first block, or begins in the
first two units, or is not longer than two units; or some are clipped and the slices are smaller than about half a block. -/
def Strides (B : Nat) (j : Job) : Prop :=
  ∃ n r, j.slicer = .width n r ∧ (j.regex = none ∧ j.invert = none ∧ j.extend = none ∧ j.merge = none ∧ j.lines = none) ∧
    0 < n ∧ 1 ≤ r.2.at n ∧ -(15 * n) < r.1.at n ∧ n ≤ r.2.at n - r.1.at n ∧
    ((0 ≤ r.1.at n ∧ (r.2.at n ≤ B + n ∨ r.1.at n ≤ 2 * n + 1 ∨ r.2.at n - r.1.at n ≤ 2 * n + 2)) ∨ 2 * r.2.at n - r.1.at n + n ≤ B)

/-- The jobs that the program is right about on streams of any length, with blocks of `B` bytes and reads of the sizes `reads`. -/
def Suits (B : Nat) (reads : List (Nat → Option Nat)) (j : Job) (content : Bytes) : Prop :=
  j.Fits ((B - 1784) / 8) ∨ j.Follows ((B - 1784) / 8) content ∨ j.Strolls B reads ∨ j.Strides B

/-- The jobs that the program is right about if the stream is shorter than a block: the slices are in order wherever the next stage needs it, and
`--invert` and `--extend` do not follow `--slice`. -/
structure Orderly (j : Job) (content : Bytes) : Prop where
  slicer : match j.slicer with
    | .width n r => 0 < n ∧ r.1.at n < r.2.at n ∧ 1 ≤ r.2.at n ∧ (j.lines.isSome → -(15 * n) < r.1.at n)
    | .slice _ => j.invert = none ∧ j.extend = none
    | .find p => p ≠ [] ∧ Unbordered p
    | .walk es => es ≠ [] ∧ ∀ e ∈ es, e.InC ∧ e.Plain ∧ e.Lone ∧ ∃ H, e.Reaches H
    | .guide recs => Sorted (guided recs) ∧ ∀ r ∈ recs, r.offset + r.span ≤ content.length
  regex : ∀ find, j.regex = some find → Searcher find ∧ ∀ raw, j.slicer.Cuts content raw → Sorted (j.searched content raw)
  invert : j.invert.isSome → j.lines.isSome → ∀ raw, j.slicer.Cuts content raw → Sorted (j.inverted content.length (j.searched content raw))
  merge : j.merge.isSome → ∀ raw ext, j.slicer.Cuts content raw → j.Extended content.length (j.inverted content.length (j.searched content raw)) ext → Sorted ext
  lines : j.lines.isSome → ∀ raw ext, j.slicer.Cuts content raw → j.Extended content.length (j.inverted content.length (j.searched content raw)) ext →
    StrictlySorted (j.merged ext)

/-- The jobs on a stream shorter than a block whose slices `segs` also reach the files of `--output`: no chosen lines, `--regex` does not follow empty slices,
and an empty stream has no slices. -/
def Pours (j : Job) (content : Bytes) (segs : List Seg) : Prop :=
  j.lines = none ∧ (j.regex.isSome → ∀ raw, j.slicer.Cuts content raw → ∀ x ∈ raw, 0 < x.len) ∧ (content = [] → segs = [])

end Job

/-- The text that is printed for the slices `segs` of `content`: their bytes, or one documented line for each of them. -/
def Printing.Prints (content : Bytes) (segs : List Seg) : Printing → Bytes → Prop
  | .binary, out => out = (segs.map fun x => x.bytes content).flatten
  | .text f, out => Records f out (segs.map fun x => { offset := x.pos, span := x.len, data := x.bytes content })

/-! ## Options -/

/-- `--in-format`; bytes by default. -/
inductive InFormatText : Option String → Coding → Prop
  | none : InFormatText none .binary
  | b : InFormatText (some "b") .binary
  | nnb : InFormatText (some "nnb") .binary
  | x : InFormatText (some "x") (.located .hex)
  | xxx : InFormatText (some "xxx") (.located .hex)
  | d : InFormatText (some "d") (.located .dec)
  | ddx : InFormatText (some "ddx") (.located .dec)
  | nnx : InFormatText (some "nnx") .gapless

/-- `--out-format`; hexadecimal by default, bytes with `--inplace`. -/
inductive OutFormatText : Bool → Option String → Printing → Prop
  | none : OutFormatText false none (.text .hex)
  | inplace : OutFormatText true none .binary
  | b {inplace : Bool} : OutFormatText inplace (some "b") .binary
  | nnb {inplace : Bool} : OutFormatText inplace (some "nnb") .binary
  | x {inplace : Bool} : OutFormatText inplace (some "x") (.text .hex)
  | xxx {inplace : Bool} : OutFormatText inplace (some "xxx") (.text .hex)
  | d {inplace : Bool} : OutFormatText inplace (some "d") (.text .dec)
  | ddx {inplace : Bool} : OutFormatText inplace (some "ddx") (.text .dec)

/-- `--filler`; zero by default. -/
inductive FillerText : Option String → Byte → Prop
  | none : FillerText none 0
  | some {t : String} {n : Nat} : Numeral t.toList n → n < 256 → FillerText (some t) (UInt8.ofNat n)

/-- `--inplace`, `--cat` and `--zip` -/
inductive JointText : Bool → Option String → Option String → Joint → Prop
  | none : JointText false none none (.cat 1)
  | cat {t : String} {n : Nat} : Numeral t.toList n → 0 < n → JointText false (some t) none (.cat n)
  | zip {t : String} {n : Nat} : Numeral t.toList n → 0 < n → JointText false none (some t) (.zip n)
  | alone : JointText true none none .alone

/-- An option with a text that `R` explains. -/
inductive OptText (R : List Char → α → Prop) : Option String → Option α → Prop
  | none : OptText R none none
  | some {t : String} {x : α} : R t.toList x → OptText R (some t) (some x)

/-- `--pad`; nothing by default. -/
inductive PadText : Option String → Nat × Nat → Prop
  | none : PadText none (0, 0)
  | some {t : String} {p : Nat × Nat} : PairText t.toList p → PadText (some t) p

/-- The array of `--find`: less than 64 columns. -/
def ArrayText (text : String) (p : Bytes) : Prop :=
  StrictColumns text.toUTF8.toList p ∧ text.toUTF8.toList.length < 192 ∧ 10 ∉ text.toUTF8.toList ∧ 124 ∉ text.toUTF8.toList

/-- `--width`, `--find`, `--slice`, `--walk` and `--guide` (which names a file) -/
inductive SlicerText : Option String → Option String → Option String → Option String → Option String → Slicer → Prop
  | none : SlicerText none none none none none (.width 16 (⟨false, 0⟩, ⟨true, 0⟩))
  | width {t : String} {n : Nat} {r : RangeEnd × RangeEnd} : WidthText t.toList n r → SlicerText (some t) none none none none (.width n r)
  | find {t : String} {p : Bytes} : ArrayText t p → SlicerText none (some t) none none none (.find p)
  | slice {t : String} {rs : List (RangeEnd × RangeEnd)} : RangesText t.toList rs → SlicerText none none (some t) none none (.slice rs)
  | walk {t : String} {es : List Expr} : Listed es t.toList → SlicerText none none none (some t) none (.walk es)
  | guide {t : String} {recs : List Rec} : SlicerText none none none none (some t) (.guide recs)

end Nd.Spec
