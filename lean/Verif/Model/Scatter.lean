import Verif.Model.Format
import Verif.Model.Stride
import Verif.Model.StreamBuf
/-!
# Printing slices: `ScatterDrain` (src/drain/scatter.rs)
-/
namespace Nd

/-- How `ScatterDrain` formats: the style and minimum width of its `TextFormatter`, which it creates with base
offset 0 (`src/drain/scatter.rs` 96, `src/text/formatter/mod.rs` 146-164). -/
structure Formatting where
  style : Format.Style
  minWidth : Nat
  deriving DecidableEq, Repr

/-- `struct ScatterDrain` (`src/drain/scatter.rs` 75-92) without the formatter, the scatter context and the output
buffer. -/
structure ScatterDrain (σ : Type u) where
  src : σ
  srcConsumed : Nat
  offset : Nat
  lines : Nat

namespace ScatterDrain

/-- `ScatterDrain::new` (`src/drain/scatter.rs` 95-115). -/
def new (src : σ) : ScatterDrain σ := { src := src, srcConsumed := 0, offset := 0, lines := 0 }

/-- `&segments[self.src_consumed..count]` (`src/drain/scatter.rs` 127, 152). -/
def fresh (d : ScatterDrain σ) (segs : List Seg) (count : Nat) : Except Err (List Seg) :=
  if d.srcConsumed ≤ count ∧ count ≤ segs.length then .ok ((segs.take count).drop d.srcConsumed) else .error .panic

/-- The bookkeeping after the lent slices have been printed (`src/drain/scatter.rs` 128-138, 161-167). -/
def advance (S : SegSrc σ) (d : ScatterDrain σ) (count maxc : Nat) : Except Err (ScatterDrain σ) :=
  match S.consume d.src maxc with
  | .error e => .error e
  | .ok ((bytes, c), src) =>
    match ckSub (d.srcConsumed + count) c with
    | .error e => .error e
    | .ok n => .ok { src := src, srcConsumed := n, offset := d.offset + bytes, lines := d.lines + c }

/-- The closure of `ScatterDrain::fill_buf_impl_through` (`src/drain/scatter.rs` 117-142).  The `debug_assert!`s,
absent from release builds, are not modelled. -/
def feed (S : SegSrc σ) (f : Formatting) : StreamBuf.Closure (ScatterDrain σ) := fun d _ buf =>
  match S.fill d.src with
  | .error e => .error e
  | .ok ((isEof, _, count, maxc), src) =>
    let d := { d with src := src }
    match d.fresh (S.slices d.src).2 count with
    | .error e => .error e
    | .ok segs =>
      match Format.segments f.style d.offset f.minWidth (S.slices d.src).1 segs with
      | .error e => .error e
      | .ok text =>
        match d.advance S count maxc with
        | .error e => .error e
        | .ok d => .ok (isEof, buf ++ text, d)

/-- `ScatterDrain` printing to the standard output: `impl ByteStream for ScatterDrain`
(`src/drain/scatter.rs` 171-189) with `file = None`. -/
def byteSrc (S : SegSrc σ) (f : Formatting) (B fuel : Nat) : ByteSrc (Buffered (ScatterDrain σ)) := bufferedSrc B fuel (feed S f)

/-- What `ScatterDrain::new` returns with `file = None`. -/
def through (B : Nat) (src : σ) : Buffered (ScatterDrain σ) := { inner := new src, buf := StreamBuf.new B }

end ScatterDrain

/-- The files, by name.  Simplification: different names are different files, and the operations on them
succeed. -/
abbrev FileSys (ν : Type u) := ν → Option Bytes

/-- `enum Drain` with its open file (`src/drain/scatter.rs` 15-18): the plain file with the current position, or
the template as a function from the byte offset and the line number to a file name. -/
inductive Drain (ν : Type u) where
  | file (name : ν) (pos : Nat)
  | template (render : Nat → Nat → Except Err ν)

/-- `struct ScatterContext` (`src/drain/scatter.rs` 39-42) and the file system. -/
structure ScatterContext (ν : Type u) where
  drain : Drain ν
  files : List ν
  fs : FileSys ν

namespace ScatterContext

variable {ν : Type u} [DecidableEq ν]

/-- `write_all` at position `pos` of an open file. -/
def writeAt (old : Bytes) (pos : Nat) (buf : Bytes) : Bytes := old.take pos ++ buf ++ old.drop (pos + buf.length)

/-- Setting the contents of a file. -/
def set (fs : FileSys ν) (name : ν) (b : Bytes) : FileSys ν := fun x => if x = name then some b else fs x

/-- `Drain::new` for a name without variables (`src/drain/scatter.rs` 33-35): the file is created if it does not
exist and is not truncated. -/
def openFile (fs : FileSys ν) (name : ν) : ScatterContext ν :=
  { drain := .file name 0, files := [], fs := set fs name ((fs name).getD []) }

/-- `Drain::new` for a name with variables (`src/drain/scatter.rs` 29-31). -/
def openTemplate (fs : FileSys ν) (render : Nat → Nat → Except Err ν) : ScatterContext ν :=
  { drain := .template render, files := [], fs := fs }

/-- `ScatterContext::dump_segment` (`src/drain/scatter.rs` 52-71). -/
def dump (c : ScatterContext ν) (buf : Bytes) (offset line : Nat) : Except Err (ScatterContext ν) :=
  match c.drain with
  | .file name pos =>
    .ok { c with drain := .file name (pos + buf.length), fs := set c.fs name (writeAt ((c.fs name).getD []) pos buf) }
  | .template render =>
    match render offset line with
    | .error e => .error e
    | .ok name =>
      if name ∈ c.files then .ok { c with fs := set c.fs name ((c.fs name).getD [] ++ buf) }
      else .ok { c with files := name :: c.files, fs := set c.fs name buf }

end ScatterContext

namespace ScatterDrain

variable {ν : Type u} [DecidableEq ν]

/-- The loop over the lent segments (`src/drain/scatter.rs` 152-160); `i` counts them. -/
def dumpAll (f : Formatting) (offset lines : Nat) (stream : Bytes) : Nat → List Seg → ScatterContext ν → Except Err (ScatterContext ν)
  | _, [], c => .ok c
  | i, s :: rest, c =>
    match Format.segments f.style offset f.minWidth stream [s] with
    | .error e => .error e
    | .ok buf =>
      match c.dump buf (offset + s.pos) (lines + i) with
      | .error e => .error e
      | .ok c => dumpAll f offset lines stream (i + 1) rest c

/-- `ScatterDrain::fill_buf_impl_scatter` (`src/drain/scatter.rs` 144-169); it returns at the end of the stream
(`(true, 0)` in the code). -/
def scatter (S : SegSrc σ) (f : Formatting) : Nat → ScatterDrain σ → ScatterContext ν → Except Err (ScatterContext ν)
  | 0, _, _ => .error .diverge
  | fuel + 1, d, c =>
    match S.fill d.src with
    | .error e => .error e
    | .ok ((isEof, bytes, count, maxc), src) =>
      if isEof ∧ bytes = 0 then .ok c
      else
        let d := { d with src := src }
        match d.fresh (S.slices d.src).2 count with
        | .error e => .error e
        | .ok segs =>
          match dumpAll f d.offset d.lines (S.slices d.src).1 0 segs c with
          | .error e => .error e
          | .ok c =>
            match d.advance S count maxc with
            | .error e => .error e
            | .ok d => scatter S f fuel d c

end ScatterDrain
end Nd
