import Verif.Model.Pipeline
import Verif.Model.InoutFormat
import Verif.Model.Cut
import Verif.Model.Exact
import Verif.Model.Filter
import Verif.Model.Guided
import Verif.Model.Map
import Verif.Model.MapperParse
import Verif.Model.Inplace
import Verif.Model.Merge
import Verif.Model.PatchBack
import Verif.Model.Range
import Verif.Model.Regex
import Verif.Model.Template
import Verif.Model.Walk
/-!
# The whole program: from the strings on the command line to the bytes printed (src/main.rs, src/pipeline.rs)

What is left out: clap (the names of the options, `--help`, `--version`), the pager, and the messages of errors.  `--patch-back` is run in one of the
orders in which its threads can proceed (`Model/PatchBack.lean` has all of them): the slicing thread first, then the command, then the main thread.
-/
namespace Nd

/-- `Box<dyn ByteStream>`.  `cache` is the temporary file of the tee in the stream, if there is one, and `disk` the files that the drain has written, if it has. -/
structure DynByte where
  {σ : Type}
  src : ByteSrc σ
  st : σ
  cache : σ → Option TempFile := fun _ => none
  disk : σ → Option (FileSys (List Char)) := fun _ => none

/-- `Box<dyn SegmentStream>`. -/
structure DynSeg where
  {σ : Type}
  src : SegSrc σ
  st : σ
  cache : σ → Option TempFile := fun _ => none

/-- The operator `?`. -/
def attempt {α : Type u} {β : Type v} (r : Except Err α) (f : α → Except Err β) : Except Err β :=
  match r with
  | .error e => .error e
  | .ok a => f a

/-- What surrounds the program: how it was built (the implementation of the text reader, `BLOCK_SIZE`, overflow checks), the files it can open with
the sizes of the reads they serve (`-` is the standard input), the names that can be created with what they contain, the commands of `--patch-back` (what they
print for what they receive, with the sizes of the reads of it), and the crates `regex` and `num_runtime_fmt`.  `fuel` bounds the loops of the model. -/
structure Host where
  impl : Impl
  block : Nat
  fuel : Nat
  checks : Bool
  files : String → Option (Bytes × (Nat → Option Nat))
  outputs : FileSys (List Char)
  commands : String → Bytes → Bytes × (Nat → Option Nat)
  tempSched : Nat → Option Nat
  regex : String → Except Err (Bytes → List Seg)
  numFmts : NumFmts (List Char)

/-- The options that are parsed by a `value_parser` (`src/pipeline.rs` 34-66) as the strings they are given as, the others, and the inputs
(`struct Args`, `src/main.rs` 77-87). -/
structure Args where
  inputs : List String := []
  inFormat : Option String := none
  outFormat : Option String := none
  filler : Option String := none
  cat : Option String := none
  zip : Option String := none
  inplace : Bool := false
  cut : Option String := none
  pad : Option String := none
  patch : Option String := none
  width : Option String := none
  find : Option String := none
  walk : Option String := none
  slice : Option String := none
  guide : Option String := none
  regex : Option String := none
  extend : Option String := none
  invert : Option String := none
  merge : Option String := none
  lines : Option String := none
  output : Option String := none
  patchBack : Option String := none

namespace Args

/-- `parse_delimited` (`src/eval.rs` 1480-1495). -/
def parseDelimited (s : List Char) : Except Err (List (Option Int64)) :=
  (WalkSlicer.splitComma s).mapM fun x => if x = [] then .ok none else (Eval.parseInt x).map some

/-- `parse_usize_pair` (`src/eval.rs` 1516-1538). -/
def parseUsizePair (s : List Char) : Except Err (Nat × Nat) := do
  let vals ← parseDelimited s
  if s = [] ∨ vals.length > 2 then .error .parse
  else
    let head := (vals.getD 0 none).getD 0
    let tail := (vals.getD 1 (some 0)).getD 0
    if 0 ≤ head ∧ 0 ≤ tail then .ok (head.toInt.toNat, tail.toInt.toNat) else .error .parse

/-- `parse_const_slicer_params` (`src/pipeline.rs` 18-30) with `ConstSlicerParams::from_raw` (`src/segment/stride.rs` 19-64). -/
def parseConstSlicerParams (fuel : Nat) (s : List Char) : Except Err ConstSlicerParams := do
  let v := WalkSlicer.splitComma s
  if v.length > 2 then .error .parse
  else
    let pitch ← Eval.parseUsize (v.getD 0 [])
    ConstSlicerParams.fromRaw fuel pitch (← SegmentMapper.fromStr (v.getD 1 "s..e".toList))

/-- A `value_parser` of clap: runs on the option if it is given. -/
def opt (parse : List Char → Except Err α) : Option String → Except Err (Option α)
  | none => .ok none
  | some s => (parse s.toList).map some

/-- `Args::from_arg_matches` as far as the parsers of the values are concerned. -/
def parse (fuel : Nat) (a : Args) : Except Err (PipelineArgs InoutFormat) := do
  let inFormat ← opt InoutFormat.fromStr a.inFormat
  let outFormat ← opt InoutFormat.fromStr a.outFormat
  let filler ← opt Eval.parseUsize a.filler
  let cat ← opt Eval.parseUsize a.cat
  let zip ← opt Eval.parseUsize a.zip
  let pad ← opt parseUsizePair a.pad
  let width ← opt (parseConstSlicerParams fuel) a.width
  let merge ← opt Eval.parseUsize a.merge
  .ok { inFormat := inFormat, outFormat := outFormat, filler := filler, cat := cat, zip := zip, inplace := a.inplace, cut := a.cut, pad := pad, patch := a.patch,
        width := width, find := a.find, walk := a.walk, slice := a.slice, guide := a.guide, regex := a.regex, extend := a.extend, invert := a.invert,
        merge := merge, lines := a.lines, output := a.output, patchBack := a.patchBack }

/-- `is_stdin` (`src/main.rs` 91, `src/pipeline.rs` 98). -/
def isStdin (x : String) : Bool := x == "-" || x == "/dev/stdin"

/-- `Args::count_stdin` (`src/main.rs` 90-94). -/
def countStdin (a : Args) : Nat := a.inputs.countP isStdin

/-- `PipelineArgs::count_stdin` (`src/pipeline.rs` 97-110). -/
def countStdinOfOptions (a : Args) : Nat := (a.patch.toList ++ a.guide.toList).countP isStdin

end Args

/-- `exprs.strip_suffix(',').unwrap_or(exprs).split(',')` with a parser for the elements (`src/byte/cut.rs` 23, `src/segment/range.rs` 29,
`src/segment/filter.rs` 22, `src/segment/bridge.rs` 33, `src/segment/extend.rs` 52). -/
def parseList (parse : List Char → Except Err α) (exprs : List Char) : Except Err (List α) :=
  (WalkSlicer.splitComma (WalkSlicer.stripComma exprs)).mapM parse

/-- `Cutter::from_str` (`src/byte/cut.rs` 20-30 and the same in `src/segment/range.rs` and `src/segment/filter.rs`): no range if the string is empty. -/
def parseRanges (exprs : List Char) : Except Err (List RangeMapper) := if exprs = [] then .ok [] else parseList RangeMapper.fromStr exprs

/-- `BridgeStream::new` and `ExtendStream::new` (`src/segment/bridge.rs` 27-36, `src/segment/extend.rs` 46-55): a blank string is an error. -/
def parseMappers (exprs : List Char) : Except Err (List SegmentMapper) :=
  if exprs.all Char.isWhitespace then .error .parse else parseList SegmentMapper.fromStr exprs

namespace Host

/-- `File::open`, `stdin` (`src/main.rs` 193-204, `src/pipeline.rs` 324-331). -/
def openReader (h : Host) (file : String) : Except Err Reader :=
  match h.files file with
  | none => .error .io
  | some (content, sched) => .ok (Reader.open content sched)

/-- `open_file` (`src/pipeline.rs` 324-331). -/
def openFile (h : Host) (p : Pipeline InoutFormat) (file : String) : Except Err (Buffered Reader) := do
  .ok (RawStream.new h.block (← h.openReader file) 1 (UInt8.ofNat p.filler))

/-- A file behind a `TextParser` (`src/text/parser/mod.rs` 349-376). -/
def parser (h : Host) (f : Field × Field) : RecSrc (Buffered Reader) :=
  TextParser.recSrc h.impl (RawStream.byteSrc h.block h.fuel) h.block h.fuel f.1 f.2

/-- The first node (`src/pipeline.rs` 351-356) on the sources.  `ZipStream::new` asserts that there is one (`src/byte/zip.rs` 40). -/
def join (h : Host) (p : Pipeline InoutFormat) (S : ByteSrc σ) (srcs : List σ) : Node → Except Err DynByte
  | .cat => .ok { src := CatStream.byteSrc S h.block h.fuel, st := CatStream.new h.block srcs }
  | .zip => if srcs.isEmpty then .error .panic else .ok { src := ZipStream.byteSrc S h.block h.fuel, st := ZipStream.new h.block srcs p.wordSize }
  | .inplace =>
    match srcs.getLast? with
    | none => .error .panic
    | some s => .ok { src := S, st := s }
  | _ => .error .panic

/-- `build_parser` (`src/pipeline.rs` 333-342) on every source, then the first node. -/
def input (h : Host) (p : Pipeline InoutFormat) (sources : List Reader) (node : Node) : Except Err DynByte :=
  let filler := UInt8.ofNat p.filler
  let raw := sources.map fun r => RawStream.new h.block r p.wordSize filler
  if p.inFormat.isBinary then h.join p (RawStream.byteSrc h.block h.fuel) raw node
  else attempt p.inFormat.fields fun f =>
    let P := h.parser f
    if p.inFormat.isGapless then
      h.join p (GaplessTextStream.byteSrc P h.block h.fuel) (raw.map fun s => GaplessTextStream.new h.block s p.wordSize filler) node
    else attempt (raw.mapM fun s => TextStream.new P h.block s p.wordSize filler) fun srcs =>
      h.join p (TextStream.byteSrc P h.block h.fuel filler) srcs node

/-- `CutStream`, `ClipStream`, `PatchStream`, `TeeStream` (`src/pipeline.rs` 361-377). -/
def filter (h : Host) (p : Pipeline InoutFormat) (node : Node) (prev : DynByte) : Except Err DynByte :=
  match node with
  | .cut exprs =>
    attempt (parseRanges exprs.toList) fun rs => attempt (CutStream.new h.block h.checks prev.st rs) fun s =>
    .ok { src := CutStream.byteSrc prev.src h.block h.fuel, st := s }
  | .clipper params =>
    .ok { src := ClipStream.byteSrc (ClipStream.paddedSrc prev.src h.block h.fuel) h.block h.fuel, st := ClipStream.new h.block prev.st params (UInt8.ofNat p.filler) }
  | .patch file =>
    attempt (h.openFile p file) fun r => attempt p.patchFormat.fields fun f => attempt (PatchStream.new (h.parser f) h.block prev.st r) fun s =>
    .ok { src := PatchStream.byteSrc prev.src (h.parser f) h.block h.fuel, st := s }
  | .tee => .ok { src := TeeStream.byteSrc prev.src, st := TeeStream.new prev.st, cache := fun t => some t.cache }
  | _ => .error .panic

/-- `ConstSlicer`, `ExactMatchSlicer`, `RangeSlicer`, `GuidedSlicer`, `WalkSlicer` (`src/pipeline.rs` 378-397). -/
def slicer (h : Host) (p : Pipeline InoutFormat) (node : Node) (prev : DynByte) : Except Err DynSeg :=
  match node with
  | .width params => attempt (ConstSlicer.new prev.st params) fun s => .ok { src := ConstSlicer.segSrc prev.src, st := s, cache := fun t => prev.cache t.src }
  | .find pattern => attempt (ExactMatchSlicer.new h.impl prev.st pattern.toUTF8.toList) fun s =>
    .ok { src := ExactMatchSlicer.segSrc prev.src h.block, st := s, cache := fun t => prev.cache t.src }
  | .slice exprs =>
    attempt (parseRanges exprs.toList) fun rs => attempt (RangeSlicer.new h.checks prev.st rs) fun s =>
    .ok { src := RangeSlicer.segSrc prev.src h.block, st := s, cache := fun t => prev.cache t.src }
  | .guide file =>
    attempt (h.openFile p file) fun r =>
    .ok { src := GuidedSlicer.segSrc prev.src (h.parser (.hex, .hex)) h.block h.fuel, st := GuidedSlicer.new prev.st r, cache := fun t => prev.cache t.src }
  | .walk exprs => attempt (WalkSlicer.new prev.st exprs.toList) fun s =>
    .ok { src := WalkSlicer.segSrc prev.src h.block h.fuel, st := s, cache := fun t => prev.cache t.src }
  | _ => .error .panic

/-- `RegexSlicer`, `BridgeStream`, `MergeStream`, `ExtendStream`, `FilterStream` (`src/pipeline.rs` 398-417). -/
def manipulate (h : Host) (node : Node) (prev : DynSeg) : Except Err DynSeg :=
  match node with
  | .regex pattern => attempt (h.regex pattern) fun find =>
    .ok { src := RegexSlicer.segSrc find prev.src, st := RegexSlicer.new prev.st, cache := fun t => prev.cache t.src }
  | .bridge exprs => attempt (parseMappers exprs.toList) fun ms =>
    .ok { src := MapStream.segSrc prev.src (Bridge.ops ms), st := Bridge.new prev.st, cache := fun t => prev.cache t.src }
  | .merge thresh => .ok { src := MergeStream.segSrc prev.src, st := MergeStream.new prev.st thresh, cache := fun t => prev.cache t.src }
  | .extend exprs => attempt (parseMappers exprs.toList) fun ms =>
    .ok { src := MapStream.segSrc prev.src (Extend.ops ms), st := Extend.new prev.st, cache := fun t => prev.cache t.src }
  | .lines exprs =>
    attempt (parseRanges exprs.toList) fun rs => attempt (FilterStream.new h.checks prev.st rs) fun s =>
    .ok { src := FilterStream.segSrc prev.src, st := s, cache := fun t => prev.cache t.src }
  | _ => .error .panic

/-- `ScatterDrain::new` (`src/pipeline.rs` 418-421, `src/drain/scatter.rs` 95-115). -/
def scatter (h : Host) (p : Pipeline InoutFormat) (node : Node) (prev : DynSeg) : Except Err DynByte :=
  match node with
  | .scatter file => attempt p.outFormat.formatting fun f =>
    if file.isEmpty || file == "-" then .ok { src := ScatterDrain.byteSrc prev.src f h.block h.fuel, st := ScatterDrain.through h.block prev.st }
    else attempt (ScatterContext.new h.numFmts h.outputs file.toList) fun c =>
      .ok { src := ScatterDrain.scatterSrc prev.src f h.fuel, st := (ScatterDrain.new prev.st, c), disk := fun s => some s.2.fs }
  | _ => .error .panic

/-- The slicing thread until it ends (`src/drain/patch.rs` 67-90). -/
def slicing (S : SegSrc σ) (f : Formatting) (B : Nat) : Nat → Slicing σ → Slicing σ
  | 0, a => a
  | fuel + 1, a => if a.fate.isSome then a else slicing S f B fuel (a.round S f B)

/-- The end of `PatchDrain::new` (`src/drain/patch.rs` 92-100): the command has been given `text` and its input is closed, the slicing thread has ended as `fate` says, and the
temporary file is `cache`. -/
def patching (h : Host) (fields : Field × Field) (command : String) (text : Bytes) (fate : Option Err) (cache : TempFile) : Except Err DynByte :=
  let out := h.commands command text
  let patch := RawStream.new h.block (Reader.open out.1 out.2) 1 0
  attempt (PatchStream.new (h.parser fields) h.block (TeeReader.new h.block cache h.tempSched) patch) fun s =>
    .ok { src := PatchDrain.byteSrc (PatchStream.byteSrc (TeeReader.byteSrc h.block h.fuel) (h.parser fields) h.block h.fuel), st := PatchDrain.new s fate }

/-- `PatchDrain::new` (`src/pipeline.rs` 422-425, `src/drain/patch.rs` 61-101), in the order in which the thread ends before the command prints anything. -/
def patchBack (h : Host) (p : Pipeline InoutFormat) (node : Node) (prev : DynSeg) : Except Err DynByte :=
  match node with
  | .patchBack command => attempt p.patchFormat.formatting fun f => attempt p.patchFormat.fields fun fields =>
    let a := slicing prev.src f h.block h.fuel (Slicing.new prev.st)
    match a.fate, prev.cache a.st with
    | none, _ => .error .diverge
    | _, none => .error .panic
    | some fate, some cache => h.patching fields command a.written fate cache
  | _ => .error .panic

/-- The command, which waits for the end of its input before it prints anything. -/
def command (h : Host) (command : String) : Command := { emit := fun text closed => if closed then ((h.commands command text).1, true) else ([], false) }

/-- What `PatchDrain::new` (`src/pipeline.rs` 422-425, `src/drain/patch.rs` 61-101) can return, depending on how the threads are interleaved: the main thread goes on with what the
slicing thread has left behind in some reachable situation in which the command has printed something or closed its output.  When the main thread accesses the temporary file
the contents of the file stay the same. -/
inductive Backs (h : Host) (p : Pipeline InoutFormat) (cmd : String) (prev : DynSeg) : Except Err DynByte → Prop where
  | format (e : Err) : p.patchFormat.formatting = .error e → Backs h p cmd prev (.error e)
  | fields (e : Err) : p.patchFormat.fields = .error e → Backs h p cmd prev (.error e)
  | starts (f : Formatting) (fields : Field × Field) (w : World prev.σ) (fate : Option Err) (cache : TempFile) : p.patchFormat.formatting = .ok f → p.patchFormat.fields = .ok fields →
      World.Reachable prev.src f h.block (h.command cmd) (fun s s' => (prev.cache s').map TempFile.data = (prev.cache s).map TempFile.data) prev.st w → w.started = true →
      w.a.fate = some fate → prev.cache w.a.st = some cache → Backs h p cmd prev (h.patching fields cmd w.a.written fate cache)

/-- The constructors of the streams (`src/pipeline.rs` 343-434). -/
def stages (h : Host) (p : Pipeline InoutFormat) (sources : List Reader) : Stages DynByte DynSeg Unit where
  input := h.input p sources
  filter := h.filter p
  reader _ := ()
  slicer := h.slicer p
  manipulate := h.manipulate
  scatter := h.scatter p
  patchBack node _ := h.patchBack p node

/-- The constructors with another way to construct the `PatchDrain`. -/
def stagesWith (h : Host) (back : Node → DynSeg → Except Err DynByte) (p : Pipeline InoutFormat) (sources : List Reader) : Stages DynByte DynSeg Unit :=
  { h.stages p sources with patchBack := fun node _ => back node }

/-- `InoutFormat::from_str_with_columns(sig, cols).unwrap()` for the default signatures `b` and `xxx` (`src/pipeline.rs` 272-286), for which it succeeds. -/
def defaultFormat (sig : String) (cols : Nat) : InoutFormat :=
  match InoutFormat.fromStrWithColumns sig.toList cols with
  | .ok f => f
  | .error _ => { offset := .hexadecimal, span := .hexadecimal, body := .hexadecimal, cols := cols }

/-- The pipeline on the inputs `inputs` (`src/main.rs` 153-190 without the drain). -/
def spawn (h : Host) (p : Pipeline InoutFormat) (inputs : List String) : Except Err DynByte :=
  attempt (inputs.mapM h.openReader) fun sources => p.spawnStream (h.stages p sources)

/-- The checks and the construction of the pipeline in `main_impl` (`src/main.rs` 142-157). -/
def prepare (h : Host) (a : Args) : Except Err (Pipeline InoutFormat) :=
  match a.parse h.fuel with
  | .error e => .error e
  | .ok m => if a.countStdin + a.countStdinOfOptions > 1 then .error .invalid else Pipeline.fromArgs defaultFormat m

/-- `main_impl` (`src/main.rs` 141-191) up to `consume_stream`, for the calls without `--inplace`. -/
def stream (h : Host) (a : Args) : Except Err DynByte :=
  attempt (h.prepare a) fun p => h.spawn p (if a.inputs = [] then ["-"] else a.inputs)

/-- `main_impl` (`src/main.rs` 141-191) without `--inplace`: what is printed, and the error that ends the program. -/
def run (h : Host) (a : Args) : Bytes × Option Err :=
  match h.stream a with
  | .error e => ([], some e)
  | .ok s => consumeStream s.src h.block h.fuel s.st

/-- `run` with another way to construct the `PatchDrain`. -/
def runWith (h : Host) (back : Pipeline InoutFormat → Node → DynSeg → Except Err DynByte) (a : Args) : Bytes × Option Err :=
  match attempt (h.prepare a) fun p => attempt ((if a.inputs = [] then ["-"] else a.inputs).mapM h.openReader) fun sources => p.spawnStream (h.stagesWith (back p) p sources) with
  | .error e => ([], some e)
  | .ok s => consumeStream s.src h.block h.fuel s.st

/-- `back` constructs the `PatchDrain` for some interleaving of the threads. -/
def Interleaved (h : Host) (back : Pipeline InoutFormat → Node → DynSeg → Except Err DynByte) : Prop :=
  ∀ p cmd prev, (∃ r, h.Backs p cmd prev r) → h.Backs p cmd prev (back p (.patchBack cmd) prev)

/-- The files after the drain has written to them (`fill_buf_impl_scatter`, `src/drain/scatter.rs` 146-168, runs to the end in the first call). -/
def written (h : Host) (a : Args) : Option (FileSys (List Char)) :=
  match h.stream a with
  | .error _ => none
  | .ok s =>
    match s.src.fill s.st h.block with
    | .error _ => none
    | .ok (_, st) => s.disk st

/-- The files that a call with `--inplace` finds on the disk `σ` (`open_file`, `src/pipeline.rs` 324-331).  Something may have been read from the standard input before; it then serves
`rest`. -/
def during (h : Host) (sched : String → Nat → Option Nat) (rest : Option (Bytes × (Nat → Option Nat))) (σ : Disk) : Host :=
  { h with files := fun n =>
      if Args.isStdin n then
        match rest with
        | none => h.files n
        | some r => some r
      else (σ n).map fun c => (c, sched n) }

/-- `main_impl` with `--inplace` (`src/main.rs` 153-171), with other ways to construct the `PatchDrain`, one for each input: the operations on the disk and whether the program
succeeds.  The streams are constructed anew for every input, so the files that the options name are opened and read again for each of them, on the disk as it is then; `rest f` is what the
standard input still serves when it comes to `f`, if `f` is not the first input. -/
def runInplaceWith (h : Host) (back : String → Pipeline InoutFormat → Node → DynSeg → Except Err DynByte) (split : Bytes → List Bytes) (sched : String → Nat → Option Nat)
    (rest : String → Bytes × (Nat → Option Nat)) (a : Args) (disk : Disk) : List FsOp × Bool :=
  match h.prepare a with
  | .error _ => ([], false)
  | .ok p =>
    if a.countStdin > 0 then ([], false)
    else
      inplaceOps (fun σ f old =>
        let g := h.during sched (if (inplaceOrder a.inputs).head? = some f then none else some (rest f)) σ
        match p.spawnStream (g.stagesWith (back f p) p [Reader.open old (sched f)]) with
        | .error e => ([], some e)
        | .ok s => (split (consumeStream s.src h.block h.fuel s.st).1, (consumeStream s.src h.block h.fuel s.st).2)) (inplaceOrder a.inputs) disk

/-- `main_impl` with `--inplace` (`src/main.rs` 153-171). -/
def runInplace (h : Host) (split : Bytes → List Bytes) (sched : String → Nat → Option Nat) (rest : String → Bytes × (Nat → Option Nat)) (a : Args) (disk : Disk) : List FsOp × Bool :=
  h.runInplaceWith (fun _ => h.patchBack) split sched rest a disk

end Host

end Nd
