import Verif.Model.Byte
import Verif.Model.Stride
/-!
# Building the pipeline from the options (src/pipeline.rs)
-/
namespace Nd

/-- `struct PipelineArgs` (`src/pipeline.rs` 32-95) after parsing by clap; `φ` is `InoutFormat`. -/
structure PipelineArgs (φ : Type) where
  inFormat : Option φ := none
  outFormat : Option φ := none
  filler : Option Nat := none
  cat : Option Nat := none
  zip : Option Nat := none
  inplace : Bool := false
  cut : Option String := none
  pad : Option (Nat × Nat) := none
  patch : Option String := none
  width : Option ConstSlicerParams := none
  find : Option String := none
  walk : Option String := none
  slice : Option String := none
  guide : Option String := none
  regex : Option String := none
  extend : Option String := none
  invert : Option String := none
  merge : Option Nat := none
  lines : Option String := none
  output : Option String := none
  patchBack : Option String := none

/-- `enum Node` (`src/pipeline.rs` 114-139). -/
inductive Node where
  | cat
  | zip
  | inplace
  | cut (exprs : String)
  | clipper (params : ClipperParams)
  | patch (file : String)
  | tee
  | width (params : ConstSlicerParams)
  | find (pattern : String)
  | slice (exprs : String)
  | guide (file : String)
  | walk (exprs : String)
  | regex (pattern : String)
  | bridge (exprs : String)
  | merge (thresh : Nat)
  | extend (exprs : String)
  | lines (exprs : String)
  | scatter (file : String)
  | patchBack (command : String)
  deriving DecidableEq

/-- `enum NodeClass` (`src/pipeline.rs` 141-147). -/
inductive NodeClass where
  | placeholder
  | byteFilter
  | slicer
  | segmentFilter
  | drain
  deriving DecidableEq

namespace Node

/-- `Node::class` (`src/pipeline.rs` 150-172). -/
def cls : Node → NodeClass
  | .cat | .zip | .inplace => .placeholder
  | .cut _ | .clipper _ | .patch _ | .tee => .byteFilter
  | .width _ | .find _ | .slice _ | .guide _ | .walk _ => .slicer
  | .regex _ | .bridge _ | .merge _ | .extend _ | .lines _ => .segmentFilter
  | .scatter _ | .patchBack _ => .drain

/-- `Node::precedes` (`src/pipeline.rs` 174-187). -/
def precedes (a b : Node) : Bool :=
  match a.cls, b.cls with
  | .placeholder, .byteFilter | .placeholder, .slicer | .byteFilter, .byteFilter | .byteFilter, .slicer
  | .slicer, .segmentFilter | .slicer, .drain | .segmentFilter, .segmentFilter | .segmentFilter, .drain => true
  | _, _ => false

end Node

/-- `struct Pipeline` (`src/pipeline.rs` 195-202). -/
structure Pipeline (φ : Type) where
  wordSize : Nat
  filler : Nat
  inFormat : φ
  outFormat : φ
  patchFormat : φ
  nodes : List Node

/-- `match (m.inplace, m.cat, m.zip)` (`src/pipeline.rs` 209-215). -/
def PipelineArgs.input (m : PipelineArgs φ) : Except Err (Nat × Node) :=
  match m.inplace, m.cat, m.zip with
  | true, none, none => .ok (1, .inplace)
  | false, some align, none => .ok (align, .cat)
  | false, none, some word => .ok (word, .zip)
  | false, none, none => .ok (1, .cat)
  | _, _, _ => .error .invalid

/-- `if let Some(x) = …  { nodes.push(f(x)) }` -/
def optNode (f : α → Node) : Option α → List Node
  | some x => [f x]
  | none => []

/-- Cut, pad, patch and tee (`src/pipeline.rs` 218-233). -/
def PipelineArgs.byteFilters (m : PipelineArgs φ) : Except Err (List Node) :=
  match m.pad with
  | none => .ok (optNode .cut m.cut ++ optNode .patch m.patch ++ optNode (fun _ => .tee) m.patchBack)
  | some pad =>
    if pad ≠ (0, 0) then
      match ClipperParams.fromRaw (some pad) (some 0) (some (0, usizeMax)) with
      | .error e => .error e
      | .ok p => .ok (optNode .cut m.cut ++ [.clipper p] ++ optNode .patch m.patch ++ optNode (fun _ => .tee) m.patchBack)
    else .ok (optNode .cut m.cut ++ optNode .patch m.patch ++ optNode (fun _ => .tee) m.patchBack)

/-- `match (m.width, &m.find, &m.walk, &m.slice, &m.guide)` (`src/pipeline.rs` 236-244): the number of columns and the node. -/
def PipelineArgs.slicer (m : PipelineArgs φ) : Except Err (Nat × Node) :=
  match m.width, m.find, m.walk, m.slice, m.guide with
  | some w, none, none, none, none => .ok (w.span, .width w)
  | none, some p, none, none, none => .ok (0, .find p)
  | none, none, some e, none, none => .ok (0, .walk e)
  | none, none, none, some e, none => .ok (0, .slice e)
  | none, none, none, none, some f => .ok (0, .guide f)
  | none, none, none, none, none =>
    match ConstSlicerParams.fromRaw 2 16 { start := { anchor := 0, offset := 0 }, stop := { anchor := 1, offset := 0 } } with
    | .error e => .error e
    | .ok p => .ok (16, .width p)
  | _, _, _, _, _ => .error .invalid

/-- The slice manipulators (`src/pipeline.rs` 247-261). -/
def PipelineArgs.segmentFilters (m : PipelineArgs φ) : List Node :=
  optNode .regex m.regex ++ optNode .bridge m.invert ++ optNode .extend m.extend ++ optNode .merge m.merge ++ optNode .lines m.lines

/-- `match (&m.output, &m.patch_back)` (`src/pipeline.rs` 263-269): `written_back` and the node. -/
def PipelineArgs.drain (m : PipelineArgs φ) : Except Err (Bool × Node) :=
  match m.output, m.patchBack with
  | some file, none => .ok (file.isEmpty || file == "-", .scatter file)
  | none, some command => .ok (false, .patchBack command)
  | none, none => .ok (true, .scatter "-")
  | some _, some _ => .error .invalid

/-- `validate` (`src/pipeline.rs` 305-317). -/
def Pipeline.validate (p : Pipeline φ) : Except Err Unit :=
  if p.wordSize = 0 then .error .invalid
  else if (p.nodes.zip p.nodes.tail).all (fun x => x.1.precedes x.2) then .ok ()
  else .error .invalid

/-- `Pipeline::from_args` (`src/pipeline.rs` 204-303); `fmt` is `InoutFormat::from_str_with_columns` for the three default signatures (which
succeeds). -/
def Pipeline.fromArgs (fmt : String → Nat → φ) (m : PipelineArgs φ) : Except Err (Pipeline φ) :=
  match m.input with
  | .error e => .error e
  | .ok (wordSize, input) =>
    match m.byteFilters with
    | .error e => .error e
    | .ok bytes =>
      match m.slicer with
      | .error e => .error e
      | .ok (cols, slicer) =>
        match m.drain with
        | .error e => .error e
        | .ok (writtenBack, drain) =>
          match m.filler with
          | some f =>
            if f ≤ 255 then finish wordSize f cols writtenBack (input :: bytes ++ slicer :: m.segmentFilters ++ [drain]) else .error .invalid
          | none => finish wordSize 0 cols writtenBack (input :: bytes ++ slicer :: m.segmentFilters ++ [drain])
where
  finish (wordSize filler cols : Nat) (writtenBack : Bool) (nodes : List Node) : Except Err (Pipeline φ) :=
    let p : Pipeline φ := { wordSize := wordSize, filler := filler, inFormat := m.inFormat.getD (fmt "b" cols),
                            outFormat := m.outFormat.getD (fmt (if m.inplace && writtenBack then "b" else "xxx") cols), patchFormat := fmt "xxx" cols, nodes := nodes }
    match p.validate with
    | .error e => .error e
    | .ok () => .ok p

/-- `enum NodeInstance` (`src/pipeline.rs` 190-193), with the streams of the two kinds left open. -/
inductive NodeInstance (β : Type u) (γ : Type v) where
  | byte (s : β)
  | segment (s : γ)

/-- What the stages do: the constructors of the streams (each may fail, e.g. on a malformed expression). -/
structure Stages (β : Type u) (γ : Type v) (κ : Type w) where
  /-- `CatStream::new`, `ZipStream::new`, `sources.pop().unwrap()` -/
  input : Node → Except Err β
  /-- `CutStream::new`, `ClipStream::new`, `PatchStream::new`, `TeeStream::new` -/
  filter : Node → β → Except Err β
  /-- `spawn_reader` of the tee -/
  reader : β → κ
  /-- the constructors of the slicers -/
  slicer : Node → β → Except Err γ
  /-- the constructors of the slice manipulators -/
  manipulate : Node → γ → Except Err γ
  /-- `ScatterDrain::new` -/
  scatter : Node → γ → Except Err β
  /-- `PatchDrain::new` -/
  patchBack : Node → κ → γ → Except Err β

/-- The body of the loop (`src/pipeline.rs` 359-427).  `Err.panic` stands for the internal errors and `cache.unwrap()`. -/
def Stages.step (T : Stages β γ κ) (next : Node) (st : Option κ × NodeInstance β γ) : Except Err (Option κ × NodeInstance β γ) :=
  match next, st.2 with
  | .cut _, .byte prev | .clipper _, .byte prev | .patch _, .byte prev =>
    match T.filter next prev with
    | .error e => .error e
    | .ok s => .ok (st.1, .byte s)
  | .tee, .byte prev =>
    match T.filter next prev with
    | .error e => .error e
    | .ok s => .ok (some (T.reader s), .byte s)
  | .width _, .byte prev | .find _, .byte prev | .slice _, .byte prev | .guide _, .byte prev | .walk _, .byte prev =>
    match T.slicer next prev with
    | .error e => .error e
    | .ok s => .ok (st.1, .segment s)
  | .regex _, .segment prev | .bridge _, .segment prev | .merge _, .segment prev | .extend _, .segment prev | .lines _, .segment prev =>
    match T.manipulate next prev with
    | .error e => .error e
    | .ok s => .ok (st.1, .segment s)
  | .scatter _, .segment prev =>
    match T.scatter next prev with
    | .error e => .error e
    | .ok s => .ok (st.1, .byte s)
  | .patchBack _, .segment prev =>
    match st.1 with
    | none => .error .panic
    | some cache =>
      match T.patchBack next cache prev with
      | .error e => .error e
      | .ok s => .ok (none, .byte s)
  | _, _ => .error .panic

/-- The loop. -/
def Stages.loop (T : Stages β γ κ) : List Node → Option κ × NodeInstance β γ → Except Err (NodeInstance β γ)
  | [], st => .ok st.2
  | n :: ns, st =>
    match T.step n st with
    | .error e => .error e
    | .ok st => T.loop ns st

/-- `spawn_stream` (`src/pipeline.rs` 343-434). -/
def Pipeline.spawnStream (p : Pipeline φ) (T : Stages β γ κ) : Except Err β :=
  match p.nodes with
  | [] => .error .panic
  | first :: ns =>
    if ns = [] then .error .panic
    else
      match first.cls with
      | .placeholder =>
        match T.input first with
        | .error e => .error e
        | .ok s =>
          match T.loop ns (none, .byte s) with
          | .error e => .error e
          | .ok (.byte s) => .ok s
          | .ok (.segment _) => .error .panic
      | _ => .error .panic

end Nd
