import Verif.Model.Pipeline
/-!
# The documented structure of the pipeline

README "Options and pipeline structure", stages 1 to 5, and the help text (`src/main.rs` 37-72): stages 1, 3 and 5 are
exclusive; the options of stages 2 and 4 are applied in the order in which they are listed.
-/
namespace Nd.Spec

/-- The place of a node in the documentation. -/
def rank : Node → Nat
  | .cat | .zip | .inplace => 0
  | .cut _ => 1
  | .clipper _ => 2
  | .patch _ => 3
  | .tee => 4
  | .width _ | .find _ | .walk _ | .slice _ | .guide _ => 5
  | .regex _ => 6
  | .bridge _ => 7
  | .extend _ => 8
  | .merge _ => 9
  | .lines _ => 10
  | .scatter _ | .patchBack _ => 11

/-- `--width 16,s..e` -/
def width16 : ConstSlicerParams := { head := 0, tail := -15, pitch := 16, span := 16 }

/-- The node is asked for by an option, or is the default of its stage. -/
def Asked (m : PipelineArgs φ) : Node → Prop
  | .inplace => m.inplace = true
  | .zip => m.zip ≠ none
  | .cat => m.inplace = false ∧ m.zip = none
  | .cut e => m.cut = some e
  | .clipper p => ∃ a b, m.pad = some (a, b) ∧ ¬ (a = 0 ∧ b = 0) ∧ p = { pad := (a, b), clip := (0, 0), len := usizeMax }
  | .patch f => m.patch = some f
  | .tee => m.patchBack ≠ none
  | .width w => m.width = some w ∨ (m.width = none ∧ m.find = none ∧ m.walk = none ∧ m.slice = none ∧ m.guide = none ∧ w = width16)
  | .find e => m.find = some e
  | .walk e => m.walk = some e
  | .slice e => m.slice = some e
  | .guide f => m.guide = some f
  | .regex e => m.regex = some e
  | .bridge e => m.invert = some e
  | .extend e => m.extend = some e
  | .merge n => m.merge = some n
  | .lines e => m.lines = some e
  | .scatter f => m.output = some f ∨ (m.output = none ∧ m.patchBack = none ∧ f = "-")
  | .patchBack c => m.patchBack = some c

/-- How many of the options are given. -/
def given (l : List Bool) : Nat := (l.filter id).length

/-- The option sets that make sense. -/
structure Valid (m : PipelineArgs φ) : Prop where
  input : given [m.inplace, m.cat.isSome, m.zip.isSome] ≤ 1
  slicer : given [m.width.isSome, m.find.isSome, m.walk.isSome, m.slice.isSome, m.guide.isSome] ≤ 1
  drain : given [m.output.isSome, m.patchBack.isSome] ≤ 1
  word : m.cat ≠ some 0 ∧ m.zip ≠ some 0
  filler : ∀ f, m.filler = some f → f < 256

/-- The number of columns of a line: the width of the slices, 16 by default, unknown (0) for other slicers. -/
def columns (m : PipelineArgs φ) : Nat :=
  match m.width with
  | some w => w.span
  | none => if given [m.find.isSome, m.walk.isSome, m.slice.isSome, m.guide.isSome] = 0 then 16 else 0

/-- The output replaces the input file: in the `--inplace` mode, if it does not go to other files or a command. -/
def replaces (m : PipelineArgs φ) : Bool := m.inplace && m.patchBack.isNone && (m.output.isNone || m.output == some "" || m.output == some "-")

end Nd.Spec
