import Verif.Model.Byte
import Verif.Model.Scatter
/-!
# `nd FILE...` without options
-/
namespace Nd

/-- The range expression `s..e` (`ConstSlicerParams::from_raw` with `expr = None`, `src/segment/stride.rs` 20-25). -/
def SegmentMapper.whole : SegmentMapper := { start := { anchor := 0, offset := 0 }, stop := { anchor := 1, offset := 0 } }

/-- The pipeline without options on already opened inputs: `Cat`, `Width(16)`, `Scatter("-")` with 16 columns and
hexadecimal output (`Pipeline::from_args`, `src/pipeline.rs` 204-303; `spawn_stream`, 343-434), copied by `consume_stream`
(`src/main.rs` 219-236): what is printed, and the error the program ends with. -/
def hexdump (S : ByteSrc σ) (B fuel : Nat) (inputs : List σ) : Except Err (Bytes × Option Err) :=
  match ConstSlicerParams.fromRaw fuel 16 .whole with
  | .error e => .error e
  | .ok p =>
    match ConstSlicer.new (CatStream.new B inputs) p with
    | .error e => .error e
    | .ok s =>
      .ok (consumeStream (ScatterDrain.byteSrc (ConstSlicer.segSrc (CatStream.byteSrc S B fuel)) { style := .hhh, minWidth := 16 } B fuel)
        B fuel (ScatterDrain.through B s))

end Nd
