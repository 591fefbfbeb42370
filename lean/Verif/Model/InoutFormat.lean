import Verif.Model.Scatter
import Verif.Model.Parser
import Verif.Model.Walk
/-!
# Format signatures (src/text/mod.rs)
-/
namespace Nd

/-- `enum ColumnFormat` (`src/text/mod.rs` 14-21). -/
inductive ColumnFormat where
  | none
  | binary
  | decimal
  | hexadecimal
  | struct (sig : List Char)
  deriving DecidableEq, Repr

/-- `ColumnFormat::from_str` (`src/text/mod.rs` 24-38).  The assertion on the empty string is a panic. -/
def ColumnFormat.fromStr (s : List Char) : Except Err ColumnFormat :=
  match s with
  | [] => .error .panic
  | ['n'] => .ok .none
  | ['b'] => .ok .binary
  | ['d'] => .ok .decimal
  | ['x'] => .ok .hexadecimal
  | c :: _ :: _ => if c = '@' ∨ c = '=' ∨ c = '<' ∨ c = '>' ∨ c = '!' then .ok (.struct s) else .error .parse
  | _ => .error .parse

/-- `struct InoutFormat` (`src/text/mod.rs` 40-49). -/
structure InoutFormat where
  offset : ColumnFormat
  span : ColumnFormat
  body : ColumnFormat
  cols : Nat
  deriving DecidableEq, Repr

namespace InoutFormat

/-- `InoutFormat::new` (`src/text/mod.rs` 52-58). -/
def new (offset span body : List Char) (cols : Nat) : Except Err InoutFormat := do
  let offset ← ColumnFormat.fromStr offset
  let span ← ColumnFormat.fromStr span
  let body ← ColumnFormat.fromStr body
  .ok { offset := offset, span := span, body := body, cols := cols }

/-- `InoutFormat::from_str_with_columns` (`src/text/mod.rs` 60-88). -/
def fromStrWithColumns (sig : List Char) (cols : Nat) : Except Err InoutFormat :=
  if sig = [] then .error .parse
  else if sig = ['b'] ∨ sig = ['n', 'n', 'b'] then new ['n'] ['n'] ['b'] cols
  else if sig = ['d'] ∨ sig = ['d', 'd', 'x'] then new ['d'] ['d'] ['x'] cols
  else if sig = ['x'] ∨ sig = ['x', 'x', 'x'] then new ['x'] ['x'] ['x'] cols
  else if sig = ['n', 'n', 'x'] then new ['n'] ['n'] ['x'] cols
  else
    let sigs := WalkSlicer.splitComma sig
    if sigs.length > 3 then .error .parse else new (sigs.getD 0 ['x']) (sigs.getD 1 ['x']) (sigs.getD 2 ['x']) cols

/-- `InoutFormat::from_str` (`src/text/mod.rs` 90-92). -/
def fromStr (sig : List Char) : Except Err InoutFormat := fromStrWithColumns sig 16

/-- `InoutFormat::is_gapless` (`src/text/mod.rs` 94-96). -/
def isGapless (f : InoutFormat) : Bool := f.offset == .none && f.span == .none

/-- `InoutFormat::is_binary` (`src/text/mod.rs` 98-100). -/
def isBinary (f : InoutFormat) : Bool := f.isGapless && f.body == .binary

/-- `TextFormatter::new` (`src/text/formatter/mod.rs` 147-164). -/
def formatting (f : InoutFormat) : Except Err Formatting :=
  if f.isBinary then .ok { style := .binary, minWidth := f.cols }
  else
    match f.offset, f.span, f.body with
    | .hexadecimal, .hexadecimal, .hexadecimal => .ok { style := .hhh, minWidth := f.cols }
    | .none, .none, .hexadecimal => .ok { style := .hhh, minWidth := f.cols }
    | .decimal, .decimal, .hexadecimal => .ok { style := .ddh, minWidth := f.cols }
    | _, _, _ => .error .panic

/-- The parsers of the header fields in `TextParser::new` (`src/text/parser/mod.rs` 351-362). -/
def field : ColumnFormat → Except Err Field
  | .none => .ok .hex
  | .decimal => .ok .dec
  | .hexadecimal => .ok .hex
  | .binary | .struct _ => .error .panic

/-- `TextParser::new` (`src/text/parser/mod.rs` 349-376); the parser of the array is always `parse_hex_body`. -/
def fields (f : InoutFormat) : Except Err (Field × Field) :=
  if f.isBinary then .error .panic
  else do
    let offset ← field f.offset
    let span ← field f.span
    match f.body with
    | .none | .hexadecimal => .ok (offset, span)
    | _ => .error .panic

end InoutFormat

end Nd
