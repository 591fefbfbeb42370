import Verif.Model.Basic
/-!
# The text formatter (src/text/formatter)

The portable implementations (`*_naive`) are modelled.  The code writes the parts of a line to fixed places
of one reserved buffer region; the model concatenates the parts, and reports a panic when the region is too
small for them.
-/
namespace Nd
namespace Format

/-- `b"0123456789abcdef"[y]` (`src/text/formatter/hex.rs` 15). -/
def hexDigit (y : Nat) : Byte := ([48, 49, 50, 51, 52, 53, 54, 55, 56, 57, 97, 98, 99, 100, 101, 102] : Bytes).getD y 0

/-- `format_hex_single_naive` (`src/text/formatter/hex.rs` 11-20). -/
def hexSingle (val activeBytes : Nat) : Bytes :=
  (List.range (2 * activeBytes)).map (fun i => hexDigit ((val >>> (4 * (2 * activeBytes - i - 1))) &&& 0x0f)) ++ [32]

/-- `format_hex_body_naive` (`src/text/formatter/hex.rs` 126-134). -/
def hexBody (src : Bytes) : Bytes := src.flatMap fun (x : Byte) => [hexDigit (x >>> 4).toNat, hexDigit (x &&& 0x0f).toNat, 32]

/-- `format_mosaic_naive` (`src/text/formatter/hex.rs` 253-259). -/
def mosaic (src : Bytes) : Bytes := src.map fun x => if x < 32 ∨ x ≥ 127 then 46 else x

/-- `8 - ((src.len() | 0xffff).leading_zeros() as usize) / 8` (`src/text/formatter/mod.rs` 27). -/
def activeBytes (len : Nat) : Nat := 8 - (63 - Nat.log2 (len ||| 0xffff)) / 8

/-- The parts after the header that both styles share (`src/text/formatter/mod.rs` 38-61, 93-117): array,
delimiter, mosaic and line break; missing columns are blanked. -/
def lineBody (src : Bytes) (width : Nat) : Bytes :=
  hexBody src ++ List.replicate (3 * (width - src.length)) 32 ++ [124, 32]
    ++ mosaic src ++ List.replicate (width - src.length) 32 ++ [10]

/-- `format_line_hhh` (`src/text/formatter/mod.rs` 25-64). -/
def lineHhh (src : Bytes) (offset width : Nat) : Bytes :=
  hexSingle offset 6 ++ hexSingle src.length (activeBytes src.length) ++ [124, 32] ++ lineBody src width

/-- The digit loop of `format_dec_single_naive` (`src/text/formatter/dec.rs` 12-17): least significant digit
first.  The fuel is the room in `buf`. -/
def decLoop : Nat → Nat → Bytes
  | 0, _ => []
  | fuel + 1, val => if val > 0 then UInt8.ofNat (48 + val % 10) :: decLoop fuel (val / 10) else []

/-- `format_dec_single_naive` (`src/text/formatter/dec.rs` 5-24). -/
def decSingle (val : Nat) : Bytes :=
  (if decLoop 31 val = [] then [48] else (decLoop 31 val).reverse) ++ [32]

/-- `format_line_ddh` (`src/text/formatter/mod.rs` 83-120). -/
def lineDdh (src : Bytes) (offset width : Nat) : Bytes :=
  decSingle offset ++ decSingle src.length ++ [124, 32] ++ lineBody src width

/-- The region reserved for one line (`src/text/formatter/mod.rs` 71-72, 127-128). -/
def reserve (len : Nat) : Nat := 4 * ((len + 15) / 16 * 16) + 8 * 32

/-- The formatter chosen by `TextFormatter::new` (`src/text/formatter/mod.rs` 147-158). -/
inductive Style where
  | binary
  | hhh
  | ddh
  deriving DecidableEq, Repr

/-- One round of the loops in `format_segments_binary`, `format_segments_hhh`, `format_segments_ddh`
(`src/text/formatter/mod.rs` 14-23, 66-81, 122-137).  Slicing the stream out of range panics. -/
def segment (style : Style) (offset minWidth : Nat) (stream : Bytes) (s : Seg) : Except Err Bytes :=
  if s.pos + s.len > stream.length then .error .panic
  else
    match style with
    | .binary => .ok (s.bytes stream)
    | .hhh =>
      let line := lineHhh (s.bytes stream) (offset + s.pos) (max s.len minWidth)
      if line.length > reserve (max minWidth s.len) then .error .panic else .ok line
    | .ddh =>
      let line := lineDdh (s.bytes stream) (offset + s.pos) (max s.len minWidth)
      if line.length > reserve (max minWidth s.len) then .error .panic else .ok line

/-- `TextFormatter::format_segments` (`src/text/formatter/mod.rs` 166-168): what is appended to `buf`;
`offset` includes the formatter's base offset. -/
def segments (style : Style) (offset minWidth : Nat) (stream : Bytes) : List Seg → Except Err Bytes
  | [] => .ok []
  | s :: rest =>
    match segment style offset minWidth stream s with
    | .error e => .error e
    | .ok line =>
      match segments style offset minWidth stream rest with
      | .error e => .error e
      | .ok out => .ok (line ++ out)

end Format
end Nd
