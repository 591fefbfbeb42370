import Verif.Model.Simd
import Verif.Model.Parser
import Verif.Model.Format
/-!
# The text formatter at the level of stores (src/text/formatter, src/filluninit.rs)

`Verif/Model/Format.lean` concatenates the parts of a line.  The code stores them in a region of `cap` bytes (uninitialised
before), and the vectorised versions load and store whole registers, that is more than asked for.  Here every load and store is explicit, and
one outside of the stream or the region gives `none`.
-/
namespace Nd
open Vec

namespace Vec

/-- `_mm256_cvtepu8_epi16`: every byte becomes a 16-bit lane. -/
def widen (x : Vec) : Vec := fun i => if i % 2 = 0 then x (i / 2) else 0

/-- `_mm256_shuffle_epi8`: like `_mm_shuffle_epi8` on each half. -/
def shuffle256 (t x : Vec) : Vec := fun i => if x i ≥ 0x80 then 0 else t (16 * (i / 16) + (x i &&& 0x0f).toNat)

/-- `_mm256_permute4x64_epi64`: two bits of `imm` select each eight-byte lane. -/
def permute64 (x : Vec) (imm : Nat) : Vec := fun i => x (8 * (imm >>> (2 * (i / 8)) % 4) + i % 8)

/-- `_mm256_extracti128_si256`. -/
def half (x : Vec) (k : Nat) : Vec := fun i => x (16 * k + i)

end Vec

namespace Format

/-- A store of the lanes `0 .. n` of `v` at `p`. -/
def put (cap p n : Nat) (v m : Vec) : Option Vec :=
  if p + n ≤ cap then some fun i => if p ≤ i ∧ i < p + n then v (i - p) else m i else none

/-- A load of 16 bytes. -/
def load16 (stream : Bytes) (p : Nat) : Option Vec := if p + 16 ≤ stream.length then some (load stream p) else none

/-- The loops over blocks of 16 bytes of the source; `blk x p m` stores the block `x` at `p`. -/
def blocks16 (stream : Bytes) (step : Nat) (blk : Vec → Nat → Vec → Option Vec) : Nat → Nat → Nat → Vec → Option Vec
  | 0, _, _, m => some m
  | n + 1, pos, p, m => do
    let x ← load16 stream pos
    let m ← blk x p m
    blocks16 stream step blk n (pos + 16) (p + step) m

/-- The common part of `format_hex_single_neon` and `format_hex_single_avx2` (`src/text/formatter/hex.rs` 30-40, 68-77): the complements of
the digits, most significant first, and `0xff` behind them. -/
def complements (val active : Nat) : Vec × Vec :=
  let shift := 64 - 8 * active
  let mask := 0xf0f0f0f0f0f0f0f0
  let l := val
  let h := l >>> 4
  (ofU64 (not64 (swap64 (shl64 (l ||| mask) shift))), ofU64 (not64 (swap64 (shl64 (h ||| mask) shift))))

/-- `format_hex_single_avx2` (`src/text/formatter/hex.rs` 59-87), 16 bytes. -/
def singleAvx2 (val active : Nat) : Vec :=
  let table := const [0x46, 0x45, 0x44, 0x43, 0x42, 0x41, 0x19, 0x18, 0x17, 0x16, 0x15, 0x14, 0x13, 0x12, 0x11, 0x10]
  let (l, h) := complements val active
  add (unpackLo8 (shuffle table h) (shuffle table l)) (splat 32)

/-- `st2`: two registers, alternating. -/
def st2 (x y : Vec) : Vec := fun i => if i % 2 = 0 then x (i / 2) else y (i / 2)

/-- `st3`: three registers, alternating. -/
def st3 (x y z : Vec) : Vec := fun i => if i % 3 = 0 then x (i / 3) else if i % 3 = 1 then y (i / 3) else z (i / 3)

/-- `format_hex_single_neon` (`src/text/formatter/hex.rs` 22-56), 32 bytes. -/
def singleNeon (val active : Nat) : Vec :=
  let table := const [102, 101, 100, 99, 98, 97, 57, 56, 55, 54, 53, 52, 51, 50, 49, 48]
  let space := splat 32
  let (l, h) := complements val active
  st2 (tbx space table h) (tbx space table l)

/-- `format_hex_single` (`src/text/formatter/hex.rs` 89-99) at `p`. -/
def single (I : Impl) (cap p val active : Nat) (m : Vec) : Option Vec :=
  match I with
  | .portable => put cap p (2 * active + 1) (const (hexSingle val active)) m
  | .avx2 => put cap p 16 (singleAvx2 val active) m
  | .neon => put cap p 32 (singleNeon val active) m

/-- The `index_1` of `format_hex_body_avx2` (`src/text/formatter/hex.rs` 180-183). -/
def index1 : Bytes := [1, 0, 0x80, 3, 2, 0x80, 5, 4, 0x80, 7, 6, 0x80, 9, 8, 0x80, 11, 0x80, 7, 6, 0x80, 9, 8, 0x80, 11, 10, 0x80, 13, 12, 0x80, 15, 14, 0x80]

/-- The `index_2` (`src/text/formatter/hex.rs` 184-186). -/
def index2 : Bytes := [2, 0x80, 5, 4, 0x80, 7, 6, 0x80, 9, 8, 0x80, 11, 10, 0x80, 13, 12, 0, 0, 0, 0, 0, 0, 0, 0, 0, 0, 0, 0, 0, 0, 0, 0]

/-- The `table` (`src/text/formatter/hex.rs` 176-179). -/
def digits256 : Bytes := [0x10, 0x11, 0x12, 0x13, 0x14, 0x15, 0x16, 0x17, 0x18, 0x19, 0x41, 0x42, 0x43, 0x44, 0x45, 0x46, 0x10, 0x11, 0x12, 0x13, 0x14,
  0x15, 0x16, 0x17, 0x18, 0x19, 0x41, 0x42, 0x43, 0x44, 0x45, 0x46]

/-- A block of `format_hex_body_avx2` (`src/text/formatter/hex.rs` 200-215): the registers `x` and `y` that are stored. -/
def bodyAvx2 (x : Vec) : Vec × Vec :=
  let x := widen x
  let x := or (sll16 x 4) x
  let x := and x (splat 0x0f)
  let x := shuffle256 (const digits256) x
  let y := permute64 x 0xe9
  (add (shuffle256 x (const index1)) (splat 32), add (shuffle256 y (const index2)) (splat 32))

/-- A block of `format_hex_body_neon` (`src/text/formatter/hex.rs` 149-160), 48 bytes. -/
def bodyNeon (x : Vec) : Vec :=
  let table := const [48, 49, 50, 51, 52, 53, 54, 55, 56, 57, 97, 98, 99, 100, 101, 102]
  st3 (tbl table (shr8 x 4)) (tbl table (and x (splat 0x0f))) (splat 32)

/-- `format_hex_body` (`src/text/formatter/hex.rs` 226-236) of the `len` bytes at `pos`, to `p`. -/
def body (I : Impl) (cap p : Nat) (stream : Bytes) (pos len : Nat) (m : Vec) : Option Vec :=
  match I with
  | .portable => put cap p (3 * len) (const (hexBody ((stream.drop pos).take len))) m
  | .avx2 => blocks16 stream 48 (fun x p m => do
      let (x, y) := bodyAvx2 x
      let m ← put cap p 16 (half x 0) m
      let m ← put cap (p + 16) 16 (half y 0) m
      put cap (p + 32) 16 (half x 1) m) ((len + 0x0f) >>> 4) pos p m
  | .neon => blocks16 stream 48 (fun x p m => put cap p 48 (bodyNeon x) m) ((len + 0x0f) >>> 4) pos p m

/-- A block of `format_mosaic_avx2` (`src/text/formatter/hex.rs` 298-304). -/
def mosaicAvx2 (x : Vec) : Vec := blendv (splat 46) x (gtS (add x (splat 1)) (splat 32))

/-- A block of `format_mosaic_neon` (`src/text/formatter/hex.rs` 273-278). -/
def mosaicNeon (x : Vec) : Vec := bsl (gtS (add x (splat 1)) (splat 32)) x (splat 46)

/-- `format_mosaic` (`src/text/formatter/hex.rs` 312-322). -/
def mosaicAt (I : Impl) (cap p : Nat) (stream : Bytes) (pos len : Nat) (m : Vec) : Option Vec :=
  match I with
  | .portable => put cap p len (const (mosaic ((stream.drop pos).take len))) m
  | .avx2 => blocks16 stream 16 (fun x p m => put cap p 16 (mosaicAvx2 x) m) ((len + 0x0f) >>> 4) pos p m
  | .neon => blocks16 stream 16 (fun x p m => put cap p 16 (mosaicNeon x) m) ((len + 0x0f) >>> 4) pos p m

/-- The loop that blanks missing columns (`src/text/formatter/mod.rs` 54-61, 110-117). -/
def blanks (cap body mosaic : Nat) : Nat → Nat → Vec → Option Vec
  | 0, _, m => some m
  | n + 1, i, m => do
    let m ← put cap (body + 3 * i) 3 (splat 32) m
    let m ← put cap (mosaic + i) 1 (splat 32) m
    blanks cap body mosaic n (i + 1) m

/-- The part of a line that starts with the array (`src/text/formatter/mod.rs` 38-61, 93-117), at `p`. -/
def rest (I : Impl) (cap p : Nat) (stream : Bytes) (pos len width : Nat) (m : Vec) : Option Vec := do
  let m ← body I cap p stream pos len m
  let m ← put cap (p + 3 * width) 2 (const [124, 32]) m
  let m ← mosaicAt I cap (p + 3 * width + 2) stream pos len m
  let m ← put cap (p + 3 * width + 2 + width) 1 (const [10]) m
  blanks cap p (p + 3 * width + 2) (width - len) len m

/-- `format_line_hhh` (`src/text/formatter/mod.rs` 25-64): the number of bytes of the line and the region. -/
def storeHhh (I : Impl) (cap : Nat) (stream : Bytes) (pos len offset width : Nat) (m : Vec) : Option (Nat × Vec) := do
  let active := 8 - clz64 (len ||| 0xffff) / 8
  let cols := 2 * active
  let m ← single I cap 0 offset 6 m
  let m ← single I cap 13 len active m
  let m ← put cap (14 + cols) 2 (const [124, 32]) m
  let m ← rest I cap (16 + cols) stream pos len width m
  some (19 + cols + 4 * width, m)

/-- `format_line_ddh` (`src/text/formatter/mod.rs` 83-120). -/
def storeDdh (I : Impl) (cap : Nat) (stream : Bytes) (pos len offset width : Nat) (m : Vec) : Option (Nat × Vec) := do
  let o := decSingle offset
  let s := decSingle len
  let m ← put cap 0 o.length (const o) m
  let m ← put cap o.length s.length (const s) m
  let p := o.length + s.length
  let m ← put cap p 2 (const [124, 32]) m
  let m ← rest I cap (p + 2) stream pos len width m
  some (p + 5 + 4 * width, m)

/-- `fill_uninit` (`src/filluninit.rs` 37-66) as used by the formatters: `cap` bytes behind `buf`, containing `m`, are given to `f`, and as many as it says are
kept.  More than `cap` would be undefined behaviour. -/
def fillUninit (buf : Bytes) (cap : Nat) (m : Vec) (f : Vec → Option (Nat × Vec)) : Option Bytes :=
  match f m with
  | none => none
  | some (n, m) => if n ≤ cap then some (buf ++ m.toBytes n) else none

/-- One slice of `format_segments_binary`, `format_segments_hhh` or `format_segments_ddh` (`src/text/formatter/mod.rs` 18-21, 71-79, 127-135).
`copy_nonoverlapping` of the binary style loads and stores what is asked for. -/
def storeSegment (I : Impl) (style : Style) (offset minWidth : Nat) (stream : Bytes) (m : Vec) (s : Seg) (buf : Bytes) : Option Bytes :=
  if s.pos + s.len > stream.length then none
  else match style with
    | .binary => some (buf ++ s.bytes stream)
    | .hhh => fillUninit buf (reserve (max minWidth s.len)) m (storeHhh I (reserve (max minWidth s.len)) stream s.pos s.len (offset + s.pos) (max s.len minWidth))
    | .ddh => fillUninit buf (reserve (max minWidth s.len)) m (storeDdh I (reserve (max minWidth s.len)) stream s.pos s.len (offset + s.pos) (max s.len minWidth))

/-- `format_segments_binary`, `format_segments_hhh` and `format_segments_ddh` (`src/text/formatter/mod.rs` 14-23, 66-81, 122-137); `m` is what the regions contain
before (the same for all of them, as nothing depends on it). -/
def storeSegments (I : Impl) (style : Style) (offset minWidth : Nat) (stream : Bytes) (m : Vec) : List Seg → Bytes → Option Bytes
  | [], buf => some buf
  | s :: segs, buf => (storeSegment I style offset minWidth stream m s buf).bind (storeSegments I style offset minWidth stream m segs)

end Format
end Nd
