import Verif.Model.Vector
/-!
# The vectorised text parsers (src/text/parser/x86_64.rs, src/text/parser/aarch64.rs)

One of them is compiled in if the build enables AVX2 or NEON (`src/text/parser/mod.rs` 5-15).
-/
namespace Nd
open Vec

/-- The tables of `to_hex` (`src/text/parser/x86_64.rs` 14-26, `src/text/parser/aarch64.rs` 80-92), indexed by the
high four bits of a character. -/
def hexLb : Vec := .const [0x0a, 0, 0x20, 0x30, 0x41, 0, 0x61, 0, 0, 0, 0, 0, 0, 0, 0, 0]
def hexUb : Vec := .const [0x0a, 0, 0x20, 0x3a, 0x47, 0, 0x67, 0, 0, 0, 0, 0, 0, 0, 0, 0]
def hexSp : Vec := .const [0x0b, 0, 0x21, 0x3b, 0x47, 0, 0x67, 0, 0, 0, 0, 0, 0, 0, 0, 0]
def hexBase : Vec := .const [0xff, 0xff, 0xff, 0x30, 0x37, 0xff, 0x57, 0xff, 0xff, 0xff, 0xff, 0xff, 0xff, 0xff, 0xff, 0xff]

/-- A window is read in four chunks (`src/text/parser/x86_64.rs` 153-178, `src/text/parser/aarch64.rs` 193-215; the two
loops are the same).  `find p c` is the position of `c` in the chunk of 48 bytes at `p`, `multi p n` the elements of the
first `n` columns of this chunk.  `dst[n_elems..]` always has room for the 16 bytes stored by `multi`, since `n_elems`
grows by at most 16 in each of four rounds and `dst` has 64 bytes; of these only the counted ones are kept. -/
def simdChunks (find : Nat → Byte → Nat) (multi : Nat → Nat → Option Bytes) :
    Nat → Nat → Bool → Nat → Nat → Bytes → Option ((Nat × Nat) × Bytes)
  | 0, _, _, scanned, parsed, d => some ((scanned, parsed), d)
  | n + 1, p, isInTail, scanned, parsed, d =>
    let scanLen := find p 10
    let scanned := scanned + scanLen
    if isInTail then
      if scanLen < 48 then some ((scanned, parsed), d)
      else simdChunks find multi n (p + 48) isInTail scanned parsed d
    else
      let parseLen := find p 124
      let isInTail := decide (parseLen < 48)
      let parseLen := min parseLen scanLen
      let parsed := parsed + parseLen
      match multi p ((parseLen + 1) / 3) with
      | none => none
      | some e =>
        if scanLen < 48 then some ((scanned, parsed), d ++ e)
        else simdChunks find multi n (p + 48) isInTail scanned parsed (d ++ e)

namespace Avx2

/-- `to_hex` (`src/text/parser/x86_64.rs` 7-49). -/
def toHex (x : Vec) : Vec × Nat × Nat :=
  let h := and (srl16 x 4) (splat 0x0f)
  let lb := shuffle hexLb h
  let ub := shuffle hexUb h
  let sp := shuffle hexSp h
  let base := shuffle hexBase h
  let l := gtS lb x
  let u := gtS ub x
  let s := gtS sp x
  (subs x base, movemask (andnot l u), movemask (andnot u s))

/-- `parse_hex_single_impl` (`src/text/parser/x86_64.rs` 51-80). -/
def parseSingleImpl (x : Vec) : Option (Nat × Nat) :=
  let (x, isValid, isSpace) := toHex x
  if isSpace = 0 then none
  else
    let bytes := ctz64 isSpace
    if bytes = 0 then some (0, 0)
    else
      let x := shuffle x (.const [14, 12, 10, 8, 6, 4, 2, 0, 15, 13, 11, 9, 7, 5, 3, 1])
      let l := x.u64 0
      let h := x.u64 1
      let shift := 64 - 4 * bytes
      let hex := (shl64 l 4 ||| h) >>> shift
      let mask := 1 <<< bytes - 1
      if isValid &&& mask ≠ mask then none else some (hex, bytes)

/-- `parse_hex_single_avx2` (`src/text/parser/x86_64.rs` 82-85). -/
def parseSingle (src : Bytes) : Option (Nat × Nat) := parseSingleImpl (load src 0)

/-- The register `index_0` (`src/text/parser/x86_64.rs` 91). -/
def gather : Vec := .const [0, 3, 6, 9, 1, 4, 7, 10, 2, 5, 8, 11, 0x80, 0x80, 0x80, 0x80]

/-- `parse_multi` (`src/text/parser/x86_64.rs` 87-131): the elements that are counted. -/
def parseMulti (x0 x1 x2 x3 : Vec) (elems : Nat) : Option Bytes :=
  let x0 := shuffle x0 gather
  let x1 := shuffle x1 gather
  let x2 := shuffle x2 gather
  let x3 := shuffle x3 gather
  let x01l := unpackLo32 x0 x1
  let x23l := unpackLo32 x2 x3
  let l := unpackLo64 x01l x23l
  let h := unpackHi64 x01l x23l
  let x01h := unpackHi32 x0 x1
  let x23h := unpackHi32 x2 x3
  let s := unpackLo64 x01h x23h
  let (xh, vh, sh) := toHex l
  let (xl, vl, sl) := toHex h
  let isSpace := movemask (eq s (splat 32))
  let isSpace := shl64 isSpace 1 ||| 1
  let isNull := sh &&& sl
  let isValid := vh &&& vl
  let mask := 2 ^ 64 - 1 <<< elems
  if ((isValid ||| isNull) &&& isSpace) ||| mask ≠ 0xffffffffffffffff then none
  else
    let hex := or xl (sll16 xh 4)
    some (hex.toBytes (ctz64 (isNull ||| mask)))

/-- `find_delim` (`src/text/parser/x86_64.rs` 142-151). -/
def findDelim (x0 x1 x2 x3 : Vec) (delim : Byte) : Nat :=
  let x0 := movemask (eq x0 (splat delim))
  let x1 := movemask (eq x1 (splat delim))
  let x2 := movemask (eq x2 (splat delim))
  let x3 := movemask (eq x3 (splat delim))
  ctz64 (shl64 (shl64 x3 12 ||| x2) 24 ||| shl64 x1 12 ||| x0 ||| 1 <<< 48)

/-- `parse_hex_body_avx2` (`src/text/parser/x86_64.rs` 133-181). -/
def parseBody (isInTail : Bool) (src : Bytes) : Option ((Nat × Nat) × Bytes) :=
  simdChunks (fun p => findDelim (load src p) (load src (p + 12)) (load src (p + 24)) (load src (p + 36)))
    (fun p => parseMulti (load src p) (load src (p + 12)) (load src (p + 24)) (load src (p + 36))) 4 0 isInTail 0 0 []

end Avx2

namespace Neon

/-- `ld2` and `ld3` (`src/text/parser/aarch64.rs` 7-31): register `k` of `n` gets every `n`-th byte. -/
def loadN (n : Nat) (mem : Bytes) (p k : Nat) : Vec := fun i => mem.getD (p + n * i + k) 0

/-- `find_delim_ld3q(x, delim).unwrap_or(48)` (`src/text/parser/aarch64.rs` 33-54, 195, 205). -/
def findDelim (x0 x1 x2 : Vec) (delim : Byte) : Nat :=
  let index : Vec := .const [0, 3, 6, 9, 12, 15, 18, 21, 24, 27, 30, 33, 36, 39, 42, 45]
  let inc := splat 1
  let x0 := eq (splat delim) x0
  let x1 := eq (splat delim) x1
  let x2 := eq (splat delim) x2
  let x0 := orn index x0
  let x1 := orn (add index inc) x1
  let x2 := orn (add (add index inc) inc) x2
  let x := minv (Vec.min (Vec.min x0 x1) x2)
  if x = 255 then 48 else x.toNat

/-- `to_hex` (`src/text/parser/aarch64.rs` 73-111). -/
def toHex (x : Vec) : Vec × Vec × Vec :=
  let h := shr8 x 4
  let lb := tbl hexLb h
  let ub := tbl hexUb h
  let sp := tbl hexSp h
  let base := tbl hexBase h
  let l := geU x lb
  let u := geU x ub
  let s := geU x sp
  (subs x base, bic l u, bic u s)

/-- `parse_hex_single_impl` (`src/text/parser/aarch64.rs` 113-145). -/
def parseSingleImpl (x0 x1 : Vec) : Option (Nat × Nat) :=
  let (x0, v0, s0) := toHex x0
  let (x1, v1, s1) := toHex x1
  let x0 := x0.u64 0
  let x1 := x1.u64 0
  let v0 := v0.u64 0 &&& 0x0101010101010101
  let v1 := v1.u64 0 &&& 0x0101010101010101
  let s0 := s0.u64 0 &&& 0x0101010101010101
  let s1 := s1.u64 0 &&& 0x0101010101010101
  let delimMask := shl64 s1 4 ||| s0
  if delimMask = 0 then none
  else
    -- `& !0x03`
    let firstDelimIndex := ctz64 delimMask / 4 * 4
    if firstDelimIndex = 0 then some (0, 0)
    else
      let bytes := firstDelimIndex >>> 2
      let shift := 64 - firstDelimIndex
      let hex := swap64 (shl64 x0 4 ||| x1) >>> shift
      let isValid := shl64 (shl64 v1 4 ||| v0) shift
      if isValid ≠ shl64 0x1111111111111111 shift then none else some (hex, bytes)

/-- `parse_hex_single_neon` (`src/text/parser/aarch64.rs` 147-150). -/
def parseSingle (src : Bytes) : Option (Nat × Nat) := parseSingleImpl (loadN 2 src 0 0) (loadN 2 src 0 1)

/-- The closure `to_mask` (`src/text/parser/aarch64.rs` 158-165). -/
def toMask (x : Vec) : Nat :=
  let l := x.u64 0
  let h := x.u64 1
  let l := ((l &&& 0x0102040810204080) * 0x0101010101010101) % 2 ^ 64 &&& 0xff00000000000000
  let h := ((h &&& 0x0102040810204080) * 0x0101010101010101) % 2 ^ 64 &&& 0xff00000000000000
  (h >>> 8) ||| l

/-- `parse_multi` (`src/text/parser/aarch64.rs` 152-183): the elements that are counted. -/
def parseMulti (x0 x1 x2 : Vec) (elems : Nat) : Option Bytes :=
  let (xh, vh, sh) := toHex x0
  let (xl, vl, sl) := toHex x1
  let isSpace := (toMask (eq x2 (splat 32)) >>> 1) ||| 0x8000000000000000
  let isNull := toMask (and sh sl)
  let isValid := toMask (and vh vl)
  let mask := 0xffffffffffffffff >>> elems
  if ((isValid ||| isNull) &&& isSpace) ||| mask ≠ 0xffffffffffffffff then none
  else some ((or xl (shl8 xh 4)).toBytes (clz64 (isNull ||| mask)))

/-- `parse_hex_body_neon` (`src/text/parser/aarch64.rs` 185-218). -/
def parseBody (isInTail : Bool) (src : Bytes) : Option ((Nat × Nat) × Bytes) :=
  simdChunks (fun p => findDelim (loadN 3 src p 0) (loadN 3 src p 1) (loadN 3 src p 2))
    (fun p => parseMulti (loadN 3 src p 0) (loadN 3 src p 1) (loadN 3 src p 2)) 4 0 isInTail 0 0 []

end Neon
end Nd
