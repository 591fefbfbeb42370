import Verif.Model.Byte
import Verif.Model.SimdFormat
/-!
# Raw memory: the copies of `--zip`, the stores of the array parsers, `fill_uninit`, and the lines kept for error messages

The code copies through raw pointers in `src/byte/zip.rs`, `src/text/parser` and `src/filluninit.rs`, without checks.  Here every load and store is explicit, and one outside of the
memory that it belongs to is `none`, as in `Verif/Model/SimdFormat.lean`.
-/
namespace Nd
open Vec Format

/-- `std::ptr::copy_nonoverlapping` of `n` bytes at `p` of `src` to `d` of a region of `cap` bytes. -/
def copyRaw (src : Bytes) (p n cap d : Nat) (m : Vec) : Option Vec := if p + n ≤ src.length then put cap d n (load src p) m else none

/-! ## `Vec::fill_uninit` -/

/-- The capacity after `fill_uninit` has reserved memory (`src/filluninit.rs` 40-47), at least; `none` if the shift overflows.  `Vec::reserve` makes room for as many more elements as it is
asked for. -/
def growRaw (len cap need : Nat) : Option Nat :=
  if cap < len + need then
    let shift := 64 - clz64 (len + need)
    if max shift 8 < 64 then some (len + (1 <<< max shift 8 - len)) else none
  else some cap

/-! ## `ZipStream` (src/byte/zip.rs) -/

namespace Zipper

/-- The table of `Zipper::new` (`src/byte/zip.rs` 43-61): the width of the unrolled functions, and `none` for `gather_impl_general`. -/
def unrolled : List (Option Nat) :=
  [some 1, some 2, some 3, some 4, some 5, some 6, some 7, some 8, none, none, none, none, none, none, none, some 16, none]

/-- How many bytes the selected function copies at once (`src/byte/zip.rs` 62, 69, 95-103, 110). -/
def stepOf (wordSize : Nat) : Nat := ((unrolled[min (wordSize - 1) 16]?).getD none).getD wordSize

/-- The inner loop of `gather_impl_*` (`src/byte/zip.rs` 26-30, 109-113); a pointer is a slice and a position in it. -/
def storeRow (w cap : Nat) : List (Bytes × Nat) → Nat → Vec → Option (List (Bytes × Nat) × Nat × Vec)
  | [], d, m => some ([], d, m)
  | (s, p) :: ptrs, d, m =>
    match copyRaw s p w cap d m with
    | none => none
    | some m =>
      match storeRow w cap ptrs (d + w) m with
      | none => none
      | some (ptrs, d, m) => some ((s, p + w) :: ptrs, d, m)

/-- The outer loop of `gather_impl_*` (`src/byte/zip.rs` 25, 108). -/
def storeRows (w cap : Nat) : Nat → List (Bytes × Nat) → Nat → Vec → Option Vec
  | 0, _, _, m => some m
  | n + 1, ptrs, d, m =>
    match storeRow w cap ptrs d m with
    | none => none
    | some (ptrs, d, m) => storeRows w cap n ptrs d m

/-- `Zipper::gather` (`src/byte/zip.rs` 20-36, 105-121) into a region of `cap` bytes, with the pointers as set by `fill_buf` (88-91). -/
def storeGather (wordSize : Nat) (slices : List Bytes) (bytesPerSrc cap : Nat) (m : Vec) : Option (Nat × Vec) :=
  match storeRows (stepOf wordSize) cap (bytesPerSrc / stepOf wordSize) (slices.map fun s => (s, 0)) 0 m with
  | none => none
  | some m => some (slices.length * bytesPerSrc, m)

/-- `Zipper.feed` with the copies; `m` is what the region contains before. -/
def feedRaw (S : ByteSrc σ) (B : Nat) (m : Vec) : StreamBuf.Closure (Zipper σ) := fun z _ buf =>
  let request := (B + z.srcs.length - 1) / z.srcs.length
  match fillAll S request z.srcs true usizeMax with
  | .error e => .error e
  | .ok (isEof, len, srcs) =>
    let bytesPerSrc := len / z.wordSize * z.wordSize
    match fillUninit buf (srcs.length * bytesPerSrc) m (storeGather z.wordSize (srcs.map S.slice) bytesPerSrc (srcs.length * bytesPerSrc)) with
    | none => .error .panic
    | some buf =>
      match consumeAll S bytesPerSrc srcs with
      | .error e => .error e
      | .ok srcs => .ok (isEof, buf, { z with srcs := srcs })

end Zipper

/-! ## The array parsers (src/text/parser) -/

/-- A load of `n` bytes at `p` is possible. -/
def Loads (src : Bytes) (p n : Nat) : Bool := decide (p + n ≤ src.length)

/-- `simdChunks` with the loads and stores: `reach` is how many bytes are loaded for a chunk of 48, `multi` gives the 16 bytes stored and how many of them count.  The outer `none` is
a load or store outside of the memory, the inner one an error in the text. -/
def simdStores (src : Bytes) (reach cap : Nat) (find : Nat → Byte → Nat) (multi : Nat → Nat → Option (Vec × Nat)) :
    Nat → Nat → Bool → Nat → Nat → Nat → Vec → Option (Option ((Nat × Nat) × Nat × Vec))
  | 0, _, _, scanned, parsed, k, m => some (some ((scanned, parsed), k, m))
  | n + 1, p, isInTail, scanned, parsed, k, m =>
    if Loads src p reach then
      let scanLen := find p 10
      let scanned := scanned + scanLen
      if isInTail then
        if scanLen < 48 then some (some ((scanned, parsed), k, m))
        else simdStores src reach cap find multi n (p + 48) isInTail scanned parsed k m
      else
        let parseLen := find p 124
        let isInTail := decide (parseLen < 48)
        let parseLen := min parseLen scanLen
        let parsed := parsed + parseLen
        match multi p ((parseLen + 1) / 3) with
        | none => some none
        | some (v, e) =>
          match put cap k 16 v m with
          | none => none
          | some m =>
            if scanLen < 48 then some (some ((scanned, parsed), k + e, m))
            else simdStores src reach cap find multi n (p + 48) isInTail scanned parsed (k + e) m
    else none

/-- `parse_multi` (`src/text/parser/x86_64.rs` 87-131): the register stored and the number returned. -/
def Avx2.multiRaw (x0 x1 x2 x3 : Vec) (elems : Nat) : Option (Vec × Nat) :=
  let x0 := shuffle x0 gather
  let x1 := shuffle x1 gather
  let x2 := shuffle x2 gather
  let x3 := shuffle x3 gather
  let x01l := unpackLo32 x0 x1
  let x23l := unpackLo32 x2 x3
  let l := unpackLo64 x01l x23l
  let h := unpackHi64 x01l x23l
  let x01h := unpackHi32 x0 x1
  let x23h := unpackHi32 x2 x3
  let s := unpackLo64 x01h x23h
  let (xh, vh, sh) := toHex l
  let (xl, vl, sl) := toHex h
  let isSpace := movemask (eq s (splat 32))
  let isSpace := shl64 isSpace 1 ||| 1
  let isNull := sh &&& sl
  let isValid := vh &&& vl
  let mask := 2 ^ 64 - 1 <<< elems
  if ((isValid ||| isNull) &&& isSpace) ||| mask ≠ 0xffffffffffffffff then none
  else some (or xl (sll16 xh 4), ctz64 (isNull ||| mask))

/-- `parse_multi` (`src/text/parser/aarch64.rs` 152-183): the register stored and the number returned. -/
def Neon.multiRaw (x0 x1 x2 : Vec) (elems : Nat) : Option (Vec × Nat) :=
  let (xh, vh, sh) := toHex x0
  let (xl, vl, sl) := toHex x1
  let isSpace := (toMask (eq x2 (splat 32)) >>> 1) ||| 0x8000000000000000
  let isNull := toMask (and sh sl)
  let isValid := toMask (and vh vl)
  let mask := 0xffffffffffffffff >>> elems
  if ((isValid ||| isNull) &&& isSpace) ||| mask ≠ 0xffffffffffffffff then none
  else some (or xl (shl8 xh 4), clz64 (isNull ||| mask))

/-- The array parser on a region of `cap` bytes (`src/text/parser/naive.rs` 38-76, `src/text/parser/x86_64.rs` 133-181, `src/text/parser/aarch64.rs` 185-218).  A chunk of AVX2 takes four loads
of 16 bytes, the last of which is at 36. -/
def Impl.storeBody (I : Impl) (isInTail : Bool) (src : Bytes) (cap : Nat) (m : Vec) : Option (Option ((Nat × Nat) × Nat × Vec)) :=
  match I with
  | .portable =>
    match parseHexBody isInTail src with
    | none => some none
    | some (r, d) =>
      match put cap 0 d.length (const d) m with
      | none => none
      | some m => some (some (r, d.length, m))
  | .avx2 => simdStores src 52 cap (fun p => Avx2.findDelim (load src p) (load src (p + 12)) (load src (p + 24)) (load src (p + 36)))
      (fun p => Avx2.multiRaw (load src p) (load src (p + 12)) (load src (p + 24)) (load src (p + 36))) 4 0 isInTail 0 0 0 m
  | .neon => simdStores src 48 cap (fun p => Neon.findDelim (Neon.loadN 3 src p 0) (Neon.loadN 3 src p 1) (Neon.loadN 3 src p 2))
      (fun p => Neon.multiRaw (Neon.loadN 3 src p 0) (Neon.loadN 3 src p 1) (Neon.loadN 3 src p 2)) 4 0 isInTail 0 0 0 m

/-- `buf.fill_uninit_on_option_with_ret(4 * 16, |arr| (self.parse_body)(is_in_tail, stream, arr))` (`src/text/parser/mod.rs` 401, 420): what is returned and the buffer after it. -/
def Impl.fillBody (I : Impl) (isInTail : Bool) (src : Bytes) (buf : Bytes) (m : Vec) : Option (Option ((Nat × Nat) × Bytes)) :=
  match I.storeBody isInTail src 64 m with
  | none => none
  | some none => some none
  | some (some (r, k, m)) => if k ≤ 64 then some (some (r, buf ++ m.toBytes k)) else none

/-! ## The lines of error messages (src/text/parser/mod.rs) -/

/-- `struct LineCache` (`src/text/parser/mod.rs` 243-247). -/
structure LineCache where
  first : Bytes
  second : Bytes
  curr : Bool
  deriving DecidableEq, Repr

/-- The bytes can be those of a `str`, that is they are the UTF-8 form of some characters. -/
def utf8Valid (l : Bytes) : Bool := decide (ByteArray.IsValidUTF8 ⟨l.toArray⟩)

namespace LineCache

/-- `LineCache::new` (`src/text/parser/mod.rs` 250-255). -/
def new : LineCache := { first := List.replicate 32 10, second := List.replicate 32 10, curr := false }

/-- `LineCache::append` (`src/text/parser/mod.rs` 257-263), which copies 32 bytes whatever the length of `stream` is. -/
def append (c : LineCache) (stream : Bytes) : Option LineCache :=
  if 32 ≤ stream.length then
    some (if c.curr then { c with second := stream.take 32, curr := false } else { c with first := stream.take 32, curr := true })
  else none

/-- `String::pop`: the last character, which is one byte that does not continue another one, and those that continue it. -/
def pop (v : Bytes) : Bytes := ((v.reverse.dropWhile fun c => decide (0x80 ≤ c) && decide (c ≤ 0xbf)).drop 1).reverse

/-- The closure of `LineCache::format` (`src/text/parser/mod.rs` 272-290): what is added to the message (`(none)`, or the line in quotation marks, cut with `...`), `none` if `from_utf8_unchecked` gets something that is not UTF-8. -/
def quote (input : Bytes) : Option Bytes :=
  let len := input.findIdx (· == 10)
  if len = 0 then some [40, 110, 111, 110, 101, 41]
  else if utf8Valid (input.take len) then
    let v := [34] ++ input.take len
    some ((if len = 32 then pop v ++ [46, 46, 46] else v) ++ [34])
  else none

/-- `LineCache::format` (`src/text/parser/mod.rs` 265-301). -/
def format (c : LineCache) (includePrev : Bool) : Option Bytes :=
  let (curr, prev) := if c.curr then (c.first, c.second) else (c.second, c.first)
  if includePrev then do
    let p ← quote prev
    let q ← quote curr
    some (p ++ [32, 97, 110, 100, 32] ++ q)
  else quote curr

end LineCache
end Nd
