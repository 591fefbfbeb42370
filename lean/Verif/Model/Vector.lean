import Verif.Model.Basic
/-!
# Vector registers

The instructions used by the vectorised code (`src/text/parser/x86_64.rs`, `src/text/parser/aarch64.rs`,
`src/text/formatter/hex.rs`), as described in the manuals of the processors.  A register is a function from the
number of a lane to a byte; a 16-byte register has the lanes 0 to 15.  `u64` values are natural numbers below 2^64.
-/
namespace Nd

/-- A vector register of bytes. -/
abbrev Vec := Nat → Byte

namespace Vec

/-- `_mm_loadu_si128`, `vld1q_u8`: lane `i` is the byte at `p + i`.  Bytes behind the end of `mem` are read as zero
(a client of the model has to show that nothing depends on them). -/
def load (mem : Bytes) (p : Nat) : Vec := fun i => mem.getD (p + i) 0

/-- The load of a constant array. -/
def const (l : Bytes) : Vec := fun i => l.getD i 0

/-- `_mm_set1_epi8`, `vdupq_n_u8`. -/
def splat (b : Byte) : Vec := fun _ => b

/-- The lanes `0 .. n`. -/
def toBytes (v : Vec) (n : Nat) : Bytes := (List.range n).map v

/-- `_mm_shuffle_epi8`: an index with its highest bit set gives zero, otherwise the low four bits count. -/
def shuffle (t x : Vec) : Vec := fun i => if x i ≥ 0x80 then 0 else t (x i &&& 0x0f).toNat

/-- `vqtbl1q_u8`: an index of 16 or more gives zero. -/
def tbl (t x : Vec) : Vec := fun i => if x i ≥ 16 then 0 else t (x i).toNat

/-- `vqtbx1q_u8`: an index of 16 or more keeps the lane of `a`. -/
def tbx (a t x : Vec) : Vec := fun i => if x i ≥ 16 then a i else t (x i).toNat

def and (x y : Vec) : Vec := fun i => x i &&& y i
def or (x y : Vec) : Vec := fun i => x i ||| y i

/-- `_mm_andnot_si128`: complements its first operand. -/
def andnot (x y : Vec) : Vec := fun i => ~~~(x i) &&& y i

/-- `vbicq_u8`: complements its second operand. -/
def bic (x y : Vec) : Vec := fun i => x i &&& ~~~(y i)

/-- `vornq_u8`: complements its second operand. -/
def orn (x y : Vec) : Vec := fun i => x i ||| ~~~(y i)

/-- `_mm_add_epi8`, `vaddq_u8`. -/
def add (x y : Vec) : Vec := fun i => x i + y i

/-- `_mm_subs_epu8`, `vqsubq_u8`: subtraction that stops at zero. -/
def subs (x y : Vec) : Vec := fun i => if x i ≤ y i then 0 else x i - y i

/-- The result of a comparison. -/
def flag (b : Bool) : Byte := if b then 0xff else 0

/-- `_mm_cmpgt_epi8`, `vcgtq_s8`: the lanes are signed. -/
def gtS (x y : Vec) : Vec := fun i => flag (decide ((x i).toInt8 > (y i).toInt8))

/-- `vcgeq_u8`: the lanes are unsigned. -/
def geU (x y : Vec) : Vec := fun i => flag (decide (x i ≥ y i))

/-- `_mm_cmpeq_epi8`, `vceqq_u8`. -/
def eq (x y : Vec) : Vec := fun i => flag (decide (x i = y i))

/-- `_mm_blendv_epi8`: the highest bit of `m` selects `y`. -/
def blendv (x y m : Vec) : Vec := fun i => if m i ≥ 0x80 then y i else x i

/-- `vbslq_u8`: the bits of `m` select those of `x`. -/
def bsl (m x y : Vec) : Vec := fun i => (m i &&& x i) ||| (~~~(m i) &&& y i)

/-- The 16-bit lane `j`. -/
def word (x : Vec) (j : Nat) : Nat := (x (2 * j)).toNat + 256 * (x (2 * j + 1)).toNat

/-- The register of the 16-bit lanes `f` (modulo 2^16). -/
def ofWords (f : Nat → Nat) : Vec := fun i => UInt8.ofNat (f (i / 2) >>> (8 * (i % 2)))

/-- `_mm_srli_epi16`, `_mm256_srli_epi16`. -/
def srl16 (x : Vec) (k : Nat) : Vec := ofWords fun j => x.word j >>> k

/-- `_mm_slli_epi16`, `_mm256_slli_epi16`. -/
def sll16 (x : Vec) (k : Nat) : Vec := ofWords fun j => x.word j <<< k

/-- `vshrq_n_u8`. -/
def shr8 (x : Vec) (k : Byte) : Vec := fun i => x i >>> k

/-- `vshlq_n_u8`. -/
def shl8 (x : Vec) (k : Byte) : Vec := fun i => x i <<< k

/-- `_mm_unpacklo_epi8`: the low eight lanes of both, alternating. -/
def unpackLo8 (x y : Vec) : Vec := fun i => if i % 2 = 0 then x (i / 2) else y (i / 2)

/-- `_mm_unpacklo_epi32`: four-byte lanes 0 and 1 of both, alternating. -/
def unpackLo32 (x y : Vec) : Vec := fun i =>
  if i / 4 % 2 = 0 then x (i / 8 * 4 + i % 4) else y (i / 8 * 4 + i % 4)

/-- `_mm_unpackhi_epi32`: four-byte lanes 2 and 3 of both, alternating. -/
def unpackHi32 (x y : Vec) : Vec := fun i =>
  if i / 4 % 2 = 0 then x (8 + i / 8 * 4 + i % 4) else y (8 + i / 8 * 4 + i % 4)

/-- `_mm_unpacklo_epi64`. -/
def unpackLo64 (x y : Vec) : Vec := fun i => if i < 8 then x i else y (i - 8)

/-- `_mm_unpackhi_epi64`. -/
def unpackHi64 (x y : Vec) : Vec := fun i => if i < 8 then x (8 + i) else y i

/-- The number with the bits `p 0`, `p 1`, ... up to `p (n - 1)`. -/
def bits (p : Nat → Bool) : Nat → Nat
  | 0 => 0
  | n + 1 => bits p n + (if p n then 2 ^ n else 0)

/-- `_mm_movemask_epi8`: the highest bits of the 16 lanes. -/
def movemask (x : Vec) : Nat := bits (fun i => decide (x i ≥ 0x80)) 16

/-- The number with the bytes `x 0`, `x 1`, ... up to `x (n - 1)`, least significant byte first. -/
def little (x : Vec) : Nat → Nat
  | 0 => 0
  | n + 1 => little x n + (x n).toNat * 256 ^ n

/-- `_mm_extract_epi64`, `vgetq_lane_u64`: the eight-byte lane `k`. -/
def u64 (x : Vec) (k : Nat) : Nat := little (fun i => x (8 * k + i)) 8

/-- `_mm_cvtsi64x_si128`, and `vsetq_lane_u64(v, vmovq_n_u64(0), 0)`. -/
def ofU64 (v : Nat) : Vec := fun i => if i < 8 then UInt8.ofNat (v >>> (8 * i)) else 0

/-- `vminq_u8`. -/
def min (x y : Vec) : Vec := fun i => if x i ≤ y i then x i else y i

/-- `vminvq_u8`: the smallest lane of 16. -/
def minv (x : Vec) : Byte := (List.range 16).foldl (fun m i => if x i ≤ m then x i else m) 0xff

end Vec

/-- `u64::trailing_zeros`. -/
def ctz64 (x : Nat) : Nat := (List.range 64).findIdx fun i => x.testBit i

/-- `u64::leading_zeros`. -/
def clz64 (x : Nat) : Nat := (List.range 64).findIdx fun i => x.testBit (63 - i)

/-- `u64::swap_bytes`. -/
def swap64 (x : Nat) : Nat := Vec.little (fun i => UInt8.ofNat (x >>> (8 * (7 - i)))) 8

/-- `u64 << k`. -/
def shl64 (x k : Nat) : Nat := x <<< k % 2 ^ 64

/-- `!x` of a `u64`. -/
def not64 (x : Nat) : Nat := 2 ^ 64 - 1 - x

end Nd
