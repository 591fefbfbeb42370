/-!
# Basic vocabulary of the model

Bytes, errors, and the two stream interfaces of `nd`.
-/
namespace Nd

/-- A byte (`u8`). -/
abbrev Byte := UInt8

/-- A byte string (`&[u8]` / `Vec<u8>`). -/
abbrev Bytes := List UInt8

/-- Ways in which a call can end without a value.  `panic` models an abort of the Rust program
(`unwrap`, `assert!`, slice index out of range, arithmetic underflow); `diverge` is returned when a
fuelled loop runs out of fuel, i.e. it models a call that has not (yet) returned. -/
inductive Err where
  | io        -- an error reported by the operating system
  | parse     -- malformed text (header, array, expression, ...)
  | overlap   -- overlapping or unsorted records
  | invalid   -- invalid argument combination
  | panic     -- the program aborts
  | diverge   -- the loop is still running
  deriving DecidableEq, Repr

/-- `BLOCK_SIZE` is a parameter of the model (`src/params.rs` 4-8: 2 MiB in release builds, 145 in
tests); `MARGIN_SIZE` is 256 (`src/params.rs` 10). -/
def MARGIN : Nat := 256

/-- `usize::MAX` on the 64-bit targets nd supports; used by the code as a sentinel. -/
def usizeMax : Nat := 2 ^ 64 - 1

/-- `trait ByteStream` (`src/byte/mod.rs` 36-40).  `fill s request` returns `(is_eof, len)` and the new
state; `slice` is `as_slice`; `consume s amount` advances. `&mut self` becomes state passing. -/
structure ByteSrc (σ : Type u) where
  fill : σ → Nat → Except Err ((Bool × Nat) × σ)
  slice : σ → Bytes
  consume : σ → Nat → Except Err σ

/-- Dynamic dispatch between two kinds of streams (`Box<dyn ByteStream>` holding either). -/
def sumSrc (S : ByteSrc σ) (T : ByteSrc τ) : ByteSrc (σ ⊕ τ) where
  fill
    | .inl s, req =>
      match S.fill s req with
      | .error e => .error e
      | .ok (r, s) => .ok (r, .inl s)
    | .inr t, req =>
      match T.fill t req with
      | .error e => .error e
      | .ok (r, t) => .ok (r, .inr t)
  slice
    | .inl s => S.slice s
    | .inr t => T.slice t
  consume
    | .inl s, k =>
      match S.consume s k with
      | .error e => .error e
      | .ok s => .ok (.inl s)
    | .inr t, k =>
      match T.consume t k with
      | .error e => .error e
      | .ok t => .ok (.inr t)

/-- `struct Segment { pos, len }` (`src/segment/mod.rs` 36-40). -/
structure Seg where
  pos : Nat
  len : Nat
  deriving DecidableEq, Repr

/-- `Segment::tail` (`src/segment/mod.rs` 43-45). -/
def Seg.tail (s : Seg) : Nat := s.pos + s.len

/-- `trait SegmentStream` (`src/segment/mod.rs` 62-73).  `fill` returns
`(is_eof, bytes, count, max_consume)`; `slices` is `as_slices`; `consume` returns `(bytes, count)`. -/
structure SegSrc (σ : Type u) where
  fill : σ → Except Err ((Bool × Nat × Nat × Nat) × σ)
  slices : σ → Bytes × List Seg
  consume : σ → Nat → Except Err ((Nat × Nat) × σ)

/-- The bytes a segment denotes in a byte string. -/
def Seg.bytes (s : Seg) (b : Bytes) : Bytes := (b.drop s.pos).take s.len

end Nd
