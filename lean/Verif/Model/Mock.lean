import Verif.Model.Basic
/-!
# `MockSource`, the stream that the unit tests of the program read from (src/byte/mock.rs)

It is compiled for the tests only, so its `debug_assert!`s are part of it.
-/
namespace Nd

/-- `struct MockSource` (`src/byte/mock.rs` 12-21).  The generator of random numbers is the number of draws so far; what it draws is a parameter. -/
structure MockSource where
  v : Bytes
  len : Nat
  offset : Nat
  chunkLen : Nat
  draws : Nat

namespace MockSource

/-- `MockSource::new` (`src/byte/mock.rs` 24-35). -/
def new (pattern : Bytes) : MockSource := { v := pattern ++ List.replicate MARGIN 10, len := pattern.length, offset := 0, chunkLen := 0, draws := 0 }

/-- `MockSource::gen_len` (`src/byte/mock.rs` 37-48).  `draw i` is the `i`-th random number, `gen_range` maps it into its range. -/
def genLen (B : Nat) (draw : Nat → Nat) (s : MockSource) (request : Nat) : Except Err ((Bool × Nat) × MockSource) :=
  if s.len < s.offset + s.chunkLen then .error .panic
  else if request = 0 then .error .panic
  else
    let clip := s.len - (s.offset + s.chunkLen)
    let rand := request + draw s.draws % (max request (2 * B) - request + 1)
    let chunk := s.chunkLen + min rand clip
    .ok ((decide (s.len = s.offset + chunk), chunk), { s with chunkLen := chunk, draws := s.draws + 1 })

/-- `impl ByteStream for MockSource` (`src/byte/mock.rs` 71-89). -/
def byteSrc (B : Nat) (draw : Nat → Nat) : ByteSrc MockSource where
  fill s request := if s.len ≤ s.offset then .ok ((true, 0), s) else s.genLen B draw request
  slice s := (s.v.drop s.offset).take (s.chunkLen + MARGIN)
  consume s amount := if amount ≤ s.chunkLen then .ok { s with offset := s.offset + amount, chunkLen := s.chunkLen - amount } else .error .panic

/-- `impl Read for MockSource` (`src/byte/mock.rs` 51-69): the bytes that are copied into a buffer of `room` bytes. -/
def read (B : Nat) (draw : Nat → Nat) (s : MockSource) (room : Nat) : Except Err (Bytes × MockSource) :=
  if s.len ≤ s.offset then .ok ([], s)
  else
    match { s with chunkLen := 0 }.genLen B draw 1 with
    | .error e => .error e
    | .ok ((_, len), s) =>
      let src := (s.v.drop s.offset).take (s.len - s.offset)
      let len := min (min len room) src.length
      .ok (src.take len, { s with offset := s.offset + len })

end MockSource
end Nd
