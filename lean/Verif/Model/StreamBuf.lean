import Verif.Model.Basic
/-!
# `StreamBuf` (src/streambuf.rs) and `RawStream` (src/byte/raw.rs)
-/
namespace Nd

/-- `struct StreamBuf` (`src/streambuf.rs` 8-17).  `buf` includes the 256-byte tail margin whenever the
buffer is at rest, exactly as in the code. -/
structure StreamBuf where
  buf : Bytes
  targetLen : Nat
  pos : Nat
  len : Nat
  offset : Nat
  align : Nat
  isEof : Bool
  filler : Byte
  deriving DecidableEq, Repr

/-- `Vec::resize(n, x)`: truncate or extend with copies of `x`. -/
def resize (l : Bytes) (n : Nat) (x : Byte) : Bytes := l.take n ++ List.replicate (n - l.length) x

/-- `usize::next_power_of_two`. -/
def nextPow2 (n : Nat) : Nat := if n ≤ 1 then 1 else 2 ^ (Nat.log2 (n - 1) + 1)

namespace StreamBuf

/-- `StreamBuf::new_with_align` (`src/streambuf.rs` 24-39).  Capacity reservation is not modelled. -/
def newWithAlign (B : Nat) (align : Nat) (filler : Byte) : StreamBuf where
  buf := List.replicate MARGIN 0
  targetLen := B
  pos := 0
  len := 0
  offset := 0
  align := align
  isEof := false
  filler := filler

/-- `StreamBuf::new` (`src/streambuf.rs` 20-22). -/
def new (B : Nat) : StreamBuf := newWithAlign B 1 0

/-- `StreamBuf::len` (`src/streambuf.rs` 45-48). -/
def length (s : StreamBuf) : Nat := s.len - s.pos

/-- `StreamBuf::extend_from_slice` (`src/streambuf.rs` 50-60). -/
def extendFromSlice (s : StreamBuf) (stream : Bytes) : StreamBuf :=
  let buf := s.buf.take s.len ++ stream
  let len := s.len + stream.length
  { s with buf := resize buf (len + MARGIN) 10, len := len }

/-- `StreamBuf::mark_eof` (`src/streambuf.rs` 62-73); `buf` has no margin here. -/
def markEof (s : StreamBuf) : StreamBuf :=
  let tail := s.offset + s.buf.length
  let rounded := (tail + s.align - 1) / s.align * s.align
  { s with isEof := true, buf := resize s.buf (rounded - s.offset) s.filler }

/-- `StreamBuf::clear_eof` (`src/streambuf.rs` 75-77). -/
def clearEof (s : StreamBuf) : StreamBuf := { s with isEof := false }

/-- A closure passed to `StreamBuf::fill_buf`: captured state, request, buffer to append to;
returns `is_eof`, the buffer and the captured state. -/
abbrev Closure (τ : Type u) := τ → Nat → Bytes → Except Err (Bool × Bytes × τ)

/-- The do-while loop of `StreamBuf::fill_buf` (`src/streambuf.rs` 98-113). -/
def fillLoop (f : Closure τ) (target : Nat) : Nat → StreamBuf → τ → Except Err (StreamBuf × τ)
  | 0, _, _ => .error .diverge
  | fuel + 1, s, t =>
    match f t (target - s.buf.length + 1) s.buf with
    | .error e => .error e
    | .ok (isEof, buf, t) =>
      let s := { s with buf := buf }
      if isEof then .ok (s.markEof, t)
      else if s.buf.length ≥ target then .ok (s, t)
      else fillLoop f target fuel s t

/-- `StreamBuf::fill_buf` (`src/streambuf.rs` 79-119).  On error the Rust code leaves the buffer
without its margin and the error is propagated by every caller; the model drops the state. -/
def fillBuf (fuel : Nat) (f : Closure τ) (s : StreamBuf) (t : τ) (request : Nat) :
    Except Err ((Bool × Nat) × StreamBuf × τ) :=
  if s.isEof then .ok ((true, s.len - s.pos), s, t)
  else
    match fillLoop f (max s.targetLen request) fuel { s with buf := s.buf.take s.len } t with
    | .error e => .error e
    | .ok (s, t) =>
      let s := { s with len := s.buf.length, buf := resize s.buf (s.buf.length + MARGIN) 10 }
      .ok ((s.isEof, s.len - s.pos), s, t)

/-- `StreamBuf::as_slice` (`src/streambuf.rs` 121-125). -/
def asSlice (s : StreamBuf) : Bytes := s.buf.drop s.pos

/-- `StreamBuf::consume` (`src/streambuf.rs` 127-161). -/
def consume (B : Nat) (s : StreamBuf) (amount : Nat) : StreamBuf :=
  let s := { s with pos := min (s.pos + amount) s.buf.length }
  if s.isEof then s
  else
    let thresh := min (7 * s.buf.length / 8) (8 * B)
    let s :=
      if s.pos ≥ thresh then
        { s with buf := s.buf.drop s.pos, offset := s.offset + s.pos, len := s.len - s.pos, pos := 0 }
      else s
    if amount = 0 then { s with targetLen := nextPow2 (s.len + (s.len + 1) / 2) }
    else { s with targetLen := max (s.len + 1) B }

end StreamBuf

/-- The shape shared by `RawStream`, `ZipStream`, `CutStream`, `TextStream`, `GaplessTextStream` and
`PatchStream`: a `StreamBuf` together with the remaining fields of the struct, which the closure passed
to `StreamBuf::fill_buf` captures. -/
structure Buffered (τ : Type u) where
  inner : τ
  buf : StreamBuf

/-- `impl ByteStream` of those types: `fill_buf` is `self.buf.fill_buf(request, closure)`, `as_slice`
and `consume` are forwarded to `self.buf` (`src/byte/raw.rs` 27-42, `src/byte/zip.rs` 144-165,
`src/byte/cut.rs` 123-147, `src/byte/text.rs` 29-41 and 102-147, `src/byte/patch.rs` 87-158). -/
def bufferedSrc (B fuel : Nat) (f : StreamBuf.Closure τ) : ByteSrc (Buffered τ) where
  fill s req :=
    match s.buf.fillBuf fuel f s.inner req with
    | .error e => .error e
    | .ok (r, buf, t) => .ok (r, { inner := t, buf := buf })
  slice s := s.buf.asSlice
  consume s k := .ok { s with buf := s.buf.consume B k }

/-- The operating system's side of `Read::read` on one open file: the bytes not yet read and, for the
`i`-th call, how many bytes the call is willing to return (`none`: the call fails with an I/O error). -/
structure Reader where
  data : Bytes
  sched : Nat → Option Nat
  calls : Nat

/-- An open file about to be read from its beginning. -/
def Reader.open (content : Bytes) (sched : Nat → Option Nat) : Reader :=
  { data := content, sched := sched, calls := 0 }

/-- `Read::read(buf)` with a buffer of `cap` bytes: returns between 1 and `cap` bytes unless the file is
at its end, where it returns 0 bytes. -/
def Reader.read (r : Reader) (cap : Nat) : Except Err (Bytes × Reader) :=
  match r.sched r.calls with
  | none => .error .io
  | some k =>
    let n := min (max 1 k) cap
    .ok (r.data.take n, { r with data := r.data.drop n, calls := r.calls + 1 })

namespace RawStream

/-- `RawStream::new` (`src/byte/raw.rs` 18-24); `assert!(align > 0)` is a hypothesis of the theorems. -/
def new (B : Nat) (src : Reader) (align : Nat) (filler : Byte) : Buffered Reader where
  inner := src
  buf := StreamBuf.newWithAlign B align filler

/-- The closure in `RawStream::fill_buf` (`src/byte/raw.rs` 29-32). -/
def feed (B : Nat) : StreamBuf.Closure Reader := fun r _ buf =>
  match r.read B with
  | .error e => .error e
  | .ok (chunk, r) => .ok (chunk.length == 0, buf ++ chunk, r)

/-- `impl ByteStream for RawStream` (`src/byte/raw.rs` 27-42). -/
def byteSrc (B fuel : Nat) : ByteSrc (Buffered Reader) := bufferedSrc B fuel (feed B)

end RawStream
end Nd
