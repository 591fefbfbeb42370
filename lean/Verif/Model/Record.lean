import Verif.Model.StreamBuf
/-!
# Record streams: `GaplessTextStream`, `TextStream` (src/byte/text.rs), `PatchStream` (src/byte/patch.rs)

These are modelled over an abstract source of records; `Verif.Model.Parser` provides the text parser.
-/
namespace Nd

/-- One parsed line: the header's offset and length (`span`) and the bytes of the array. -/
structure Rec where
  offset : Nat
  span : Nat
  data : Bytes
  deriving DecidableEq, Repr

/-- `TextParser::read_line` (`src/text/parser/mod.rs` 471-532) seen from its callers: the next record
(the array is appended to the caller's buffer) or `none` at the end. -/
structure RecSrc (τ : Type u) where
  read : τ → Except Err (Option Rec × τ)

namespace GaplessTextStream

/-- The closure in `GaplessTextStream::fill_buf` (`src/byte/text.rs` 30-32). -/
def feed (P : RecSrc τ) : StreamBuf.Closure τ := fun t _ buf =>
  match P.read t with
  | .error e => .error e
  | .ok (none, t) => .ok (true, buf, t)
  | .ok (some r, t) => .ok (false, buf ++ r.data, t)

/-- `GaplessTextStream::new` (`src/byte/text.rs` 18-26). -/
def new (B : Nat) (src : τ) (align : Nat) (filler : Byte) : Buffered τ :=
  { inner := src, buf := StreamBuf.newWithAlign B align filler }

/-- `impl ByteStream for GaplessTextStream` (`src/byte/text.rs` 29-41). -/
def byteSrc (P : RecSrc τ) (B fuel : Nat) : ByteSrc (Buffered τ) := bufferedSrc B fuel (feed P)

end GaplessTextStream

/-- `struct TextFeeder` (`src/byte/text.rs` 43-48), also `struct PatchFeeder` (`src/byte/patch.rs` 12-17). -/
structure Feeder (τ : Type u) where
  src : τ
  offset : Nat
  span : Nat
  buf : Bytes

/-- `TextFeeder::fill_buf` (`src/byte/text.rs` 63-79), `PatchFeeder::fill_buf` (`src/byte/patch.rs` 29-43);
the `Bool` is "no more record". -/
def Feeder.fill (P : RecSrc τ) (f : Feeder τ) : Except Err (Bool × Feeder τ) :=
  match P.read f.src with
  | .error e => .error e
  | .ok (some r, t) => .ok (false, { src := t, offset := r.offset, span := r.span, buf := r.data })
  | .ok (none, t) => .ok (true, { src := t, offset := usizeMax, span := 0, buf := [] })

/-- A feeder before its first line (`TextFeeder::new`, `src/byte/text.rs` 51-61; `PatchFeeder::new`,
`src/byte/patch.rs` 20-27). -/
def Feeder.new (src : τ) : Feeder τ := { src := src, offset := 0, span := 0, buf := [] }

/-- The fields of `struct TextStream` (`src/byte/text.rs` 82-86) captured by the closure. -/
structure TextState (τ : Type u) where
  line : Feeder τ
  offset : Nat

namespace TextStream

/-- The closure in `TextStream::fill_buf` (`src/byte/text.rs` 105-137).  `next_offset - self.offset`
underflows if the pending record starts before the current offset. -/
def feed (P : RecSrc τ) (B : Nat) (filler : Byte) : StreamBuf.Closure (TextState τ) := fun t _ buf =>
  if t.line.offset = usizeMax then .ok (true, buf, t)
  else
    let nextOffset := min (t.offset + B) t.line.offset
    if nextOffset < t.offset then .error .panic
    else
      let fwdLen := nextOffset - t.offset
      let offset := t.offset + fwdLen
      let buf := resize buf (buf.length + fwdLen) filler
      if fwdLen = B then .ok (false, buf, { t with offset := offset })
      else
        let buf := buf ++ t.line.buf
        let offset := offset + t.line.span
        match t.line.fill P with
        | .error e => .error e
        | .ok (isEof, line) =>
          if !isEof && decide (offset > line.offset) then .error .overlap
          else .ok (isEof, buf, { line := line, offset := offset })

/-- `TextStream::new` (`src/byte/text.rs` 89-99): the first line is read with `unwrap()`. -/
def new (P : RecSrc τ) (B : Nat) (src : τ) (align : Nat) (filler : Byte) : Except Err (Buffered (TextState τ)) :=
  match (Feeder.new src).fill P with
  | .error _ => .error .panic
  | .ok (_, line) => .ok { inner := { line := line, offset := 0 }, buf := StreamBuf.newWithAlign B align filler }

/-- `impl ByteStream for TextStream` (`src/byte/text.rs` 102-147); the filler is a field of the buffer. -/
def byteSrc (P : RecSrc τ) (B fuel : Nat) (filler : Byte) : ByteSrc (Buffered (TextState τ)) :=
  bufferedSrc B fuel (feed P B filler)

end TextStream

/-- The fields of `struct PatchStream` (`src/byte/patch.rs` 62-68) captured by the closure. -/
structure PatchState (σ : Type u) (τ : Type v) where
  src : σ
  patch : Feeder τ
  skip : Nat
  offset : Nat

namespace PatchStream

/-- The skip loop of `PatchStream::fill_buf` (`src/byte/patch.rs` 89-98); the `Bool` is the early
`return Ok(true)`. -/
def skipLoop (S : ByteSrc σ) (B : Nat) : Nat → σ → Nat → Except Err (Bool × σ × Nat)
  | 0, _, _ => .error .diverge
  | fuel + 1, s, skip =>
    if skip > 0 then
      match S.fill s B with
      | .error e => .error e
      | .ok ((isEof, len), s) =>
        if isEof && decide (len = 0) then .ok (true, s, skip)
        else
          let consumeLen := min skip len
          match S.consume s consumeLen with
          | .error e => .error e
          | .ok s => skipLoop S B fuel s (skip - consumeLen)
    else .ok (false, s, skip)

/-- `PatchFeeder::feed` (`src/byte/patch.rs` 45-60): returns the span and what is appended. -/
def feedPatch (P : RecSrc τ) (f : Feeder τ) (offset : Nat) : Except Err (Nat × Bytes × Feeder τ) :=
  match f.fill P with
  | .error e => .error e
  | .ok (_, f') => if offset + f.span > f'.offset then .error .overlap else .ok (f.span, f.buf, f')

/-- The merging loop of `PatchStream::fill_buf` (`src/byte/patch.rs` 104-143) on the lent bytes `stream`
(`rem_len` is its length): returns `is_eof`, what is appended, the feeder, `offset` and `skip`. -/
def mergeLoop (P : RecSrc τ) : Nat → Bytes → Feeder τ → Nat → Nat → Except Err (Bool × Bytes × Feeder τ × Nat × Nat)
  | 0, _, _, _, _ => .error .diverge
  | fuel + 1, stream, f, offset, skip =>
    if stream.length = 0 then .ok (true, [], f, offset, skip)
    else
      let nextOffset := min (offset + stream.length) f.offset
      if nextOffset < offset then .error .panic
      else
        let fwdLen := nextOffset - offset
        let offset := offset + fwdLen
        let fwd := stream.take fwdLen
        let stream := stream.drop fwdLen
        if stream.length = 0 then .ok (false, fwd, f, offset, skip)
        else
          match feedPatch P f offset with
          | .error e => .error e
          | .ok (span, data, f) =>
            if span ≥ stream.length then .ok (false, fwd ++ data, f, offset + span, span - stream.length)
            else
              match mergeLoop P fuel (stream.drop span) f (offset + span) skip with
              | .error e => .error e
              | .ok (isEof, out, r) => .ok (isEof, fwd ++ data ++ out, r)

/-- The closure in `PatchStream::fill_buf` (`src/byte/patch.rs` 88-147). -/
def feed (S : ByteSrc σ) (P : RecSrc τ) (B fuel : Nat) : StreamBuf.Closure (PatchState σ τ) := fun t _ buf =>
  match skipLoop S B fuel t.src t.skip with
  | .error e => .error e
  | .ok (true, s, skip) => .ok (true, buf, { t with src := s, skip := skip })
  | .ok (false, s, skip) =>
    match S.fill s B with
    | .error e => .error e
    | .ok ((_, len), s) =>
      match mergeLoop P fuel ((S.slice s).take len) t.patch t.offset skip with
      | .error e => .error e
      | .ok (isEof, out, f, offset, skip) =>
        match S.consume s len with
        | .error e => .error e
        | .ok s => .ok (isEof, buf ++ out, { src := s, patch := f, skip := skip, offset := offset })

/-- `PatchStream::new` (`src/byte/patch.rs` 71-82): the first record is read with `unwrap()`. -/
def new (P : RecSrc τ) (B : Nat) (src : σ) (patch : τ) : Except Err (Buffered (PatchState σ τ)) :=
  match (Feeder.new patch).fill P with
  | .error _ => .error .panic
  | .ok (_, f) => .ok { inner := { src := src, patch := f, skip := 0, offset := 0 }, buf := StreamBuf.new B }

/-- `impl ByteStream for PatchStream` (`src/byte/patch.rs` 86-158). -/
def byteSrc (S : ByteSrc σ) (P : RecSrc τ) (B fuel : Nat) : ByteSrc (Buffered (PatchState σ τ)) :=
  bufferedSrc B fuel (feed S P B fuel)

end PatchStream
end Nd
