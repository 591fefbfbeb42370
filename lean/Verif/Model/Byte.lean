import Verif.Model.StreamBuf
/-!
# Byte streams: `ZeroStream`, `CatStream`, `ZipStream`, `ClipStream`, `consume_stream`
-/
namespace Nd

/-! ## `ZeroStream` (src/byte/zero.rs) -/

/-- `struct ZeroStream` (`src/byte/zero.rs` 9-15); `buf` always consists of filler bytes and is kept only
by its length. -/
structure ZeroStream where
  offset : Nat
  len : Nat
  nextLen : Nat
  bufLen : Nat
  filler : Byte

namespace ZeroStream

/-- `ZeroStream::new` (`src/byte/zero.rs` 18-29). -/
def new (B len : Nat) (filler : Byte) : ZeroStream :=
  { offset := 0, len := len, nextLen := min len B, bufLen := B + MARGIN, filler := filler }

/-- `impl ByteStream for ZeroStream` (`src/byte/zero.rs` 32-61).  Slicing beyond the buffer and the
`assert!` in `consume` are panics. -/
def byteSrc (B : Nat) : ByteSrc ZeroStream where
  fill s _ :=
    if s.offset ≥ s.len then .ok ((true, 0), { s with nextLen := 0 })
    else
      .ok ((decide (s.len ≤ s.offset + s.nextLen), s.nextLen), { s with bufLen := s.nextLen + MARGIN })
  slice s := (List.replicate s.bufLen s.filler).take (s.nextLen + MARGIN)
  consume s amount :=
    if amount > s.nextLen then .error .panic
    else if amount = 0 then .ok { s with nextLen := min (s.len - s.offset) (2 * s.nextLen) }
    else .ok { s with offset := s.offset + amount, nextLen := min (s.len - (s.offset + amount)) B }

end ZeroStream

/-! ## `CatStream` (src/byte/cat.rs) -/

/-- `struct CatStream` (`src/byte/cat.rs` 9-23).  The vector `srcs` with the index `i` is kept as the list
of the sources from `i` on: earlier sources are never touched again. `i >= srcs.len()` is `srcs = []`. -/
structure CatStream (σ : Type u) where
  srcs : List σ
  dup : Nat
  cache : StreamBuf

namespace CatStream

/-- `CatStream::new` (`src/byte/cat.rs` 26-33). -/
def new (B : Nat) (srcs : List σ) : CatStream σ := { srcs := srcs, dup := 0, cache := StreamBuf.new B }

/-- The state captured by the closure in `accumulate_into_cache`: the sources, `dup` and `is_eof`. -/
abbrev Captured (σ : Type u) := List σ × Nat × Bool

/-- The closure in `CatStream::accumulate_into_cache` (`src/byte/cat.rs` 43-63). -/
def feed (S : ByteSrc σ) : StreamBuf.Closure (Captured σ) := fun (srcs, dup, isEof) request buf =>
  match srcs with
  | [] => .error .panic
  | s :: rest =>
    -- consume the last stream
    match S.consume s dup with
    | .error e => .error e
    | .ok s =>
      match (if isEof then rest else s :: rest) with
      | [] => .ok (true, buf, ([], 0, isEof))
      | s :: rest =>
        match S.fill s request with
        | .error e => .error e
        | .ok ((isEofNext, bytes), s) =>
          .ok (false, buf ++ (S.slice s).take bytes, (s :: rest, bytes, isEofNext))

/-- `CatStream::accumulate_into_cache` (`src/byte/cat.rs` 35-64). -/
def accumulateIntoCache (S : ByteSrc σ) (fuel : Nat) (c : CatStream σ) (isEof : Bool) (bytes request : Nat) :
    Except Err ((Bool × Nat) × CatStream σ) :=
  match c.srcs with
  | [] => .error .panic
  | s :: _ =>
    -- `&stream[self.dup..bytes]` panics if `dup > bytes`
    if c.dup > bytes then .error .panic
    else
      let cache := c.cache.extendFromSlice (((S.slice s).take bytes).drop c.dup)
      match cache.fillBuf fuel (feed S) (c.srcs, bytes, isEof) request with
      | .error e => .error e
      | .ok (r, cache, (srcs, dup, _)) => .ok (r, { srcs := srcs, dup := dup, cache := cache })

/-- `impl ByteStream for CatStream` (`src/byte/cat.rs` 67-136). -/
def byteSrc (S : ByteSrc σ) (B fuel : Nat) : ByteSrc (CatStream σ) where
  fill c request :=
    match c.srcs with
    | [] => .ok ((true, c.cache.length), c)
    | s :: rest =>
      let request := max 1 (request - c.cache.length)
      match S.fill s request with
      | .error e => .error e
      | .ok ((isEof, bytes), s) =>
        let c := { c with srcs := s :: rest }
        if isEof || decide (c.cache.length > 0) then accumulateIntoCache S fuel c isEof bytes request
        else .ok ((isEof, bytes), { c with dup := 0 })
  slice c :=
    match c.srcs with
    | [] => c.cache.asSlice
    | s :: _ => if c.cache.length = 0 then S.slice s else c.cache.asSlice
  consume c amount :=
    match c.srcs with
    | [] => .ok { c with cache := c.cache.consume B amount }
    | s :: rest =>
      if c.cache.length = 0 then
        match S.consume s amount with
        | .error e => .error e
        | .ok s => .ok { c with srcs := s :: rest }
      else if amount < c.cache.length - c.dup then .ok { c with cache := c.cache.consume B amount }
      else
        match S.consume s (amount - (c.cache.length - c.dup)) with
        | .error e => .error e
        | .ok s => .ok { srcs := s :: rest, dup := 0, cache := c.cache.consume B c.cache.length }

end CatStream

/-! ## `ZipStream` (src/byte/zip.rs) -/

/-- `struct Zipper` (`src/byte/zip.rs` 11-16); the pointer cache and the choice of the unrolled gather
routine are in `Verif/Model/Memory.lean`. -/
structure Zipper (σ : Type u) where
  srcs : List σ
  wordSize : Nat

namespace Zipper

/-- The loop of `Zipper::fill_buf` (`src/byte/zip.rs` 77-83). -/
def fillAll (S : ByteSrc σ) (request : Nat) : List σ → Bool → Nat → Except Err (Bool × Nat × List σ)
  | [], isEof, len => .ok (isEof, len, [])
  | s :: rest, isEof, len =>
    match S.fill s request with
    | .error e => .error e
    | .ok ((x, y), s) =>
      match fillAll S request rest (isEof && x) (min len y) with
      | .error e => .error e
      | .ok (isEof, len, rest) => .ok (isEof, len, s :: rest)

/-- `gather_impl_*` (`src/byte/zip.rs` 20-36, 105-117): `n` rounds copying one word from every source and
advancing its pointer. -/
def gather (w : Nat) : Nat → List Bytes → Bytes
  | 0, _ => []
  | n + 1, ptrs => (ptrs.map (List.take w)).flatten ++ gather w n (ptrs.map (List.drop w))

/-- `Zipper::consume` (`src/byte/zip.rs` 123-127). -/
def consumeAll (S : ByteSrc σ) (k : Nat) : List σ → Except Err (List σ)
  | [] => .ok []
  | s :: rest =>
    match S.consume s k with
    | .error e => .error e
    | .ok s =>
      match consumeAll S k rest with
      | .error e => .error e
      | .ok rest => .ok (s :: rest)

/-- The closure in `ZipStream::fill_buf` (`src/byte/zip.rs` 146-155) with `Zipper::fill_buf` (73-93) and
`Zipper::gather` (119-121) inlined. -/
def feed (S : ByteSrc σ) (B : Nat) : StreamBuf.Closure (Zipper σ) := fun z _ buf =>
  let request := (B + z.srcs.length - 1) / z.srcs.length
  match fillAll S request z.srcs true usizeMax with
  | .error e => .error e
  | .ok (isEof, len, srcs) =>
    let bytesPerSrc := len / z.wordSize * z.wordSize
    let out := gather z.wordSize (bytesPerSrc / z.wordSize) (srcs.map S.slice)
    match consumeAll S bytesPerSrc srcs with
    | .error e => .error e
    | .ok srcs => .ok (isEof, buf ++ out, { z with srcs := srcs })

end Zipper

/-- `ZipStream::new` (`src/byte/zip.rs` 136-141). -/
def ZipStream.new (B : Nat) (srcs : List σ) (wordSize : Nat) : Buffered (Zipper σ) :=
  { inner := { srcs := srcs, wordSize := wordSize }, buf := StreamBuf.new B }

/-- `impl ByteStream for ZipStream` (`src/byte/zip.rs` 144-165). -/
def ZipStream.byteSrc (S : ByteSrc σ) (B fuel : Nat) : ByteSrc (Buffered (Zipper σ)) :=
  bufferedSrc B fuel (Zipper.feed S B)

/-! ## `ClipStream` (src/byte/clip.rs) -/

/-- `struct ClipperParams` (`src/byte/clip.rs` 11-39). -/
structure ClipperParams where
  pad : Nat × Nat
  clip : Nat × Nat
  len : Nat
  deriving DecidableEq, Repr

/-- `ClipperParams::from_raw` (`src/byte/clip.rs` 72-105); a range is `(start, end)`, its length is
`end - start` (0 if negative). The two `assert!`s are panics. -/
def ClipperParams.fromRaw (pad : Option (Nat × Nat)) (seek : Option Nat) (range : Option (Nat × Nat)) :
    Except Err ClipperParams :=
  let pad := pad.getD (0, 0)
  let seek := seek.getD 0
  let range := range.getD (0, usizeMax)
  let rangeLen := range.2 - range.1
  let headPad := pad.1
  let tailPad := pad.2
  let seek := seek + range.1
  let hh := if seek > headPad then (0, seek - headPad) else (headPad - seek, 0)
  let headPad := hh.1
  let headClip := hh.2
  let hl :=
    if headPad > rangeLen then (rangeLen, 0)
    else if rangeLen ≠ usizeMax then (headPad, rangeLen - headPad)
    else (headPad, usizeMax)
  let headPad := hl.1
  let len := hl.2
  if ¬ (headPad = 0 ∨ headClip = 0) then .error .panic
  else if ¬ (tailPad = 0 ∨ len = usizeMax) then .error .panic
  else .ok { pad := (headPad, tailPad), clip := (headClip, 0), len := len }

/-- `struct ClipStream` (`src/byte/clip.rs` 145-150). -/
structure ClipStream (σ : Type u) where
  src : σ
  skip : Nat
  rem : Nat
  strip : Nat

namespace ClipStream

/-- The padded source built by `ClipStream::new` (`src/byte/clip.rs` 155-164): the source itself or a
`CatStream` with `ZeroStream`s around it. -/
abbrev Padded (σ : Type u) := σ ⊕ CatStream (ZeroStream ⊕ σ)

def pad (B : Nat) (src : σ) (params : ClipperParams) (filler : Byte) : Padded σ :=
  match params.pad with
  | (0, 0) => .inl src
  | (0, t + 1) => .inr (CatStream.new B [.inr src, .inl (ZeroStream.new B (t + 1) filler)])
  | (h + 1, 0) => .inr (CatStream.new B [.inl (ZeroStream.new B (h + 1) filler), .inr src])
  | (h + 1, t + 1) =>
    .inr (CatStream.new B [.inl (ZeroStream.new B (h + 1) filler), .inr src, .inl (ZeroStream.new B (t + 1) filler)])

def paddedSrc (S : ByteSrc σ) (B fuel : Nat) : ByteSrc (Padded σ) :=
  sumSrc S (CatStream.byteSrc (sumSrc (ZeroStream.byteSrc B) S) B fuel)

/-- `ClipStream::new` (`src/byte/clip.rs` 153-172). -/
def new (B : Nat) (src : σ) (params : ClipperParams) (filler : Byte) : ClipStream (Padded σ) :=
  { src := pad B src params filler, skip := params.clip.1, rem := params.len, strip := params.clip.2 }

/-- The skip loop of `ClipStream::fill_buf` (`src/byte/clip.rs` 178-187); `none` means the early
`return Ok((true, 0))`. -/
def skipLoop (S : ByteSrc σ) (B : Nat) : Nat → ClipStream σ → Except Err (Bool × ClipStream σ)
  | 0, _ => .error .diverge
  | fuel + 1, c =>
    if c.skip > 0 then
      match S.fill c.src B with
      | .error e => .error e
      | .ok ((isEof, bytes), s) =>
        let consumeLen := min c.skip bytes
        match S.consume s consumeLen with
        | .error e => .error e
        | .ok s =>
          let c := { c with src := s, skip := c.skip - consumeLen }
          if isEof && decide (consumeLen = bytes) then .ok (true, c) else skipLoop S B fuel c
    else .ok (false, c)

/-- `impl ByteStream for ClipStream` (`src/byte/clip.rs` 175-221). `self.rem -= amount` would underflow
if more than `rem` were consumed. -/
def byteSrc (S : ByteSrc σ) (B fuel : Nat) : ByteSrc (ClipStream σ) where
  fill c request :=
    match skipLoop S B fuel c with
    | .error e => .error e
    | .ok (true, c) => .ok ((true, 0), c)
    | .ok (false, c) =>
      let request := min c.rem request + c.strip + 1
      match S.fill c.src request with
      | .error e => .error e
      | .ok ((isEof, bytes), s) =>
        let bytes := min c.rem (bytes - c.strip)
        .ok ((isEof || decide (bytes = c.rem), bytes), { c with src := s })
  slice c := S.slice c.src
  consume c amount :=
    if amount > c.rem then .error .panic
    else
      match S.consume c.src amount with
      | .error e => .error e
      | .ok s => .ok { c with src := s, rem := c.rem - amount }

end ClipStream

/-! ## `consume_stream` (src/main.rs) -/

/-- `consume_stream` (`src/main.rs` 219-236): the final copy loop. Returns what was written to the
drain, together with the outcome; the write itself is assumed to succeed. -/
def consumeStream (S : ByteSrc σ) (B : Nat) : Nat → σ → Bytes × Option Err
  | 0, _ => ([], some .diverge)
  | fuel + 1, s =>
    match S.fill s B with
    | .error e => ([], some e)
    | .ok ((isEof, bytes), s) =>
      if isEof && decide (bytes = 0) then ([], none)
      else
        let out := (S.slice s).take bytes
        match S.consume s bytes with
        | .error e => (out, some e)
        | .ok s =>
          let r := consumeStream S B fuel s
          (out ++ r.1, r.2)

end Nd
