import Verif.Model.Scatter
import Verif.Model.Record
/-!
# `--patch-back`: `TeeStream` (src/byte/tee.rs) and `PatchDrain` (src/drain/patch.rs)

Two threads share the temporary file of `TeeStream`.  The spawned thread slices the stream and writes the slices to the standard input of the
command; what it consumes of the stream is appended to the temporary file.  The main thread patches what it reads from the temporary file with the
records that the command prints.
-/
namespace Nd

/-- `struct TempFile` (`src/byte/tee.rs` 13-16): the flag, the contents of the file and its only file position, which both threads move. -/
structure TempFile where
  clearEof : Bool
  data : Bytes
  cursor : Nat
  deriving DecidableEq, Repr

namespace TempFile

/-- A new file (`src/byte/tee.rs` 31-34). -/
def new : TempFile := { clearEof := false, data := [], cursor := 0 }

/-- `cache.file.write_all(..); cache.clear_eof = true` (`src/byte/tee.rs` 66-67), which writes at the current position. -/
def write (c : TempFile) (bs : Bytes) : TempFile :=
  { clearEof := true, data := ScatterContext.writeAt c.data c.cursor bs, cursor := c.cursor + bs.length }

end TempFile

/-- `struct TeeStream` (`src/byte/tee.rs` 18-21); the shared file is a field. -/
structure TeeStream (σ : Type u) where
  src : σ
  cache : TempFile

namespace TeeStream

/-- `TeeStream::new` (`src/byte/tee.rs` 30-40). -/
def new (src : σ) : TeeStream σ := { src := src, cache := TempFile.new }

/-- `impl ByteStream for TeeStream` (`src/byte/tee.rs` 51-74).  Errors of `write_all` are not modelled. -/
def byteSrc (S : ByteSrc σ) : ByteSrc (TeeStream σ) where
  fill t req :=
    match S.fill t.src req with
    | .error e => .error e
    | .ok (r, src) => .ok (r, { t with src := src })
  slice t := S.slice t.src
  consume t k :=
    if (S.slice t.src).length < k then .error .panic
    else
      match S.consume t.src k with
      | .error e => .error e
      | .ok src => .ok { src := src, cache := t.cache.write ((S.slice t.src).take k) }

end TeeStream

/-- The fields of `struct TeeStreamReader` (`src/byte/tee.rs` 23-27) captured by the closure; `sched` and `calls` describe what `read()` returns, as in `Reader`. -/
structure TeeState where
  cache : TempFile
  offset : Nat
  sched : Nat → Option Nat
  calls : Nat

namespace TeeReader

/-- `TeeStream::spawn_reader` (`src/byte/tee.rs` 42-48). -/
def new (B : Nat) (cache : TempFile) (sched : Nat → Option Nat) : Buffered TeeState :=
  { inner := { cache := cache, offset := 0, sched := sched, calls := 0 }, buf := StreamBuf.new B }

/-- The closure in `TeeStreamReader::fill_buf` (`src/byte/tee.rs` 84-91). -/
def feed (B : Nat) : StreamBuf.Closure TeeState := fun t _ buf =>
  match (Reader.mk (t.cache.data.drop t.offset) t.sched t.calls).read B with
  | .error e => .error e
  | .ok (chunk, r) =>
    .ok (chunk.length == 0, buf ++ chunk,
      { t with cache := { t.cache with cursor := t.offset + chunk.length }, offset := t.offset + chunk.length, calls := r.calls })

/-- The flag is examined first (`src/byte/tee.rs` 80-83). -/
def examine (s : Buffered TeeState) : Buffered TeeState :=
  if s.inner.cache.clearEof then { inner := { s.inner with cache := { s.inner.cache with clearEof := false } }, buf := s.buf.clearEof } else s

/-- `impl ByteStream for TeeStreamReader` (`src/byte/tee.rs` 76-104); the lock is held during `fill_buf`. -/
def byteSrc (B fuel : Nat) : ByteSrc (Buffered TeeState) where
  fill s req := (bufferedSrc B fuel (feed B)).fill (examine s) req
  slice := (bufferedSrc B fuel (feed B)).slice
  consume := (bufferedSrc B fuel (feed B)).consume

end TeeReader

/-- The slicing thread (`src/drain/patch.rs` 67-90): its local variables, what it has written to the command so far, and how it has ended, if it
has: `some none` normally, `some (some e)` with a panic because of the error `e`.  In both cases the pipe is closed. -/
structure Slicing (σ : Type u) where
  st : σ
  offset : Nat
  buf : Bytes
  written : Bytes
  fate : Option (Option Err)

namespace Slicing

/-- The thread at its start (`src/drain/patch.rs` 68-70). -/
def new (st : σ) : Slicing σ := { st := st, offset := 0, buf := [], written := [], fate := none }

/-- One round of the loop (`src/drain/patch.rs` 72-86), with what follows the loop (88-89).  Writing to the command does not fail. -/
def round (S : SegSrc σ) (f : Formatting) (B : Nat) (a : Slicing σ) : Slicing σ :=
  match a.fate with
  | some _ => a
  | none =>
    match S.fill a.st with
    | .error e => { a with fate := some (some e) }
    | .ok ((isEof, bytes, _, maxc), st) =>
      if isEof && decide (bytes = 0) then { a with st := st, buf := [], written := a.written ++ a.buf, fate := some none }
      else
        match Format.segments f.style a.offset f.minWidth (S.slices st).1 (S.slices st).2 with
        | .error e => { a with st := st, fate := some (some e) }
        | .ok text =>
          match S.consume st maxc with
          | .error e => { a with st := st, buf := a.buf ++ text, fate := some (some e) }
          | .ok ((k, _), st) =>
            let buf := a.buf ++ text
            if B ≤ buf.length then { st := st, offset := a.offset + k, buf := [], written := a.written ++ buf, fate := none }
            else { st := st, offset := a.offset + k, buf := buf, written := a.written, fate := none }

end Slicing

/-- A command: what it has printed at most, and whether it has closed its output, once it has received some text and knows whether this is all. -/
structure Command where
  emit : Bytes → Bool → Bytes × Bool

/-- The threads: the slicing thread, and whether the main thread has received something from the command. -/
structure World (σ : Type u) where
  a : Slicing σ
  started : Bool

/-- Access to the temporary file from the state of the slicing thread. -/
structure CacheOf (σ : Type u) where
  get : σ → TempFile
  set : σ → TempFile → σ
  get_set : ∀ s c, get (set s c) = c

/-- How the main thread changes the file when it accesses it (`src/byte/tee.rs` 80-91): it moves the position and clears the flag. -/
def CacheOf.Access (C : CacheOf σ) (s s' : σ) : Prop := ∃ cursor flag, s' = C.set s { C.get s with cursor := cursor, clearEof := flag }

/-- What can happen next:
* a round of the slicing thread;
* the main thread returns from the construction of the `PatchStream` (`src/drain/patch.rs` 92-93), which reads a first record: the command has printed something
  or closed its output;
* after that the main thread accesses the temporary file, which changes the state as `A` says. -/
inductive World.Step (S : SegSrc σ) (f : Formatting) (B : Nat) (cmd : Command) (A : σ → σ → Prop) : World σ → World σ → Prop where
  | slice (w : World σ) : Step S f B cmd A w { w with a := w.a.round S f B }
  | start (w : World σ) : cmd.emit w.a.written w.a.fate.isSome ≠ ([], false) → Step S f B cmd A w { w with started := true }
  | access (w : World σ) (st : σ) : w.started = true → A w.a.st st → Step S f B cmd A w { w with a := { w.a with st := st } }

/-- What can be reached. -/
inductive World.Reachable (S : SegSrc σ) (f : Formatting) (B : Nat) (cmd : Command) (A : σ → σ → Prop) (st : σ) : World σ → Prop where
  | init : Reachable S f B cmd A st { a := Slicing.new st, started := false }
  | step (w w' : World σ) : Reachable S f B cmd A st w → World.Step S f B cmd A w w' → Reachable S f B cmd A st w'

/-- `struct PatchDrain` (`src/drain/patch.rs` 54-59); `thread` is the error because of which the slicing thread panics, if it does. -/
structure PatchDrain (π : Type u) where
  patch : π
  prevBytes : Nat
  thread : Option Err

namespace PatchDrain

/-- What `PatchDrain::new` returns (`src/drain/patch.rs` 95-100). -/
def new (patch : π) (thread : Option Err) : PatchDrain π := { patch := patch, prevBytes := 0, thread := thread }

/-- `impl ByteStream for PatchDrain` (`src/drain/patch.rs` 104-127): at the end the main thread waits for the slicing thread, which is assumed to end, and panics if it has.
Waiting twice does nothing more, and the panic ends the program, so that `thread.take()` needs no state. -/
def byteSrc (P : ByteSrc π) : ByteSrc (PatchDrain π) where
  fill d req :=
    match P.fill d.patch req with
    | .error e => .error e
    | .ok ((isEof, bytes), patch) =>
      if isEof && decide (bytes = d.prevBytes) && d.thread.isSome then .error .panic
      else .ok ((isEof, bytes), { d with patch := patch, prevBytes := bytes })
  slice d := P.slice d.patch
  consume d k :=
    match P.consume d.patch k with
    | .error e => .error e
    | .ok patch => .ok { d with patch := patch }

end PatchDrain
end Nd
