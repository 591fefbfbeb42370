import Verif.Conformance.UnitByte
import Verif.Model.PatchBack
/-!
# The incremental tests of `src/byte/tee.rs`

A part of the source is read through `TeeStream`, then all of it is read from the temporary file, and so on.  The clients are those of `Conformance/Mock.lean`; here they return the stream they were given, if all of their assertions hold.
-/
namespace Nd.Conformance

/-- `test_stream_random_len` (`src/byte/mod.rs` 56-92) -/
def afterRandomLen (S : ByteSrc σ) (B : Nat) (expected : Bytes) : Nat → Nat → σ → Bytes → Option σ
  | 0, _, _, _ => none
  | fuel + 1, rng, s, v =>
    match S.fill s 1 with
    | .error _ => none
    | .ok ((isEof, len), s) =>
      if isEof ∧ v.length + len ≠ expected.length then none
      else if isEof ∧ len = 0 then if v = expected then some s else none
      else
        let stream := S.slice s
        let k := genRange rng 1 (min len (2 * B))
        if len = 0 ∨ stream.length < len + MARGIN then none
        else
          match S.consume s k with
          | .error _ => none
          | .ok s => afterRandomLen S B expected fuel (rngNext rng) s (v ++ stream.take k)

/-- `test_stream_random_consume` (`src/byte/mod.rs` 94-132) -/
def afterRandomConsume (S : ByteSrc σ) (expected : Bytes) : Nat → Nat → σ → Bytes → Option σ
  | 0, _, _, _ => none
  | fuel + 1, rng, s, v =>
    match S.fill s 1 with
    | .error _ => none
    | .ok ((isEof, len), s) =>
      if isEof ∧ v.length + len ≠ expected.length then none
      else if isEof ∧ len = 0 then if v = expected then some s else none
      else if genBool rng then
        match S.consume s 0 with
        | .error _ => none
        | .ok s => afterRandomConsume S expected fuel (rngNext rng) s v
      else
        let stream := S.slice s
        if stream.length < len + MARGIN then none
        else
          match S.consume s ((len + 1) / 2) with
          | .error _ => none
          | .ok s => afterRandomConsume S expected fuel (rngNext rng) s (v ++ stream.take ((len + 1) / 2))

/-- `test_stream_all_at_once` (`src/byte/mod.rs` 134-182) -/
def afterAllAtOnce (S : ByteSrc σ) (expected : Bytes) (fuel : Nat) (s : σ) : Option σ :=
  match streamGather S expected fuel s 0 with
  | none => none
  | some s =>
    match S.fill s 1 with
    | .error _ => none
    | .ok ((isEof, len), s) =>
      let stream := S.slice s
      if isEof ∧ len = expected.length ∧ len + MARGIN ≤ stream.length ∧ stream.take len = expected then
        match S.consume s len with
        | .error _ => none
        | .ok s =>
          match S.fill s 1 with
          | .error _ => none
          | .ok ((isEof, len), s) => if isEof ∧ len = 0 ∧ MARGIN ≤ (S.slice s).length then some s else none
      else none

/-- The inner loop (`src/byte/tee.rs` 167-171): the stream is read until at least `n` more bytes have passed; returned is how many have. -/
def passOn (B : Nat) : Nat → Nat → Nat → TeeStream MockSource → Option (Nat × TeeStream MockSource)
  | 0, _, _, _ => none
  | fuel + 1, n, passed, t =>
    if n ≤ passed then some (passed, t)
    else
      match (TeeStream.byteSrc (mockSrc B)).fill t 1 with
      | .error _ => none
      | .ok ((_, len), t) =>
        match (TeeStream.byteSrc (mockSrc B)).consume t len with
        | .error _ => none
        | .ok t => passOn B fuel n (passed + len) t

/-- `test_cache_incremental!` (`src/byte/tee.rs` 152-178); `inner` is the client, and the two streams share the temporary file. -/
def teeIncremental (B : Nat) (inner : Bytes → Nat → Buffered TeeState → Option (Buffered TeeState)) : Nat → Nat → Bytes → TeeStream MockSource → Buffered TeeState → Bool
  | 0, _, _, _, _ => false
  | fuel + 1, rng, rest, t, r =>
    if rest = [] then true
    else
      match passOn B 100 (genRange rng 1 (min rest.length 30)) 0 t with
      | none => false
      | some (passed, t) =>
        match inner (rest.take passed) (rngNext rng) { r with inner := { r.inner with cache := t.cache } } with
        | none => false
        | some r => teeIncremental B inner fuel (rngNext (rngNext rng)) (rest.drop passed) { t with cache := r.inner.cache } r

/-- With the blocks of the byte streams in `Conformance/UnitByte.lean`. -/
def incrementalTest (client : Bytes → Nat → Buffered TeeState → Option (Buffered TeeState)) : Bool :=
  [1, 2, 3].all fun seed =>
    let t := TeeStream.new (MockSource.new (randomBytes 150 seed) seed)
    teeIncremental byteBlock client 200 (rngNext seed) (randomBytes 150 seed) t (TeeReader.new byteBlock t.cache fun i => some (genRange (rngNext (seed + i)) 1 (2 * byteBlock)))

example : incrementalTest (fun expected rng r => afterRandomLen (TeeReader.byteSrc byteBlock 600) byteBlock expected 600 rng r []) = true := by decide +kernel
example : incrementalTest (fun expected rng r => afterRandomConsume (TeeReader.byteSrc byteBlock 600) expected 600 rng r []) = true := by decide +kernel
example : incrementalTest (fun expected _ r => afterAllAtOnce (TeeReader.byteSrc byteBlock 600) expected 600 r) = true := by decide +kernel

end Nd.Conformance
