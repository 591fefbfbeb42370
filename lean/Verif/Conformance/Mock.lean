import Verif.Conformance.Host
/-!
# The test bench of the unit tests

The source and the clients that the unit tests of the streams use (`src/byte/mock.rs`, `src/byte/mod.rs`, `src/segment/mod.rs`).  They draw random numbers; here
the numbers come from a linear congruential generator, and every test is run for several seeds.  A client returns whether all of its assertions hold.
-/
namespace Nd.Conformance

/-- `BLOCK_SIZE` in the tests (`src/params.rs` 5). -/
def testBlock : Nat := 29 * 5

/-- The next state of the generator. -/
def rngNext (r : Nat) : Nat := (1103515245 * r + 12345) % 2 ^ 31

/-- `rng.gen_range(lo..=hi)` -/
def genRange (r lo hi : Nat) : Nat := lo + (r / 2 ^ 8) % (hi - lo + 1)

/-- `rng.gen::<bool>()` -/
def genBool (r : Nat) : Bool := (r / 2 ^ 12) % 2 = 1

/-- `struct MockSource` (`src/byte/mock.rs` 12-21); `rem` is `v[offset..len]`. -/
structure MockSource where
  rem : Bytes
  chunk : Nat
  rng : Nat

/-- `MockSource::new` (`src/byte/mock.rs` 24-35) -/
def MockSource.new (pattern : Bytes) (seed : Nat) : MockSource := { rem := pattern, chunk := 0, rng := rngNext seed }

/-- `impl ByteStream for MockSource` (`src/byte/mock.rs` 37-48, 72-90) -/
def mockSrc (B : Nat) : ByteSrc MockSource where
  fill s request :=
    if s.rem = [] then .ok ((true, 0), s)
    else
      let chunk := s.chunk + min (genRange s.rng request (max request (2 * B))) (s.rem.length - s.chunk)
      .ok ((s.rem.length == chunk, chunk), { s with chunk := chunk, rng := rngNext s.rng })
  slice s := (s.rem ++ List.replicate MARGIN 10).take (s.chunk + MARGIN)
  consume s amount := if amount ≤ s.chunk then .ok { s with rem := s.rem.drop amount, chunk := s.chunk - amount } else .error .panic

/-! ## Clients of byte streams -/

/-- `test_stream_random_len` (`src/byte/mod.rs` 56-92); `v` is what has been received. -/
def streamRandomLen (S : ByteSrc σ) (B : Nat) (expected : Bytes) : Nat → Nat → σ → Bytes → Bool
  | 0, _, _, _ => false
  | fuel + 1, rng, s, v =>
    match S.fill s 1 with
    | .error _ => false
    | .ok ((isEof, len), s) =>
      if isEof ∧ v.length + len ≠ expected.length then false
      else if isEof ∧ len = 0 then v == expected
      else
        let stream := S.slice s
        let k := genRange rng 1 (min len (2 * B))
        if len = 0 ∨ stream.length < len + MARGIN then false
        else
          match S.consume s k with
          | .error _ => false
          | .ok s => streamRandomLen S B expected fuel (rngNext rng) s (v ++ stream.take k)

/-- `test_stream_random_consume` (`src/byte/mod.rs` 94-132) -/
def streamRandomConsume (S : ByteSrc σ) (expected : Bytes) : Nat → Nat → σ → Bytes → Bool
  | 0, _, _, _ => false
  | fuel + 1, rng, s, v =>
    match S.fill s 1 with
    | .error _ => false
    | .ok ((isEof, len), s) =>
      if isEof ∧ v.length + len ≠ expected.length then false
      else if isEof ∧ len = 0 then v == expected
      else if genBool rng then
        match S.consume s 0 with
        | .error _ => false
        | .ok s => streamRandomConsume S expected fuel (rngNext rng) s v
      else
        let stream := S.slice s
        if stream.length < len + MARGIN then false
        else
          match S.consume s ((len + 1) / 2) with
          | .error _ => false
          | .ok s => streamRandomConsume S expected fuel (rngNext rng) s (v ++ stream.take ((len + 1) / 2))

/-- The first loop of `test_stream_all_at_once` (`src/byte/mod.rs` 143-158) -/
def streamGather (S : ByteSrc σ) (expected : Bytes) : Nat → σ → Nat → Option σ
  | 0, _, _ => none
  | fuel + 1, s, prev =>
    match S.fill s 1 with
    | .error _ => none
    | .ok ((isEof, len), s) =>
      if isEof ∧ len ≠ expected.length then none
      else if isEof ∧ len = prev then some s
      else
        match S.consume s 0 with
        | .error _ => none
        | .ok s => streamGather S expected fuel s len

/-- `test_stream_all_at_once` (`src/byte/mod.rs` 134-182) -/
def streamAllAtOnce (S : ByteSrc σ) (expected : Bytes) (fuel : Nat) (s : σ) : Bool :=
  match streamGather S expected fuel s 0 with
  | none => false
  | some s =>
    match S.fill s 1 with
    | .error _ => false
    | .ok ((isEof, len), s) =>
      let stream := S.slice s
      if isEof ∧ len = expected.length ∧ len + MARGIN ≤ stream.length ∧ stream.take len = expected then
        match S.consume s len with
        | .error _ => false
        | .ok s =>
          match S.fill s 1 with
          | .error _ => false
          | .ok ((isEof, len), s) => isEof && len == 0 && decide (MARGIN ≤ (S.slice s).length)
      else false

/-- The three tests of a byte stream, with several seeds. -/
def streamTests (S : ByteSrc σ) (B fuel : Nat) (make : Nat → Except Err σ) (expected : Bytes) : Bool :=
  [1, 2].all fun seed =>
    match make seed with
    | .error _ => false
    | .ok s => streamAllAtOnce S expected fuel s && streamRandomLen S B expected fuel (rngNext (seed + 10)) s [] &&
        streamRandomConsume S expected fuel (rngNext (seed + 20)) s []

/-! ## Clients of slice streams -/

/-- What the loops of the tests remember (`src/segment/mod.rs` 98-103). -/
structure Seen where
  prevEof : Bool := false
  prevLen : Nat := 0
  lenAcc : Nat := 0
  countAcc : Nat := 0
  lastPos : Int := -1

/-- The assertions before the comparison of the slices (`src/segment/mod.rs` 106-127, 159-180). -/
def Seen.ok (t : Seen) (pattern : Bytes) (r : Bool × Nat × Nat × Nat) (stream : Bytes) (segs : List Seg) : Bool :=
  (!t.prevEof || r.1 && r.2.1 == t.prevLen) && decide (r.2.1 + MARGIN ≤ stream.length) && stream.take r.2.1 == (pattern.drop t.lenAcc).take r.2.1 &&
    (match segs with | [] => true | s :: _ => decide (t.lastPos < s.pos)) && (segs.zip segs.tail).all fun x => decide (x.1.pos ≤ x.2.pos)

/-- The comparison of the slices (`src/segment/mod.rs` 129-134). -/
def Seen.same (t : Seen) (pattern : Bytes) (expected : List Seg) (stream : Bytes) (segs : List Seg) : Bool :=
  decide (t.countAcc ≤ expected.length) && (segs.zip (expected.drop t.countAcc)).all fun x => x.1.len == x.2.len && x.1.bytes stream == x.2.bytes pattern

/-- After a consume (`src/segment/mod.rs` 139-146). -/
def Seen.next (t : Seen) (expected : List Seg) (isEof : Bool) (len : Nat) (segs : List Seg) (fwd : Nat × Nat) : Option Seen :=
  let lastPos : Option Int :=
    if fwd.2 = 0 then some t.lastPos else ((segs.take (expected.length - t.countAcc))[fwd.2 - 1]?).map fun s => (s.pos : Int) - fwd.1
  lastPos.map fun p => { prevEof := isEof, prevLen := len - fwd.1, lenAcc := t.lenAcc + fwd.1, countAcc := t.countAcc + fwd.2, lastPos := p }

/-- The assertions at the end (`src/segment/mod.rs` 149-150, 207-208). -/
def Seen.done (t : Seen) (pattern : Bytes) (expected : List Seg) (r : Bool × Nat × Nat × Nat) : Bool :=
  (!t.prevEof || t.prevLen == 0) && r.2.2.1 == 0 && r.2.2.2 == 0 && decide (t.lenAcc ≤ pattern.length) && t.countAcc == expected.length

/-- `test_segment_random_len` (`src/segment/mod.rs` 89-151) -/
def segmentRandomLen (S : SegSrc σ) (pattern : Bytes) (expected : List Seg) : Nat → Nat → σ → Seen → Bool
  | 0, _, _, _ => false
  | fuel + 1, rng, s, t =>
    match S.fill s with
    | .error _ => false
    | .ok (r, s) =>
      if r.1 ∧ r.2.1 = 0 then t.done pattern expected r
      else
        let (stream, segs) := S.slices s
        if t.ok pattern r stream segs && t.same pattern expected stream segs then
          match S.consume s (genRange rng 1 (max 1 r.2.2.2)) with
          | .error _ => false
          | .ok (fwd, s) =>
            match t.next expected r.1 r.2.1 segs fwd with
            | none => false
            | some t => segmentRandomLen S pattern expected fuel (rngNext rng) s t
        else false

/-- `test_segment_occasional_consume` (`src/segment/mod.rs` 153-209) -/
def segmentOccasional (S : SegSrc σ) (pattern : Bytes) (expected : List Seg) : Nat → Nat → σ → Seen → Bool
  | 0, _, _, _ => false
  | fuel + 1, rng, s, t =>
    match S.fill s with
    | .error _ => false
    | .ok (r, s) =>
      if r.1 ∧ r.2.1 = 0 then t.done pattern expected r
      else
        let (stream, segs) := S.slices s
        if t.ok pattern r stream segs then
          if genBool rng then segmentOccasional S pattern expected fuel (rngNext rng) s t
          else if t.same pattern expected stream segs then
            match S.consume s (if r.1 then r.2.2.2 else (r.2.2.2 + 1) / 2) with
            | .error _ => false
            | .ok (fwd, s) =>
              match t.next expected r.1 r.2.1 segs fwd with
              | none => false
              | some t => segmentOccasional S pattern expected fuel (rngNext rng) s t
          else false
        else false

/-- The first loop of `test_segment_all_at_once` (`src/segment/mod.rs` 216-229) -/
def segmentGather (S : SegSrc σ) : Nat → σ → Nat → Option σ
  | 0, _, _ => none
  | fuel + 1, s, prev =>
    match S.fill s with
    | .error _ => none
    | .ok (r, s) =>
      if r.1 ∧ r.2.1 = prev then some s
      else
        match S.consume s 0 with
        | .error _ => none
        | .ok (fwd, s) => if fwd.1 = 0 then segmentGather S fuel s r.2.1 else none

/-- `test_segment_all_at_once` (`src/segment/mod.rs` 211-250) -/
def segmentAllAtOnce (S : SegSrc σ) (pattern : Bytes) (expected : List Seg) (fuel : Nat) (s : σ) : Bool :=
  match segmentGather S fuel s 0 with
  | none => false
  | some s =>
    match S.fill s with
    | .error _ => false
    | .ok ((isEof, len, count, maxc), s) =>
      let (stream, segs) := S.slices s
      if isEof ∧ len ≤ pattern.length ∧ count = expected.length ∧ len = maxc ∧ stream.take len = pattern.take len ∧ segs.take count = expected then
        match S.consume s len with
        | .error _ => false
        | .ok (fwd, s) =>
          if fwd = (len, count) then
            match S.fill s with
            | .error _ => false
            | .ok (r, _) => r == (true, 0, 0, 0)
          else false
      else false

/-- The three tests of a slice stream, with several seeds. -/
def segmentTests (S : SegSrc σ) (fuel : Nat) (make : Bytes → Nat → Except Err σ) (pattern : Bytes) (expected : List Seg) : Bool :=
  [1, 2, 3, 4].all fun seed =>
    match make pattern seed with
    | .error _ => false
    | .ok s => segmentAllAtOnce S pattern expected fuel s && segmentRandomLen S pattern expected fuel (rngNext (seed + 10)) s {} &&
        segmentOccasional S pattern expected fuel (rngNext (seed + 20)) s {}

/-- A slice given by its ends, `(a..b).into()`. -/
def seg (a b : Nat) : Seg := ⟨a, b - a⟩

end Nd.Conformance
