import Verif.Spec.Stream
/-!
# The segment-stream protocol

A segment stream lends a piece of the byte stream together with the segments found in it.  Its client
alternates `fill` and `consume`; a segment is consumed when the position moves past its start.

`SegFaithful S K F R` says that every state related by `R` to bytes `rem` and a list `segs` behaves as a
stream that still has to deliver exactly the segments `segs` of the bytes `rem`.
-/
namespace Nd

/-- A segment seen from a position `k` bytes further. -/
def Seg.shift (k : Nat) (s : Seg) : Seg := { pos := s.pos - k, len := s.len }

/-- Optional guarantees of a segment stream. -/
structure SegKind where
  /-- when the end is reported, all remaining bytes are lent -/
  full : Bool
  /-- consuming `max_consume` bytes consumes all lent segments -/
  exact : Bool
  /-- the reported `max_consume` is never larger than what can be consumed -/
  honest : Bool
  /-- a segment that has been lent is lent again until it is consumed -/
  steady : Bool
  /-- every lent segment starts in the part that may be consumed, or at its end -/
  early : Bool
  /-- something may be consumed unless the end is reported -/
  moving : Bool
  /-- consuming up to the start of a lent segment that lies behind another one is done completely -/
  snap : Bool
  /-- a client must not ask for more than it is permitted to consume even if that is nothing -/
  strict : Bool := false
  /-- how much a client may consume apart from all it is permitted to, given the lent segments -/
  policy : List Seg → Nat → Prop

/-- The stream puts up with any client. -/
def SegKind.Free (K : SegKind) : Prop := ∀ lent k, K.policy lent k

/-- Where a client is in the protocol. -/
inductive SegPhase where
  /-- a fill is needed next; `lb` of the remaining segments have been lent before -/
  | idle (lb : Nat)
  /-- the last fill reported `eof`, lent `count` segments and permits to consume `cap` bytes -/
  | lent (eof : Bool) (count cap : Nat)
  /-- everything has been consumed after the end was reported -/
  | done

/-- What a fill shows: a prefix of the segments, and a slice of the bytes that contains all of them and
the `bytes` promised bytes. -/
structure SegLent (rem : Bytes) (segs : List Seg) (slices : Bytes × List Seg) (bytes count : Nat) : Prop where
  count_le : count ≤ segs.length
  segs_eq : slices.2 = segs.take count
  bytes_eq : ∃ avail, bytes ≤ avail ∧ avail ≤ rem.length ∧
    (0 < avail → ∃ m, AnyMargin m ∧ slices.1 = rem.take avail ++ m) ∧ ∀ x ∈ segs.take count, x.tail ≤ avail

/-- The protocol; `w` bounds the number of further fills that do not report the end. -/
structure SegFaithful (S : SegSrc σ) (K : SegKind) (F : Err → Prop)
    (R : σ → SegPhase → Nat → Bytes → List Seg → Prop) : Prop where
  /-- A fill lends a prefix of the remaining segments.  No byte from the start of a segment that is not
  yet lent may be consumed.  The end is reported only if all segments are lent. -/
  fill : ∀ s lb w rem segs, R s (.idle lb) w rem segs →
    (∃ e, F e ∧ S.fill s = .error e) ∨
    ∃ eof bytes count maxc cap w' s', S.fill s = .ok ((eof, bytes, count, maxc), s') ∧
      R s' (.lent eof count cap) w' rem segs ∧ SegLent rem segs (S.slices s') bytes count ∧
      cap ≤ bytes ∧ (∀ x ∈ segs.drop count, cap ≤ x.pos) ∧
      (maxc = cap ∨ (cap = 0 ∧ eof = false ∧ K.honest = false ∧ K.strict = false)) ∧
      (eof = true → count = segs.length ∧ cap = bytes ∧ (K.full = true → bytes = rem.length)) ∧
      (K.early = true → ∀ x ∈ segs.take count, x.pos ≤ cap) ∧ w' ≤ w ∧ (eof = false → w' < w) ∧
      (K.steady = true → lb ≤ count) ∧ (K.moving = true → eof = false → 0 < cap)
  /-- Consuming removes `k' ≤ k` bytes and the `c` segments that start in them. -/
  consume : ∀ s eof count cap w rem segs k, R s (.lent eof count cap) w rem segs →
    ((cap = 0 ∧ K.strict = false) ∨ k = cap ∨ (k ≤ cap ∧ K.policy (segs.take count) k)) →
    ∃ k' c w' s', S.consume s k = .ok ((k', c), s') ∧ k' ≤ k ∧ k' ≤ cap ∧ c ≤ count ∧
      (∀ x ∈ segs.take c, x.pos < k') ∧ (∀ x ∈ segs.drop c, k' ≤ x.pos) ∧
      R s' (if eof = true ∧ k' = cap then .done else .idle (count - c)) w' (rem.drop k') ((segs.drop c).map (Seg.shift k')) ∧
      w' ≤ w ∧ (eof = true → k = cap → k' = cap) ∧ (K.exact = true → cap ≤ k → c = count) ∧
      (K.snap = true → eof = false → k ≤ cap → ∀ x ∈ segs.take count, ∀ y ∈ segs.take count, x.pos = k → y.tail ≤ k → k' = k)
  /-- After the end nothing more appears. -/
  rest : ∀ s w rem segs, R s .done w rem segs →
    (∃ e, F e ∧ S.fill s = .error e) ∨
    ∃ w' s', S.fill s = .ok ((true, 0, segs.length, 0), s') ∧ R s' (.lent true segs.length 0) w' rem segs ∧
      SegLent rem segs (S.slices s') 0 segs.length ∧ w' ≤ w

/-- `s` is a freshly created segment stream that delivers the segments `segs` of `content`. -/
def SegDelivers (S : SegSrc σ) (K : SegKind) (F : Err → Prop) (s : σ) (w : Nat) (content : Bytes) (segs : List Seg) : Prop :=
  ∃ R, SegFaithful S K F R ∧ R s (.idle 0) w content segs

/-- What a client of a segment stream has seen: the stream state, the number of bytes it has consumed,
the consumed segments (absolute position and bytes), the segments lent by the last fill, the number of bytes it
may consume (`none`: must fill first), and whether the last fill reported the end. -/
structure SegClient (σ : Type u) where
  st : σ
  offset : Nat
  got : List (Nat × Bytes)
  lent : List (Nat × Bytes)
  cap : Option Nat
  eof : Bool

/-- A client of a fresh stream. -/
def SegClient.init (s : σ) : SegClient σ := { st := s, offset := 0, got := [], lent := [], cap := none, eof := false }

/-- One round of a client: fill, look at the lent segments, consume at most `k` of the permitted bytes. -/
def SegClient.step (S : SegSrc σ) (c : SegClient σ) : Option Nat → Except Err (SegClient σ)
  | none =>
    match c.cap with
    | some _ => .ok c
    | none =>
      match S.fill c.st with
      | .error e => .error e
      | .ok ((eof, _, count, maxc), s) =>
        let (stream, segs) := S.slices s
        .ok { c with st := s, lent := (segs.take count).map fun x => (c.offset + x.pos, x.bytes stream), cap := some maxc, eof := eof }
  | some k =>
    match c.cap with
    | none => .ok c
    | some maxc =>
      match S.consume c.st (min k maxc) with
      | .error e => .error e
      | .ok ((k', n), s) =>
        .ok { c with st := s, offset := c.offset + k', got := c.got ++ c.lent.take n, lent := c.lent.drop n, cap := none }

/-- A run over a list of calls: `none` is a fill, `some k` a consume of at most `k` bytes; calls out of turn
are skipped. -/
def SegClient.run (S : SegSrc σ) (c : SegClient σ) : List (Option Nat) → Except Err (SegClient σ)
  | [] => .ok c
  | op :: ops =>
    match c.step S op with
    | .error e => .error e
    | .ok c => c.run S ops

/-- What it means for the stream `s` to carry the slices `out` (absolute position and bytes), in terms of what
clients see:
* *safety*: whatever a client does, the slices it has consumed followed by the lent ones are a prefix of
  `out`, all of it once the end is reported; the only way to fail is an error allowed by `F`;
* *liveness*: a client that keeps consuming all it may is told the end after finitely many rounds. -/
def SegReads (S : SegSrc σ) (F : Err → Prop) (s : σ) (out : List (Nat × Bytes)) : Prop :=
  (∀ ops : List (Option Nat),
    (∃ e, F e ∧ (SegClient.init s).run S ops = .error e) ∨
    ∃ c, (SegClient.init s).run S ops = .ok c ∧ c.got ++ c.lent <+: out ∧
      (c.eof = true → c.got ++ c.lent = out)) ∧
  ∃ N, ∀ n k, N ≤ n → N ≤ k →
    (∃ e, F e ∧ (SegClient.init s).run S ((List.replicate n [none, some k]).flatten) = .error e) ∨
    ∃ c, (SegClient.init s).run S ((List.replicate n [none, some k]).flatten) = .ok c ∧ c.eof = true ∧ c.got ++ c.lent = out

/-- The same for clients that consume all they may in every round, as the drains of `nd` do. -/
def SegDrains (S : SegSrc σ) (F : Err → Prop) (s : σ) (out : List (Nat × Bytes)) : Prop :=
  ∃ N, ∀ n k, N ≤ k →
    (∃ e, F e ∧ (SegClient.init s).run S ((List.replicate n [none, some k]).flatten) = .error e) ∨
    ∃ c, (SegClient.init s).run S ((List.replicate n [none, some k]).flatten) = .ok c ∧ c.got ++ c.lent <+: out ∧
      (c.eof = true → c.got ++ c.lent = out) ∧ (N ≤ n → c.eof = true)

/-- The slices `--width N,S..E` asks for: for every `pitch`-sized unit of the stream, the unit's start shifted by
`start` up to the unit's start shifted by `stop`, clipped to the stream; empty ones are dropped. -/
def Spec.strides (len pitch : Nat) (start stop : Int) : List Seg :=
  (List.range ((len + pitch - 1) / pitch)).filterMap fun (i : Nat) =>
    if max 0 (i * pitch + start) < min (len : Int) (i * pitch + stop) then
      some { pos := (max 0 (i * pitch + start)).toNat, len := (min (len : Int) (i * pitch + stop) - max 0 (i * pitch + start)).toNat }
    else none

/-- The slices denoted by a list of segments. -/
def slicesOf (content : Bytes) (segs : List Seg) : List (Nat × Bytes) := segs.map fun x => (x.pos, x.bytes content)

end Nd
