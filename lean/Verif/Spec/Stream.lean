import Verif.Model.Basic
/-!
# The byte-stream protocol

`Faithful S F M R` says that every state related by `R` to a byte list `rem` behaves as a stream that
still has to deliver exactly `rem`.  Chunk sizes are unconstrained, so a theorem of the form "the
component is faithful to `spec content`" is a statement about every chunking.

A client alternates `fill` and `consume`; after a `fill` that lent `n` bytes it may consume any
`k ≤ n` of them, once, before filling again (it may also fill again without consuming).
-/
namespace Nd

/-- Where a client is in the fill/consume protocol. -/
inductive Phase where
  /-- A fill is needed next; unless it reports the end it lends at least `lb` bytes. -/
  | idle (lb : Nat)
  /-- The last call was a fill that lent `n` bytes. -/
  | lent (n : Nat)

/-- What the next fill lends at least, unless it reports the end of the stream. -/
def Phase.lb : Phase → Nat
  | .idle lb => lb
  | .lent n => n

def Phase.isIdle : Phase → Prop
  | .idle _ => True
  | .lent _ => False

/-- The phase after consuming `k` of `n` lent bytes: the next fill lends at least one byte, and if
nothing was consumed no less than before. -/
def Phase.afterConsume (n k : Nat) : Phase := .idle (if k = 0 then max 1 n else 1)

/-- The stream protocol: `R s ph w rem` reads "in state `s` and phase `ph`, `rem` is what remains to be
delivered, and at most `w` more fills following a consume will not report the end".
`F` bounds the errors that may occur (`fun _ => False`: none); `M` describes the margin that follows
the lent bytes in the slice. -/
structure Faithful (S : ByteSrc σ) (F : Err → Prop) (M : Bytes → Prop)
    (R : σ → Phase → Nat → Bytes → Prop) : Prop where
  /-- A fill lends a prefix of what remains; it reports the end only if everything is lent, and
  otherwise lends at least one byte, at least the promised number of bytes, and makes progress. -/
  fill : ∀ s ph w rem req, R s ph w rem →
    (∃ e, F e ∧ S.fill s req = .error e) ∨
    ∃ eof n w' s', S.fill s req = .ok ((eof, n), s') ∧ R s' (.lent n) w' rem ∧ n ≤ rem.length ∧
      (0 < n → ∃ m, M m ∧ S.slice s' = rem.take n ++ m) ∧
      (eof = true → n = rem.length) ∧ (eof = false → 1 ≤ n ∧ ph.lb ≤ n) ∧
      w' ≤ w ∧ (eof = false → ph.isIdle → w' < w)
  /-- Consuming `k` lent bytes removes exactly them. -/
  consume : ∀ s n w rem k, R s (.lent n) w rem → k ≤ n →
    ∃ s' w', S.consume s k = .ok s' ∧ R s' (Phase.afterConsume n k) w' (rem.drop k) ∧ w' ≤ w
  /-- Consuming nothing is harmless even if nothing is lent. -/
  nudge : ∀ s lb w rem, R s (.idle lb) w rem →
    ∃ s' w', S.consume s 0 = .ok s' ∧ R s' (.idle lb) w' rem ∧ w' ≤ w

/-- The byte protocol without a consume out of turn. -/
structure Serves (S : ByteSrc σ) (F : Err → Prop) (M : Bytes → Prop) (R : σ → Phase → Nat → Bytes → Prop) : Prop where
  fill : ∀ s ph w rem req, R s ph w rem →
    (∃ e, F e ∧ S.fill s req = .error e) ∨
    ∃ eof n w' s', S.fill s req = .ok ((eof, n), s') ∧ R s' (.lent n) w' rem ∧ n ≤ rem.length ∧
      (0 < n → ∃ m, M m ∧ S.slice s' = rem.take n ++ m) ∧
      (eof = true → n = rem.length) ∧ (eof = false → 1 ≤ n ∧ ph.lb ≤ n) ∧
      w' ≤ w ∧ (eof = false → ph.isIdle → w' < w)
  consume : ∀ s n w rem k, R s (.lent n) w rem → k ≤ n →
    ∃ s' w', S.consume s k = .ok s' ∧ R s' (Phase.afterConsume n k) w' (rem.drop k) ∧ w' ≤ w

theorem Faithful.serves {S : ByteSrc σ} {F M R} (h : Faithful S F M R) : Serves S F M R := ⟨h.fill, h.consume⟩

/-- `s` is a freshly opened stream that delivers `content` with at most `w` non-final fills. -/
def Delivers (S : ByteSrc σ) (F : Err → Prop) (M : Bytes → Prop) (s : σ) (w : Nat) (content : Bytes) : Prop :=
  ∃ R, Faithful S F M R ∧ R s (.idle 1) w content

/-- No error is possible. -/
def NoErr : Err → Prop := fun _ => False

/-- The slice extends at least `MARGIN_SIZE` bytes beyond the lent ones. -/
def AnyMargin : Bytes → Prop := fun m => MARGIN ≤ m.length

/-- The slice is followed by exactly `MARGIN_SIZE` newline characters. -/
def NlMargin : Bytes → Prop := fun m => m = List.replicate MARGIN 10

/-- One call of a client. -/
inductive ClientOp where
  | fill (request : Nat)
  /-- consume at most `k` of the lent bytes -/
  | consume (k : Nat)

/-- What a client has seen so far: the stream state, the number of lent bytes (`none`: must fill
first), the bytes it has consumed, and whether the last fill reported the end. -/
structure Client (σ : Type u) where
  st : σ
  lent : Option Nat
  got : Bytes
  eof : Bool

/-- One step of a client that respects the protocol.  Consume calls out of turn are skipped. -/
def Client.step (S : ByteSrc σ) (c : Client σ) : ClientOp → Except Err (Client σ)
  | .fill req =>
    match S.fill c.st req with
    | .error e => .error e
    | .ok ((eof, n), s) => .ok { c with st := s, lent := some n, eof := eof }
  | .consume k =>
    match c.lent with
    | none => .ok c
    | some n =>
      match S.consume c.st (min k n) with
      | .error e => .error e
      | .ok s => .ok { c with st := s, lent := none, got := c.got ++ (S.slice c.st).take (min k n) }

/-- A client's run over a list of calls. -/
def Client.run (S : ByteSrc σ) (c : Client σ) : List ClientOp → Except Err (Client σ)
  | [] => .ok c
  | op :: ops =>
    match c.step S op with
    | .error e => .error e
    | .ok c => c.run S ops

/-- A client of a fresh stream. -/
def Client.init (s : σ) : Client σ := { st := s, lent := none, got := [], eof := false }

/-- What it means for the stream `s` to carry `content`, in terms of what clients see:
* *safety*: whatever calls a client makes, it consumes a prefix of `content`, what it is lent continues
  that prefix, and when a fill reports the end, consumed and lent bytes together are all of `content`;
  the only way to fail is an error allowed by `F`;
* *liveness*: a client that keeps consuming everything it is lent has all of `content` after
  finitely many rounds, whatever sizes it requests. -/
def Reads (S : ByteSrc σ) (F : Err → Prop) (s : σ) (content : Bytes) : Prop :=
  (∀ ops : List ClientOp,
    (∃ e, F e ∧ (Client.init s).run S ops = .error e) ∨
    ∃ c, (Client.init s).run S ops = .ok c ∧ c.got <+: content ∧
      ∀ n, c.lent = some n → c.got ++ (S.slice c.st).take n <+: content ∧
        (c.eof = true → c.got ++ (S.slice c.st).take n = content)) ∧
  ∃ N, ∀ reqs : List Nat, N ≤ reqs.length →
    (∃ e, F e ∧ (Client.init s).run S (reqs.flatMap fun r => [.fill r, .consume content.length]) = .error e) ∨
    ∃ c, (Client.init s).run S (reqs.flatMap fun r => [.fill r, .consume content.length]) = .ok c ∧ c.got = content

end Nd
