import Verif.Model.Record
import Verif.Spec.Stream
/-!
# Records: what hex input and patches mean, and the contract of a record source
-/
namespace Nd

/-- The record source `t` yields `recs`, one per call, and then reports the end; or, if `bad`, an error
instead of the end.  Errors in `F` may also occur earlier. -/
def Yields (P : RecSrc τ) (F : Err → Prop) (bad : Bool) (t : τ) (recs : List Rec) : Prop :=
  ∃ R : τ → List Rec → Prop, R t recs ∧ ∀ t recs, R t recs →
    (∃ e, F e ∧ P.read t = .error e) ∨
    (¬ (bad = true ∧ recs = []) ∧ ∃ t', P.read t = .ok (recs.head?, t') ∧ R t' recs.tail)

/-- A stream that certainly fails: no fill ever reports the end, and only finitely many fills succeed, so
whatever a client does (consuming any part of what it is lent after each fill), it gets an error from `E`. -/
def Rejects (S : ByteSrc σ) (E : Err → Prop) (s : σ) (w : Nat) : Prop :=
  ∃ R : σ → Nat → Prop, R s w ∧ ∀ s w req, R s w →
    (∃ e, E e ∧ S.fill s req = .error e) ∨
    ∃ n s', S.fill s req = .ok ((false, n), s') ∧ ∀ k ≤ n, ∃ s'' w', S.consume s' k = .ok s'' ∧ R s'' w' ∧ w' < w

namespace Spec

/-- Every record starts at or after the end of the previous one (`pos` for the first). -/
def Ordered : Nat → List Rec → Prop
  | _, [] => True
  | pos, r :: rs => pos ≤ r.offset ∧ Ordered (r.offset + r.span) rs

instance : ∀ pos recs, Decidable (Ordered pos recs)
  | _, [] => isTrue trivial
  | _, r :: rs =>
    have := instDecidableOrdered (r.offset + r.span) rs
    inferInstanceAs (Decidable (_ ∧ _))

/-- Hex input: every record's bytes after filler bytes up to the record's offset; `pos` is the end of the
previous record (its offset plus the length in its header). -/
def place (filler : Byte) : Nat → List Rec → Bytes
  | _, [] => []
  | pos, r :: rs => List.replicate (r.offset - pos) filler ++ (r.data ++ place filler (r.offset + r.span) rs)

/-- Binary patch: `c` is the original stream from offset `pos` on; every record that starts before the end
of the stream has its target interval replaced by its array. -/
def splice : Nat → Bytes → List Rec → Bytes
  | _, c, [] => c
  | pos, c, r :: rs =>
    if r.offset - pos < c.length then
      c.take (r.offset - pos) ++ (r.data ++ splice (r.offset + r.span) (c.drop (r.offset - pos + r.span)) rs)
    else c

/-- A patch is acceptable for a stream of `total` bytes if every record that starts before the end of the
stream is followed by a record at or after the end of its target interval; records beyond the end of the
stream are not examined.  If the patch file is malformed after these records (`bad`), the malformed part
must not be reached. -/
def PatchOk (total : Nat) (bad : Bool) : Nat → List Rec → Prop
  | _, [] => bad = false
  | pos, r :: rs => pos ≤ r.offset ∧ (r.offset < total → PatchOk total bad (r.offset + r.span) rs)

end Spec
end Nd
