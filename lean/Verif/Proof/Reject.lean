import Verif.Spec.Record
import Verif.Proof.StreamBuf
import Verif.Model.Byte
/-! Streams that fail for certain. -/
namespace Nd

/-- A closure that never reports the end and can only be called finitely often without an error. -/
def FailsSoon (f : StreamBuf.Closure τ) (E : Err → Prop) (P : τ → Nat → Prop) : Prop :=
  ∀ t w req buf, P t w → (∃ e, E e ∧ f t req buf = .error e) ∨
    ∃ buf' t' w', f t req buf = .ok (false, buf', t') ∧ P t' w' ∧ w' < w

namespace StreamBuf

theorem fillLoop_fails {f : Closure τ} {E P} (hf : FailsSoon f E P) (target : Nat) :
    ∀ (fuel : Nat) (s : StreamBuf) (t : τ) (w : Nat), P t w → w < fuel → s.isEof = false →
      (∃ e, E e ∧ fillLoop f target fuel s t = .error e) ∨
      ∃ s' t' w', fillLoop f target fuel s t = .ok (s', t') ∧ s'.isEof = false ∧ P t' w' ∧ w' < w := by
  intro fuel
  induction fuel with
  | zero => intro s t w _ h; omega
  | succ fuel ih =>
    intro s t w hP hw he
    unfold fillLoop
    rcases hf t w (target - s.buf.length + 1) s.buf hP with ⟨e, hE, heq⟩ | ⟨buf', t', w', heq, hP', hw'⟩
    · left; exact ⟨e, hE, by simp only [heq]⟩
    · simp only [heq, Bool.false_eq_true, if_false]
      by_cases hl : buf'.length ≥ target
      · right
        rw [if_pos hl]
        exact ⟨_, _, w', rfl, he, hP', hw'⟩
      · rw [if_neg hl]
        rcases ih { s with buf := buf' } t' w' hP' (by omega) he with h | ⟨s2, t2, w2, h1, h2, h3, h4⟩
        · exact Or.inl h
        · exact Or.inr ⟨s2, t2, w2, h1, h2, h3, by omega⟩

theorem consume_isEof (B : Nat) (s : StreamBuf) (k : Nat) (h : s.isEof = false) : (s.consume B k).isEof = false := by
  unfold consume
  simp only [h, Bool.false_eq_true, if_false]
  split <;> split <;> rfl

end StreamBuf

theorem buffered_rejects {f : StreamBuf.Closure τ} {E P} (hf : FailsSoon f E P) {B fuel : Nat} {t : τ} {buf : StreamBuf} {w : Nat}
    (hP : P t w) (hb : buf.isEof = false) (hw : w < fuel) : Rejects (bufferedSrc B fuel f) E ⟨t, buf⟩ w := by
  refine ⟨fun s w => P s.inner w ∧ s.buf.isEof = false ∧ w < fuel, ⟨hP, hb, hw⟩, ?_⟩
  rintro ⟨t, s⟩ w req ⟨h1, h2, h3⟩
  simp only at h1 h2
  simp only [bufferedSrc, StreamBuf.fillBuf]
  rw [if_neg (by rw [h2]; decide)]
  rcases StreamBuf.fillLoop_fails hf (max s.targetLen req) fuel { s with buf := s.buf.take s.len } t w h1 h3 h2 with
    ⟨e, hE, heq⟩ | ⟨s', t', w', heq, h4, h5, h6⟩
  · left; exact ⟨e, hE, by simp only [heq]⟩
  · right
    simp only [heq, h4]
    refine ⟨_, _, rfl, ?_⟩
    intro k _
    exact ⟨_, w', rfl, ⟨h5, StreamBuf.consume_isEof _ _ _ rfl, by omega⟩, h6⟩

/-- The copy loop reports the failure. -/
theorem Rejects.consumeStream {S : ByteSrc σ} {E} (B : Nat) : ∀ (fuel : Nat) (s : σ) (w : Nat), Rejects S E s w → w < fuel →
    ∃ e out, E e ∧ Nd.consumeStream S B fuel s = (out, some e) := by
  intro fuel
  induction fuel with
  | zero => intro s w _ h; omega
  | succ fuel ih =>
    rintro s w ⟨R, h1, h2⟩ hw
    unfold Nd.consumeStream
    rcases h2 s w B h1 with ⟨e, hE, heq⟩ | ⟨n, s', heq, h3⟩
    · exact ⟨e, [], hE, by simp only [heq]⟩
    · obtain ⟨s'', w', h4, h5, h6⟩ := h3 n (Nat.le_refl _)
      obtain ⟨e, out, hE, h7⟩ := ih s'' w' ⟨R, h5, h2⟩ (by omega)
      refine ⟨e, (S.slice s').take n ++ out, hE, ?_⟩
      simp only [heq, Bool.false_and, Bool.false_eq_true, if_false, h4, h7]

end Nd
