import Verif.Props.Segment
/-!
# Streams that lend all bytes that are asked for, once the previous ones have been consumed
-/
namespace Nd

/-- `ServesAmply` for such streams. -/
def ServesFar (S : ByteSrc σ) (F : Err → Prop) (M : Bytes → Prop) (L : Nat) (s : σ) (w : Nat) (content : Bytes) : Prop :=
  ∃ R E, Serves S F M R ∧ Ample S R L E ∧ Far S R ∧ R s (.idle 1) w content ∧ ¬ E s

theorem ServesAmply.far {S : ByteSrc σ} {F M L s w content} (h : ServesAmply S F M L s w content) (hL : 0 < L) : ServesFar S F M L s w content := by
  obtain ⟨R, E, h1, h2, h3, h4⟩ := h
  exact ⟨R, E, h1, h2, h2.far hL, h3, h4⟩

theorem ServesFar.amply {S : ByteSrc σ} {F M L s w content} (h : ServesFar S F M L s w content) : ServesAmply S F M L s w content := by
  obtain ⟨R, E, h1, h2, _, h3, h4⟩ := h
  exact ⟨R, E, h1, h2, h3, h4⟩

theorem Delivers.far {f : StreamBuf.Closure τ} {F M} {B fuel align w : Nat} {filler : Byte} {t : τ} {content : Bytes} (hB : 1792 ≤ B)
    (h : Delivers (bufferedSrc B fuel f) F M { inner := t, buf := StreamBuf.newWithAlign B align filler } w content) :
    ServesFar (bufferedSrc B fuel f) F M ((B - 1784) / 8) { inner := t, buf := StreamBuf.newWithAlign B align filler } w content :=
  ⟨_, _, buffered_ample (by omega) |>.1, buffered_ample (by omega) |>.2, buffered_far hB, ⟨h, StreamBuf.Ready.new B align filler⟩, by simp [StreamBuf.newWithAlign]⟩

namespace Props

/-- A file read by `RawStream` lends all bytes that are asked for. -/
theorem file_far (B fuel : Nat) (filler : Byte) (content : Bytes) (sched : Nat → Option Nat) (hB : 1792 ≤ B) (hf : content.length < fuel) :
    ServesFar (RawStream.byteSrc B fuel) (IoErr [sched]) NlMargin ((B - 1784) / 8)
      (RawStream.new B (Reader.open content sched) 1 filler) content.length content := by
  have := raw_delivers B fuel 1 filler content sched (by omega) (by decide) hf
  have ha : Spec.alignTo 1 filler content = content := by simp [Spec.alignTo, Nat.mod_one]
  rw [ha] at this
  exact Delivers.far hB this

end Props
end Nd
