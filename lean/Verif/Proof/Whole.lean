import Verif.Proof.CatAmple
import Verif.Proof.SegKeeps
/-!
# Streams that are read at once
-/
namespace Nd

/-- Every first fill reports the end. -/
def Whole (S : ByteSrc σ) (F : Err → Prop) (s : σ) : Prop :=
  ∀ req, (∃ e, F e ∧ S.fill s req = .error e) ∨ ∃ n s', S.fill s req = .ok ((true, n), s')

/-- The first fill reports the end. -/
def SegWhole (S : SegSrc σ) (F : Err → Prop) (s : σ) : Prop :=
  (∃ e, F e ∧ S.fill s = .error e) ∨ ∃ n c m s', S.fill s = .ok ((true, n, c, m), s')

theorem Delivers.whole {f : StreamBuf.Closure τ} {F M} {B fuel align w : Nat} {filler : Byte} {t : τ} {content : Bytes} (hB : content.length < B)
    (h : Delivers (bufferedSrc B fuel f) F M { inner := t, buf := StreamBuf.newWithAlign B align filler } w content) :
    Whole (bufferedSrc B fuel f) F { inner := t, buf := StreamBuf.newWithAlign B align filler } := by
  obtain ⟨R, hR, hs⟩ := h
  intro req
  rcases hR.fill _ _ _ _ req hs with h | ⟨eof, n, w', s', heq, _, hn, _⟩
  · exact Or.inl h
  cases eof with
  | true => exact Or.inr ⟨n, s', heq⟩
  | false =>
    exfalso
    simp only [bufferedSrc] at heq
    split at heq
    · cases heq
    · rename_i r buf t hfill
      cases heq
      obtain ⟨h1, h2, h3, h4⟩ := StreamBuf.fillBuf_shape hfill
      simp only [StreamBuf.newWithAlign] at h1 h2 h3 h4
      rcases h4 with ⟨h4, _⟩ | ⟨_, h5 | ⟨_, h5⟩⟩
      · cases h4
      · cases h5
      · omega

theorem CatStream.whole {S : ByteSrc σ} {F M} {B fuel w : Nat} {srcs : List σ} {content : Bytes} (hB : content.length < B)
    (h : Delivers (byteSrc S B fuel) F M (new B srcs) w content) (hw : ∀ s ∈ srcs, Whole S F s) : Whole (byteSrc S B fuel) F (new B srcs) := by
  obtain ⟨R, hR, hs⟩ := h
  intro req
  rcases hR.fill _ _ _ _ req hs with h | ⟨eof, n, w', s', heq, _, hn, _⟩
  · exact Or.inl h
  cases eof with
  | true => exact Or.inr ⟨n, s', heq⟩
  | false =>
    exfalso
    cases srcs with
    | nil => simp only [byteSrc, new] at heq; cases heq
    | cons s rest =>
      simp only [byteSrc, new] at heq
      split at heq
      · cases heq
      · rename_i eof' bytes s1 hf
        have he : eof' = true := by
          rcases hw s List.mem_cons_self (max 1 (req - (StreamBuf.new B).length)) with ⟨_, _, h'⟩ | ⟨_, _, h'⟩
          · rw [h'] at hf; cases hf
          · rw [h'] at hf; cases hf; rfl
        subst he
        simp only [Bool.true_or, if_true, accumulateIntoCache] at heq
        split at heq
        · cases heq
        · split at heq
          · cases heq
          · rename_i r cache srcs' dup' _ hfill
            cases heq
            obtain ⟨h1, h2, h3, h4⟩ := StreamBuf.fillBuf_shape hfill
            simp only [StreamBuf.new, StreamBuf.newWithAlign, StreamBuf.extendFromSlice] at h1 h2 h3 h4
            rcases h4 with ⟨h4, _⟩ | ⟨_, h5 | ⟨_, h5⟩⟩
            · cases h4
            · cases h5
            · omega

theorem ConstSlicer.whole {Src : ByteSrc σ} {K F} {st : ConstSlicer σ} {w : Nat} {content : Bytes} {segs : List Seg} (h : SegDelivers (segSrc Src) K F st w content segs)
    (hw : Whole Src F st.src) : SegWhole (segSrc Src) F st := by
  obtain ⟨R, hR, hs⟩ := h
  rcases hR.fill _ _ _ _ _ hs with h | ⟨eof, bytes, count, maxc, cap, w', s', heq, _⟩
  · exact Or.inl h
  obtain ⟨hf, _⟩ := fill_inv heq
  rcases hw st.segs.minFillLen with ⟨_, _, h'⟩ | ⟨_, _, h'⟩
  · rw [h'] at hf; cases hf
  · rw [h'] at hf; cases hf
    exact Or.inr ⟨_, _, _, _, heq⟩

end Nd
