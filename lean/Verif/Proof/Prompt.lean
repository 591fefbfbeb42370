import Verif.Proof.WholeClip
import Verif.Proof.PatchBack
/-!
# What the first fill lends
-/
namespace Nd

/-- The first fill lends what it is asked for, and at least `D` bytes, or reports the end. -/
def Prompt (S : ByteSrc σ) (D : Nat) (s : σ) : Prop := ∀ req n s', S.fill s req = .ok ((false, n), s') → max D req ≤ n

/-- A fresh stream with a buffer lends a block, or what it is asked for, before its end. -/
theorem buffered_prompt (B fuel align : Nat) (filler : Byte) (f : StreamBuf.Closure τ) (t : τ) :
    Prompt (bufferedSrc B fuel f) B { inner := t, buf := StreamBuf.newWithAlign B align filler } := by
  intro req n s' heq
  simp only [bufferedSrc] at heq
  split at heq
  · cases heq
  · rename_i r buf t hfill
    cases heq
    obtain ⟨h1, h2, h3, h4⟩ := StreamBuf.fillBuf_shape hfill
    simp only [StreamBuf.newWithAlign] at h1 h2 h3 h4
    rcases h4 with ⟨h4, _⟩ | ⟨_, h5 | ⟨_, h5⟩⟩
    · cases h4
    · cases h5
    · omega

theorem Prompt.inl {S : ByteSrc σ} {T : ByteSrc τ} {D} {s : σ} (h : Prompt S D s) : Prompt (sumSrc S T) D (.inl s) := by
  intro req n s' heq
  simp only [sumSrc] at heq
  split at heq
  · cases heq
  · rename_i r s1 hf
    cases heq
    exact h _ _ _ hf

theorem Prompt.inr {S : ByteSrc σ} {T : ByteSrc τ} {D} {t : τ} (h : Prompt T D t) : Prompt (sumSrc S T) D (.inr t) := by
  intro req n s' heq
  simp only [sumSrc] at heq
  split at heq
  · cases heq
  · rename_i r s1 hf
    cases heq
    exact h _ _ _ hf

/-- A stream that fits in a block never lends without reporting the end. -/
theorem ZeroStream.prompt {B k D : Nat} (hk : k ≤ B) (filler : Byte) : Prompt (byteSrc B) D (new B k filler) := by
  intro req n s' heq
  simp only [byteSrc, new] at heq
  split at heq
  · cases heq
  · simp only [Except.ok.injEq, Prod.mk.injEq, decide_eq_false_iff_not] at heq
    omega

theorem CatStream.prompt {S : ByteSrc σ} {B fuel : Nat} {s : σ} {rest : List σ} (h : Prompt S B s) : Prompt (byteSrc S B fuel) B (new B (s :: rest)) := by
  intro req n s' heq
  simp only [byteSrc, new] at heq
  have hl : (StreamBuf.new B).length = 0 := rfl
  split at heq
  · cases heq
  · rename_i eof' bytes s1 hf
    split at heq
    · simp only [accumulateIntoCache] at heq
      split at heq
      · cases heq
      · split at heq
        · cases heq
        · rename_i r cache srcs' dup' _ hfill
          cases heq
          obtain ⟨h1, h2, h3, h4⟩ := StreamBuf.fillBuf_shape hfill
          simp only [StreamBuf.new, StreamBuf.newWithAlign, StreamBuf.extendFromSlice, StreamBuf.length] at h1 h2 h3 h4
          rcases h4 with ⟨h4, _⟩ | ⟨_, h5 | ⟨_, h5⟩⟩
          · cases h4
          · cases h5
          · omega
    · cases heq
      have := h _ _ _ hf
      omega

theorem ClipStream.prompt {S : ByteSrc σ} {B fuel : Nat} {src : σ} (hs : Prompt S B src) (hf : 0 < fuel) {h t : Nat} (hh : h ≤ B) (filler : Byte) :
    Prompt (byteSrc (paddedSrc S B fuel) B fuel) B (new B src { pad := (h, t), clip := (0, 0), len := usizeMax } filler) := by
  have key : ∀ p, Prompt (paddedSrc S B fuel) B p → Prompt (byteSrc (paddedSrc S B fuel) B fuel) B { src := p, skip := 0, rem := usizeMax, strip := 0 } := by
    intro p hp req n s' heq
    rw [fill_through (R := fun _ _ _ _ => True) (ph := .idle 0) (w := 0) (rem := []) hf ⟨rfl, rfl, show 0 < usizeMax by decide, trivial, by simp⟩] at heq
    simp only at heq
    split at heq
    · cases heq
    · rename_i eof bytes s1 h1
      simp only [Except.ok.injEq, Prod.mk.injEq, Bool.or_eq_false_iff, decide_eq_false_iff_not] at heq
      obtain ⟨⟨⟨rfl, h2⟩, h3⟩, _⟩ := heq
      have := hp _ _ _ h1
      omega
  unfold new pad
  refine key _ ?_
  unfold paddedSrc
  rcases h with _ | h <;> rcases t with _ | t
  · exact hs.inl
  · exact (CatStream.prompt hs.inr).inr
  · exact (CatStream.prompt (ZeroStream.prompt hh filler).inl).inr
  · exact (CatStream.prompt (ZeroStream.prompt hh filler).inl).inr

theorem TeeStream.prompt {S : ByteSrc σ} {D} {s : σ} (h : Prompt S D s) : Prompt (byteSrc S) D (new s) := by
  intro req n s' heq
  simp only [byteSrc, new] at heq
  split at heq
  · cases heq
  · rename_i r s1 hf
    cases heq
    exact h _ _ _ hf

end Nd
