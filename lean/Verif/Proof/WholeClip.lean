import Verif.Proof.ClipAmple
import Verif.Proof.Whole
/-!
# A padded stream that is read at once
-/
namespace Nd

theorem Whole.inl {S : ByteSrc σ} {T : ByteSrc τ} {F} {s : σ} (h : Whole S F s) : Whole (sumSrc S T) F (.inl s) := by
  intro req
  rcases h req with ⟨e, he, heq⟩ | ⟨n, s', heq⟩
  · exact Or.inl ⟨e, he, by simp [sumSrc, heq]⟩
  · exact Or.inr ⟨n, .inl s', by simp [sumSrc, heq]⟩

theorem Whole.inr {S : ByteSrc σ} {T : ByteSrc τ} {F} {t : τ} (h : Whole T F t) : Whole (sumSrc S T) F (.inr t) := by
  intro req
  rcases h req with ⟨e, he, heq⟩ | ⟨n, s', heq⟩
  · exact Or.inl ⟨e, he, by simp [sumSrc, heq]⟩
  · exact Or.inr ⟨n, .inr s', by simp [sumSrc, heq]⟩

theorem ZeroStream.whole {F} {B k : Nat} (hB : 0 < B) (hk : k ≤ B) (filler : Byte) : Whole (byteSrc B) F (new B k filler) := by
  intro req
  have hs := short_new hk filler
  rcases (short_serves B hB).fill _ _ _ _ req hs with ⟨e, he, _⟩ | ⟨eof, n, w', s', heq, _⟩
  · exact he.elim
  · have := short_eof hs heq
    subst this
    exact Or.inr ⟨n, s', heq⟩

namespace ClipStream

theorem whole {S : ByteSrc σ} {F M} (hM : ∀ m, M m → AnyMargin m) {B fuel : Nat} {src : σ} {w : Nat} {c : Bytes} (hd : Delivers S F M src w c) (hs : Whole S F src) {h t : Nat}
    (hB : h + c.length + t < B) (filler : Byte) (hf : fills w c h t + 1 < fuel) :
    Whole (byteSrc (paddedSrc S B fuel) B fuel) F (new B src { pad := (h, t), clip := (0, 0), len := usizeMax } filler) := by
  have hd : Delivers S F AnyMargin src w c := hd.mono (fun _ h => h) hM
  have hsum : Faithful (sumSrc (ZeroStream.byteSrc B) S) F AnyMargin (SumRel (Live (ZeroStream.byteSrc B) F AnyMargin) (Live S F AnyMargin)) :=
    Live.faithful.sum Live.faithful
  have hz1 : ∀ k, Delivers (sumSrc (ZeroStream.byteSrc B) S) F AnyMargin (.inl (ZeroStream.new B k filler)) (ZeroStream.fills k) (List.replicate k filler) :=
    fun k => ⟨_, hsum, (ZeroStream.delivers B (by omega) k filler).mono (fun _ h => h.elim) (fun _ h => h)⟩
  have hs1 : Delivers (sumSrc (ZeroStream.byteSrc B) S) F AnyMargin (.inr src) w c := ⟨_, hsum, hd⟩
  have wz : ∀ k, k ≤ B → Whole (sumSrc (ZeroStream.byteSrc B) S) F (.inl (ZeroStream.new B k filler)) := fun k hk => (ZeroStream.whole (by omega) hk filler).inl
  have ws : Whole (sumSrc (ZeroStream.byteSrc B) S) F (.inr src) := hs.inr
  have key : ∀ p, Whole (paddedSrc S B fuel) F p → Whole (byteSrc (paddedSrc S B fuel) B fuel) F { src := p, skip := 0, rem := usizeMax, strip := 0 } := by
    intro p hp req
    rw [fill_through (R := fun _ _ _ _ => True) (ph := .idle 0) (w := 0) (rem := []) (by omega) ⟨rfl, rfl, show 0 < usizeMax by decide, trivial, by simp⟩]
    simp only
    rcases hp (min usizeMax req + 1) with ⟨e, he, heq⟩ | ⟨n, s', heq⟩
    · exact Or.inl ⟨e, he, by rw [heq]⟩
    · exact Or.inr ⟨min usizeMax n, { src := s', skip := 0, rem := usizeMax, strip := 0 }, by rw [heq]; simp⟩
  unfold new pad
  refine key _ ?_
  unfold paddedSrc
  rcases h with _ | h <;> rcases t with _ | t
  · exact hs.inl
  · refine (CatStream.whole (content := (([(w, c), (ZeroStream.fills (t + 1), List.replicate (t + 1) filler)] : List (Nat × Bytes)).map Prod.snd).flatten) (by simp; omega)
      (CatStream.delivers (fun _ h => h) (by omega) (.cons hs1 (.cons (hz1 (t + 1)) .nil)) (by simp [CatStream.fills, fills] at hf ⊢; omega)) ?_).inr
    simpa using ⟨ws, wz _ (by omega)⟩
  · refine (CatStream.whole (content := (([(ZeroStream.fills (h + 1), List.replicate (h + 1) filler), (w, c)] : List (Nat × Bytes)).map Prod.snd).flatten) (by simp; omega)
      (CatStream.delivers (fun _ h => h) (by omega) (.cons (hz1 (h + 1)) (.cons hs1 .nil)) (by simp [CatStream.fills, fills] at hf ⊢; omega)) ?_).inr
    simpa using ⟨wz _ (by omega), ws⟩
  · refine (CatStream.whole (content := (([(ZeroStream.fills (h + 1), List.replicate (h + 1) filler), (w, c), (ZeroStream.fills (t + 1), List.replicate (t + 1) filler)] : List (Nat × Bytes)).map Prod.snd).flatten)
      (by simp; omega) (CatStream.delivers (fun _ h => h) (by omega) (.cons (hz1 (h + 1)) (.cons hs1 (.cons (hz1 (t + 1)) .nil))) (by simp [CatStream.fills, fills] at hf ⊢; omega)) ?_).inr
    simpa using ⟨wz _ (by omega), ws, wz _ (by omega)⟩

end ClipStream
end Nd
