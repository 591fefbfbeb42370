import Verif.Proof.Grow
import Verif.Proof.Whole
/-!
# Streams that are read at once need not grow
-/
namespace Nd

theorem Serves.whole {S : ByteSrc σ} {F M L s w content} {R : σ → Phase → Nat → Bytes → Prop} {E : σ → Prop} (h1 : Serves S F M R) (h2 : Ample S R L E) (h3 : R s (.idle 1) w content)
    (hw : Whole S F s) (H : Nat) : ∃ R', Serves S F M R' ∧ Ample S R' L E ∧ Grows S R' H ∧ R' s (.idle 1) w content ∧ ∀ s ph w rem, R' s ph w rem → R s ph w rem := by
  refine ⟨fun s' ph w rem => R s' ph w rem ∧ (E s' ∨ (s' = s ∧ ph = .idle 1)), ⟨?_, ?_⟩, ⟨?_, h2.consume, ?_, fun hL s n w rem s1 req n' s2 hR => h2.far hL s n w rem s1 req n' s2 hR.1⟩, ⟨?_, ?_⟩, ⟨h3, Or.inr ⟨rfl, rfl⟩⟩, fun _ _ _ _ h => h.1⟩
  · rintro s' ph w' rem req ⟨hR, hE⟩
    rcases h1.fill _ _ _ _ req hR with h | ⟨eof, n, w2, s2, heq, hR', hrest⟩
    · exact Or.inl h
    · refine Or.inr ⟨eof, n, w2, s2, heq, ⟨hR', Or.inl ?_⟩, hrest⟩
      obtain ⟨_, a2, a3⟩ := h2.fill _ _ _ _ _ _ _ _ hR heq
      rcases hE with hE | ⟨rfl, _⟩
      · exact a2.2 (a3 hE)
      · rcases hw req with ⟨_, _, h'⟩ | ⟨_, _, h'⟩
        · rw [heq] at h'; cases h'
        · rw [heq] at h'; cases h'
          exact a2.2 rfl
  · rintro s' n w' rem k ⟨hR, hE⟩ hk
    obtain ⟨s2, w2, heq2, hR2, hw2⟩ := h1.consume _ _ _ _ k hR hk
    refine ⟨s2, w2, heq2, ⟨hR2, Or.inl ?_⟩, hw2⟩
    rcases hE with hE | ⟨_, h⟩
    · exact (h2.consume _ _ _ heq2).2 hE
    · cases h
  · intro s' ph w' rem req eof n s2 hR heq
    exact h2.fill _ _ _ _ _ _ _ _ hR.1 heq
  · intro s' n w' rem k s1 req eof n' s2 hR
    exact h2.keep _ _ _ _ _ _ _ _ _ _ hR.1
  · rintro s' n w' rem req n' s2 ⟨hR, hE⟩ heq
    rcases hE with hE | ⟨_, h⟩
    · have := (h2.fill _ _ _ _ _ _ _ _ hR heq).2.2 hE
      cases this
    · cases h
  · rintro s' n w' rem k s1 req n' s2 ⟨hR, hE⟩ hk hc heq
    obtain ⟨s1', w1, heq1, hR1, _⟩ := h1.consume _ _ _ _ k hR hk
    have : s1' = s1 := by
      have := heq1.symm.trans hc
      cases this; rfl
    subst this
    rcases hE with hE | ⟨_, h⟩
    · have := (h2.fill _ _ _ _ _ _ _ _ hR1 heq).2.2 ((h2.consume _ _ _ hc).2 hE)
      cases this
    · cases h

theorem ServesAmply.whole {S : ByteSrc σ} {F M L s w content} (h : ServesAmply S F M L s w content) (hw : Whole S F s) (H : Nat) : ServesGrowing S F M H s w content := by
  obtain ⟨R, E, h1, h2, h3, _⟩ := h
  obtain ⟨R', g1, g2, g3, g4, _⟩ := h1.whole h2 h3 hw H
  exact ⟨R', L, E, g1, g2, g3, g4⟩

end Nd
