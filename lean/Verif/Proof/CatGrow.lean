import Verif.Proof.Grow
import Verif.Proof.CatAmple
/-!
# `CatStream` over a single source grows as the source does
-/
namespace Nd.CatStream

/-- The only source is in use and nothing is cached. -/
def Single (R : σ → Phase → Nat → Bytes → Prop) (c : CatStream σ) (ph : Phase) (rem : Bytes) : Prop :=
  c.srcs = [] ∨ ∃ s w, c.srcs = [s] ∧ c.cache.length = 0 ∧ c.dup = 0 ∧
    match ph with
    | .lent n => R s (.lent n) w rem
    | .idle _ => ∃ lb, R s (.idle lb) w rem

/-- A fill passes the answer of the source on unless it is the end. -/
theorem single_fill {S : ByteSrc σ} {B fuel : Nat} {c : CatStream σ} {s : σ} (hs : c.srcs = [s]) (hc : c.cache.length = 0) (he : c.cache.isEof = false) {req n : Nat} {c' : CatStream σ}
    (h : (byteSrc S B fuel).fill c req = .ok ((false, n), c')) :
    ∃ s', S.fill s (max 1 (req - 0)) = .ok ((false, n), s') ∧ c' = { srcs := [s'], dup := 0, cache := c.cache } := by
  simp only [byteSrc, hs, hc] at h
  split at h
  · cases h
  · rename_i eof bytes s1 hf
    cases eof with
    | false =>
      simp only [Bool.false_or, Nat.lt_irrefl, gt_iff_lt, decide_false, Bool.false_eq_true, if_false, Except.ok.injEq, Prod.mk.injEq] at h
      obtain ⟨⟨_, rfl⟩, rfl⟩ := h
      exact ⟨s1, hf, rfl⟩
    | true =>
      exfalso
      simp only [Bool.true_or, if_true, accumulateIntoCache] at h
      split at h
      · cases h
      · simp only [StreamBuf.fillBuf, StreamBuf.extendFromSlice, he, Bool.false_eq_true, if_false] at h
        cases fuel with
        | zero => simp only [StreamBuf.fillLoop] at h; cases h
        | succ fuel =>
          simp only [StreamBuf.fillLoop, feed] at h
          cases hk : S.consume s1 bytes with
          | error e => rw [hk] at h; cases h
          | ok s2 =>
            rw [hk] at h
            simp only [if_true] at h
            cases h

theorem single_growing {S : ByteSrc σ} {F M} {H B fuel w : Nat} {s : σ} {content : Bytes} (h : ServesGrowing S F M H s w content) (hM : ∀ m, M m → AnyMargin m) (hB : 0 < B)
    (hf : fills [(w, content)] < fuel) : ServesGrowing (byteSrc S B fuel) F AnyMargin H (new B [s]) (fills [(w, content)]) content := by
  obtain ⟨R, L, E, h1, h2, h3, h4⟩ := h
  obtain ⟨hS, hA⟩ := ample h1 h2 hM (fuel := fuel) hB
  have hok : ∀ (c : CatStream σ) (ph : Phase) (w : Nat) (rem : Bytes) (s : σ), AmpleRel R B fuel c ph w rem → c.srcs = [s] → c.cache.isEof = false := by
    rintro c ph w rem s ⟨_, hc | ⟨hc, _⟩⟩ hs
    · rw [hs] at hc; cases hc
    · exact hc
  have hfill : ∀ (c : CatStream σ) (ph : Phase) (w : Nat) (rem : Bytes) (req : Nat) (eof : Bool) (n : Nat) (c' : CatStream σ),
      AmpleRel R B fuel c ph w rem → Single R c ph rem → (byteSrc S B fuel).fill c req = .ok ((eof, n), c') → Single R c' (.lent n) rem := by
    intro c ph w rem req eof n c' hR hs heq
    obtain ⟨_, a2, a3⟩ := hA.fill _ _ _ _ _ _ _ _ hR heq
    cases eof with
    | true => left; exact a2.2 rfl
    | false =>
      rcases hs with hs | ⟨s, w1, hs, hc, hd, hRs⟩
      · exact absurd (a3 hs) (by simp)
      · obtain ⟨s', hf', rfl⟩ := single_fill hs hc (hok _ _ _ _ _ hR hs) heq
        right
        have hRs' : ∃ ph', R s ph' w1 rem := by
          cases ph with
          | lent m => exact ⟨_, hRs⟩
          | idle lb => obtain ⟨lb, hRs⟩ := hRs; exact ⟨_, hRs⟩
        obtain ⟨ph', hRs'⟩ := hRs'
        rcases h1.fill _ _ _ _ (max 1 (req - 0)) hRs' with ⟨e, _, h'⟩ | ⟨_, _, w2, _, h', hR', _⟩
        · rw [hf'] at h'; cases h'
        · rw [hf'] at h'; cases h'
          exact ⟨s', w2, rfl, hc, rfl, hR'⟩
  have hcons : ∀ (c : CatStream σ) (n w : Nat) (rem : Bytes) (k : Nat) (c' : CatStream σ) (s : σ) (ws : Nat), k ≤ n → c.srcs = [s] → c.cache.length = 0 → R s (.lent n) ws rem →
      (byteSrc S B fuel).consume c k = .ok c' → ∃ s' w' lb, S.consume s k = .ok s' ∧ c' = { c with srcs := [s'] } ∧ R s' (.idle lb) w' (rem.drop k) := by
    intro c n w rem k c' s ws hk hs hc hR heq
    obtain ⟨s2, w2, heq2, hR2, _⟩ := h1.consume _ _ _ _ k hR hk
    simp only [byteSrc, hs, hc, if_true, heq2] at heq
    cases heq
    exact ⟨s2, w2, _, heq2, rfl, hR2⟩
  refine ⟨fun c ph w rem => AmpleRel R B fuel c ph w rem ∧ Single R c ph rem, min L ((B - 1784) / 8), (fun c => c.srcs = []), ⟨?_, ?_⟩, ⟨?_, hA.consume, ?_, fun hL s n w rem s1 req n' s2 hR => hA.far hL s n w rem s1 req n' s2 hR.1⟩, ⟨?_, ?_⟩, ?_⟩
  · rintro c ph w rem req ⟨hR, hs⟩
    rcases hS.fill _ _ _ _ req hR with h' | ⟨eof, n, w', c', heq, hR', hrest⟩
    · exact Or.inl h'
    · exact Or.inr ⟨eof, n, w', c', heq, ⟨hR', hfill _ _ _ _ _ _ _ _ hR hs heq⟩, hrest⟩
  · rintro c n w rem k ⟨hR, hs⟩ hk
    obtain ⟨c2, w2, heq2, hR2, hw2⟩ := hS.consume _ _ _ _ k hR hk
    refine ⟨c2, w2, heq2, ⟨hR2, ?_⟩, hw2⟩
    rcases hs with hs | ⟨s, w1, hs, hc, hd, hRs⟩
    · left; exact (hA.consume _ _ _ heq2).2 hs
    · obtain ⟨s', w', lb, _, rfl, hR'⟩ := hcons _ _ w _ _ _ _ _ hk hs hc hRs heq2
      exact Or.inr ⟨s', w', rfl, hc, hd, lb, hR'⟩
  · intro c ph w rem req eof n c' hR heq
    exact hA.fill _ _ _ _ _ _ _ _ hR.1 heq
  · intro c n w rem k c1 req eof n' c2 hR
    exact hA.keep _ _ _ _ _ _ _ _ _ _ hR.1
  · rintro c n w rem req n' c' ⟨hR, hs⟩ heq
    rcases hs with hs | ⟨s, w1, hs, hc, hd, hRs⟩
    · exact absurd ((hA.fill _ _ _ _ _ _ _ _ hR heq).2.2 hs) (by simp)
    · obtain ⟨s', hf', rfl⟩ := single_fill hs hc (hok _ _ _ _ _ hR hs) heq
      exact h3.more _ _ _ _ _ _ _ hRs hf'
  · rintro c n w rem k c1 req n' c2 ⟨hR, hs⟩ hk hcon heq
    rcases hs with hs | ⟨s, w1, hs, hc, hd, hRs⟩
    · obtain ⟨c1', w1, heq1, hR1, _⟩ := hS.consume _ _ _ _ k hR hk
      have : c1' = c1 := by
        have := heq1.symm.trans hcon
        cases this; rfl
      subst this
      exact absurd ((hA.fill _ _ _ _ _ _ _ _ hR1 heq).2.2 ((hA.consume _ _ _ hcon).2 hs)) (by simp)
    · have he := hok _ _ _ _ _ hR hs
      obtain ⟨s', w', lb, hcs, rfl, hR'⟩ := hcons _ _ w _ _ _ _ _ hk hs hc hRs hcon
      obtain ⟨s2, hf', _⟩ := single_fill (c := { c with srcs := [s'] }) rfl hc he heq
      exact h3.next _ _ _ _ _ _ _ _ _ hRs hk hcs hf'
  · refine ⟨?_, Or.inr ⟨s, w, rfl, rfl, rfl, 1, h4⟩⟩
    have hfr := fresh_of_forall (R := R) (srcs := [s]) (cs := [(w, content)]) (List.Forall₂.cons h4 List.Forall₂.nil)
    obtain ⟨w1, c1, c2, W2, hc, hR, hfr, hW⟩ := hfr
    refine ⟨⟨⟨rfl, rfl, [], _, _, w1, c1, c2, W2, StreamBuf.View.new B 1 0, hR, hfr, hW, Or.inl ⟨rfl, ?_, rfl, hB, 1, rfl, Nat.le_refl _, Nat.le_refl _, by omega⟩⟩, hf⟩, Or.inr ⟨rfl, StreamBuf.Ready.new B 1 0, fun _ _ => rfl⟩⟩
    simpa using hc

end Nd.CatStream
