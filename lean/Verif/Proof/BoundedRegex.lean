import Verif.Proof.BoundedGuide
import Verif.Proof.RegexFlow
/-!
# The sizes of the buffers between a stream and the matches printed by `--regex`
-/
namespace Nd
open Nd.Spec

/-- The slices of `--width`. -/
theorem ConstSlicer.spares {S : ByteSrc σ} {s₀ : σ} {P W M esc N : Nat} (hN : ∀ s n e, LentTo S (W + esc + P + 1) (W + esc + 2 * P) s₀ s n e → n ≤ N)
    (hL : ∀ s n, LentTo S (W + esc + P + 1) (W + esc + 2 * P) s₀ s n false → W + esc + P + 1 ≤ n) :
    (segSrc S).Spares (AtRest S s₀ P W M esc N) (Spent S s₀ P W esc N) (N / P + 1) W :=
  fun _ _ _ _ _ _ _ _ h hf hc => h.round hN hL hf hc

namespace RegexSlicer

theorem scan_bounds {find : Bytes → List Seg} (hf : Searcher find) (hne : ∀ l, ∀ m ∈ find l, 0 < m.len) (hstrict : ∀ l, (find l).Pairwise fun x y => x.pos < y.pos) (scanned cap W : Nat) (stream : Bytes) :
    ∀ (segs ms : List Seg), scan find scanned stream segs = .ok ms → (∀ s ∈ segs, s.tail ≤ cap ∧ s.len ≤ W) → ms.length ≤ segs.length * W ∧ ∀ m ∈ ms, m.pos < cap ∧ m.len ≤ W
  | [], ms, h, _ => by
    cases h
    simp
  | s :: rest, ms, h, hs => by
    have ih := scan_bounds hf hne hstrict scanned cap W stream rest
    have hs0 := hs s List.mem_cons_self
    have hs1 : ∀ s ∈ rest, s.tail ≤ cap ∧ s.len ≤ W := fun x hx => hs x (List.mem_cons_of_mem _ hx)
    rw [scan] at h
    rw [List.length_cons, Nat.add_mul, Nat.one_mul]
    split at h
    · obtain ⟨h1, h2⟩ := ih ms h hs1
      exact ⟨by omega, h2⟩
    · split at h
      · cases h
      · split at h
        · cases h
        · rename_i ms' hms
          cases h
          obtain ⟨h1, h2⟩ := ih ms' hms hs1
          have hb : (s.bytes stream).length ≤ s.len := by
            simp only [Seg.bytes, List.length_take]
            omega
          have hw : ∀ m ∈ find (s.bytes stream), 0 < m.len ∧ m.pos + m.len ≤ s.len := by
            intro m hm
            have g1 := hf.within _ m hm
            have g2 := hne _ m hm
            simp only [Seg.tail] at g1
            omega
          have hcount := strict_length (find (s.bytes stream)) 0 s.len (hstrict _) fun m hm => by
            have := hw m hm
            omega
          refine ⟨by rw [List.length_append, List.length_map]; omega, ?_⟩
          intro m hm
          rcases List.mem_append.1 hm with hm | hm
          · obtain ⟨x, hx, rfl⟩ := List.mem_map.1 hm
            have := hw x hx
            simp only [Seg.tail] at hs0 ⊢
            omega
          · exact h2 m hm

/-- The slicer between two rounds: every match has been passed on. -/
structure AtRest (R : σ → SegPhase → Nat → Bytes → List Seg → Prop) (P : σ → Prop) (st : RegexSlicer σ) : Prop where
  src : P st.src
  matches_ : st.matches_ = []
  idle : ∃ lb w rem segs, R st.src (.idle lb) w rem segs

/-- After the end. -/
structure Spent (Q : σ → Prop) (st : RegexSlicer σ) : Prop where
  src : Q st.src
  matches_ : st.matches_ = []

theorem spares {find : Bytes → List Seg} (hf : Searcher find) (hne : ∀ l, ∀ m ∈ find l, 0 < m.len) (hstrict : ∀ l, (find l).Pairwise fun x y => x.pos < y.pos) {S : SegSrc σ} {K F R}
    (h : SegFaithful S K F R) (hfl : Flush S R) (hho : K.honest = true) {P Q : σ → Prop} {C W : Nat} (hsp : S.Spares P Q C W) :
    (segSrc find S).Spares (AtRest R P) (Spent Q) (C * W) W := by
  rintro ⟨src, ms0, sc⟩ st1 st2 eof bytes count cap ⟨k, c⟩ ⟨hP, rfl, lb, w, rem, segs, hR⟩ hfill hcons
  simp only at hP hR
  simp only [segSrc, fill] at hfill
  split at hfill
  · cases hfill
  rename_i eof' bytes' count' maxc src1 hsf
  split at hfill
  · cases hfill
  split at hfill
  · cases hfill
  rename_i ms hscan
  simp only [List.nil_append, Except.ok.injEq, Prod.mk.injEq] at hfill
  obtain ⟨⟨rfl, rfl, rfl, rfl⟩, rfl⟩ := hfill
  rcases h.fill _ _ _ _ _ hR with ⟨e, _, heq⟩ | ⟨eof, bytes, count, maxc', cap, w', s', heq, hR', hl, hcb, hdrop, hmax, heof, _, hw, hw', _⟩
  · rw [hsf] at heq
    cases heq
  rw [hsf] at heq
  cases heq
  obtain rfl : maxc = cap := by
    rcases hmax with hmax | hmax
    · exact hmax
    · rw [hho] at hmax
      exact absurd hmax.2.2.1 (by simp)
  obtain ⟨k', c', w2, s2, hc, _, _, _, _, _, hR2, _⟩ := h.consume _ _ _ _ _ _ _ maxc hR' (Or.inr (Or.inl rfl))
  obtain ⟨rfl, htail⟩ := hfl _ _ _ _ _ _ _ _ _ _ hR' hc
  obtain ⟨q1, q2, q3, q4⟩ := hsp _ _ _ _ _ _ _ _ hP hsf hc
  rw [hl.segs_eq] at hscan q4
  rw [List.take_take, Nat.min_self] at hscan
  obtain ⟨b1, b2⟩ := scan_bounds hf hne hstrict sc k' W _ _ ms hscan fun s hs => ⟨htail s hs, q4 s hs⟩
  have hlen : ms.length ≤ C * W := by
    refine Nat.le_trans b1 (Nat.mul_le_mul_right _ ?_)
    rw [List.length_take]
    omega
  simp only [segSrc, hc] at hcons
  have hst2 : st2.src = s2 ∧ st2.matches_ = [] := by
    split at hcons
    · rename_i h0
      cases hcons
      refine ⟨rfl, ?_⟩
      cases ms with
      | nil => rfl
      | cons x l =>
        have := (b2 x List.mem_cons_self).1
        omega
    · have hcut := cutSegs_split k' ms [] (fun x hx => (b2 x hx).1) (by simp)
      rw [List.append_nil] at hcut
      rw [hcut] at hcons
      split at hcons
      · rename_i h1 h2
        cases hcons
        cases h1
        exact ⟨rfl, rfl⟩
      · cases hcons
  obtain ⟨hs2, hm2⟩ := hst2
  refine ⟨⟨by rw [hs2]; exact q1, hm2⟩, fun he => ⟨by rw [hs2]; exact q2 he, hm2, ?_⟩, hlen, fun x hx => (b2 x hx).2⟩
  subst he
  rw [if_neg (by simp)] at hR2
  exact ⟨_, _, _, _, by rw [hs2]; exact hR2⟩

end RegexSlicer
end Nd
