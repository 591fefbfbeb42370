import Verif.Proof.BoundedFind
import Verif.Proof.Guided
/-!
# The sizes of the buffers between a stream and the slices printed by `--guide`
-/
namespace Nd

/-- Between two slices, and in front of the first one, there are at most `G` bytes. -/
structure Near (G : Nat) (segs : List Seg) : Prop where
  first : ∀ x, segs[0]? = some x → x.pos ≤ G
  next : ∀ i x y, segs[i]? = some x → segs[i + 1]? = some y → y.pos ≤ x.tail + G

theorem Near.cut {G k c : Nat} {segs : List Seg} (h : Near G segs) (hc : ∀ x, segs[c]? = some x → x.pos ≤ k + G) : Near G ((segs.drop c).map (Seg.shift k)) := by
  constructor
  · intro x hx
    rw [List.getElem?_map, List.getElem?_drop, Nat.add_zero] at hx
    cases hy : segs[c]? with
    | none =>
      rw [hy] at hx
      cases hx
    | some y =>
      rw [hy] at hx
      cases hx
      have := hc y hy
      simp only [Seg.shift]
      omega
  · intro i x y hx hy
    rw [List.getElem?_map, List.getElem?_drop] at hx hy
    cases hx' : segs[c + i]? with
    | none =>
      rw [hx'] at hx
      cases hx
    | some x' =>
      cases hy' : segs[c + (i + 1)]? with
      | none =>
        rw [hy'] at hy
        cases hy
      | some y' =>
        rw [hx'] at hx
        rw [hy'] at hy
        cases hx
        cases hy
        have := h.next _ _ _ hx' hy'
        simp only [Seg.shift, Seg.tail] at this ⊢
        omega

/-- Slices with different positions below `n` are at most `n`. -/
theorem strict_length : ∀ (segs : List Seg) (a n : Nat), segs.Pairwise (fun x y => x.pos < y.pos) → (∀ x ∈ segs, a ≤ x.pos ∧ x.pos < n) → segs.length ≤ n - a
  | [], _, _, _, _ => Nat.zero_le _
  | x :: segs, a, n, h, hb => by
    rw [List.pairwise_cons] at h
    have h1 := hb x List.mem_cons_self
    have := strict_length segs (x.pos + 1) n h.2 fun y hy => ⟨h.1 y hy, (hb y (List.mem_cons_of_mem _ hy)).2⟩
    rw [List.length_cons]
    omega

namespace GuidedSlicer

/-- The slicer between two rounds. -/
structure AtRest (Src : ByteSrc σ) (R : σ → Phase → Nat → Bytes → Prop) (Q : τ → List Rec → Prop) (L fuel G B : Nat) (s₀ : σ) (st : GuidedSlicer σ τ) : Prop where
  src : Visited Src (B + G + L) L s₀ st.src
  idle : ∃ w rem segs, Idle Src R Q L fuel st w rem segs ∧ Near G segs

/-- At most one slice waits. -/
theorem AtRest.waiting {Src : ByteSrc σ} {R : σ → Phase → Nat → Bytes → Prop} {Q : τ → List Rec → Prop} {L fuel G B : Nat} {s₀ : σ} {st : GuidedSlicer σ τ} (h : AtRest Src R Q L fuel G B s₀ st) :
    st.segments.length ≤ 1 := by
  obtain ⟨_, _, _, ⟨_, _, _, _, hW⟩, _⟩ := h.idle
  rcases hW with hW | ⟨H, hW, _⟩ <;> rw [hW] <;> simp

theorem sparing {P : RecSrc τ} {Src : ByteSrc σ} {F M R L E} {Q : τ → List Rec → Prop}
    (hQ : ∀ t recs, Q t recs → (∃ e, F e ∧ P.read t = .error e) ∨ (¬ (false = true ∧ recs = []) ∧ ∃ t', P.read t = .ok (recs.head?, t') ∧ Q t' recs.tail))
    (h : Serves Src F M R) (hA : Ample Src R L E) (hFar : Far Src R) (hM : ∀ m, M m → AnyMargin m) (B fuel G N : Nat) {s₀ : σ}
    (hN : ∀ s n e, LentTo Src (B + G + L) L s₀ s n e → n ≤ N) :
    (segSrc Src P B fuel).Sparing (AtRest Src R Q L fuel G B s₀) N L := by
  rintro st st1 st2 eof bytes count cap ⟨k, c⟩ ⟨hvis, w, rem, segs, hI, hnear⟩ hf hc
  have hfaith := faithful hQ h hA hFar hM B fuel
  obtain ⟨recs, lb, hC, hR, hW⟩ := hI
  simp only [segSrc, fill] at hf
  split at hf
  · cases hf
  rename_i e n src1 hsf
  split at hf
  · cases hf
  rename_i st' hloop
  cases hf
  have hreq : max B ((st.segments.getLast?.map Seg.tail).getD 0) ≤ B + G + L := by
    rcases hW with hW | ⟨H, hH, _⟩
    · rw [hW]
      simp
      omega
    · have hsegs := hC.all
      rw [hH] at hsegs ⊢
      have h1 := hnear.first H (by rw [hsegs]; rfl)
      have h2 := hC.good.each H (by rw [hsegs]; simp)
      simp only [List.getLast?_singleton, Option.map_some, Option.getD_some, Seg.tail]
      omega
  have hlent : LentTo Src (B + G + L) L s₀ src1 bytes eof := ⟨_, _, hvis, hreq, hsf⟩
  have hn := hN _ _ _ hlent
  rcases h.fill _ _ _ _ (max B ((st.segments.getLast?.map Seg.tail).getD 0)) hR with ⟨er, _, heq⟩ | ⟨eof', n', w', s', heq, hR', hnr, hm, he', hne', hw', hw''⟩
  · rw [hsf] at heq
    cases heq
  rw [hsf] at heq
  cases heq
  obtain ⟨a1, a2, a3⟩ := hA.fill _ _ _ _ _ _ _ _ hR hsf
  have hv : ∀ x ∈ st.segments, x.tail ≤ bytes := by
    intro x hx
    cases eof with
    | true =>
      rw [he' rfl]
      exact (hC.good.each x (by rw [hC.all]; exact List.mem_append_left _ hx)).2.2
    | false =>
      rcases hW with hW | ⟨H, hH, hW⟩
      · rw [hW] at hx
        cases hx
      · rw [hH] at hx hsf
        simp only [List.mem_singleton] at hx
        subst hx
        rcases hW with hW | hW
        · have := a1 rfl
          omega
        · have := hW _ _ _ hsf
          simp only [List.getLast?_singleton, Option.map_some, Option.getD_some] at this
          omega
  have hC' : Common Q L fuel { st with src := src1, maxConsume := bytes } rem segs recs := ⟨hC.guide, hC.all, hC.later, hC.small, hC.fuel, hC.good⟩
  rcases loop_spec hQ eof hnr he' fuel _ recs hC' hv rfl with ⟨e, _, hl⟩ | ⟨st'', recs', hl, g1, g2, g3, g4⟩
  · simp only at hl
    rw [hloop] at hl
    cases hl
  simp only at hl g3 g4
  rw [hloop] at hl
  cases hl
  have hrel : Rel Src R Q L fuel st1 (.lent eof st1.guideConsumed st1.maxConsume) w' rem segs := ⟨recs', bytes, g1, by rw [g3]; exact hR', hnr, rfl, rfl, he', g2⟩
  obtain ⟨k', c', w2, st2', hc', h1, h2, h3, h4, h5, h6, h7, h8, h9, h10⟩ := hfaith.consume _ _ _ _ _ _ _ st1.maxConsume hrel (Or.inr (Or.inl rfl))
  rw [hc] at hc'
  cases hc'
  have hcc : c = st1.guideConsumed := h9 rfl (Nat.le_refl _)
  subst hcc
  simp only [segSrc, Nat.min_self] at hc
  split at hc
  · cases hc
  rename_i src2 hsc
  split at hc
  · cases hc
  cases hc
  have hstrict := g1.good.strict
  have hlens : ∀ x ∈ st1.segments, x.len ≤ L := fun x hx => (g1.good.each x (by rw [g1.all]; exact List.mem_append_left _ hx)).2.1
  have hin : ∀ x ∈ st1.segments, 0 < x.len := fun x hx => (g1.good.each x (by rw [g1.all]; exact List.mem_append_left _ hx)).1
  rw [g1.all] at hstrict
  have hst := (List.pairwise_append.1 hstrict).1
  have key : st1.maxConsume ≤ bytes ∧ bytes - st1.maxConsume ≤ L ∧ st1.guideConsumed ≤ bytes ∧ ∀ x, segs[st1.guideConsumed]? = some x → x.pos ≤ st1.maxConsume + G := by
    rcases g2 with ⟨k1, k2, k3, k4⟩ | ⟨v, H, k1, k2, k3, k4, k5⟩
    · refine ⟨by omega, by omega, ?_, ?_⟩
      · rw [k2]
        have := strict_length st1.segments 0 bytes hst fun x hx => by
          have h1 := k4 x hx
          have h2 := hin x hx
          simp only [Seg.tail] at h1
          omega
        omega
      · intro x hx
        rw [g1.all, k1, k2] at hx
        simp at hx
    · have hH := hlens H (by rw [k1]; simp)
      refine ⟨by omega, by simp only [Seg.tail] at k4; omega, ?_, ?_⟩
      · rw [k2]
        rw [k1] at hst
        have := strict_length v 0 bytes (List.pairwise_append.1 hst).1 fun x hx => by
          have h1 := k3 x hx
          have h2 := hin x (by rw [k1]; exact List.mem_append_left _ hx)
          simp only [Seg.tail] at h1
          omega
        omega
      · intro x hx
        have hsegs : segs = v ++ H :: recs'.map (pending st1.srcConsumed) := by
          rw [g1.all, k1]
          simp
        have hx' : x = H := by
          rw [hsegs, k2] at hx
          simp at hx
          exact hx.symm
        subst hx'
        rcases List.eq_nil_or_concat v with hv0 | ⟨v', y, hv0⟩
        · have := hnear.first x (by rw [hsegs, hv0]; rfl)
          omega
        · have h1 := hnear.next v'.length y x (by rw [hsegs, hv0]; simp) (by rw [hsegs, hv0]; simp)
          have h2 := k3 y (by rw [hv0]; simp)
          omega
  obtain ⟨q1, q2, q3, q4⟩ := key
  rw [g3] at hsc
  refine ⟨⟨hlent.consume q1 (fun _ => q2) hsc, w2, rem.drop st1.maxConsume, _, ?_, hnear.cut q4⟩, by omega, fun x hx => hlens x (List.mem_of_mem_take hx)⟩
  split at h6
  · exact h6.2
  · exact h6.2

end GuidedSlicer
end Nd
