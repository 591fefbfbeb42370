import Verif.Proof.Stride
/-!
# Slice streams that keep what they lend
-/
namespace Nd

/-- Before the end a stream lends as many bytes as it reports, and does not take them back; it does not take back
the report of the end either. -/
structure SegKeeps (S : SegSrc σ) (R : σ → SegPhase → Nat → Bytes → List Seg → Prop) : Prop where
  within : ∀ s lb w rem segs bytes count maxc s', R s (.idle lb) w rem segs → S.fill s = .ok ((false, bytes, count, maxc), s') →
    ∀ x ∈ segs.take count, x.tail ≤ bytes
  keep : ∀ s lb w rem segs eof bytes count maxc s1 k k' c s2 eof' bytes' count' maxc' s3, R s (.idle lb) w rem segs →
    S.fill s = .ok ((eof, bytes, count, maxc), s1) → S.consume s1 k = .ok ((k', c), s2) → k' ≤ bytes →
    S.fill s2 = .ok ((eof', bytes', count', maxc'), s3) → (eof = true → eof' = true) ∧ (eof' = false → bytes ≤ k' + bytes')

/-- `s` is a fresh stream that delivers `segs` and keeps what it lends. -/
def SegServes (S : SegSrc σ) (K : SegKind) (F : Err → Prop) (s : σ) (w : Nat) (content : Bytes) (segs : List Seg) : Prop :=
  ∃ R, SegFaithful S K F R ∧ SegKeeps S R ∧ R s (.idle 0) w content segs

theorem SegServes.delivers {S : SegSrc σ} {K F s w content segs} (h : SegServes S K F s w content segs) : SegDelivers S K F s w content segs := by
  obtain ⟨R, h1, _, h2⟩ := h
  exact ⟨R, h1, h2⟩

namespace ConstSlicer

theorem fill_inv {Src : ByteSrc σ} {st st' : ConstSlicer σ} {eof bytes count maxc} (h : (segSrc Src).fill st = .ok ((eof, bytes, count, maxc), st')) :
    Src.fill st.src st.segs.minFillLen = .ok ((eof, bytes), st'.src) ∧ st.segs.fill eof bytes = .ok st'.segs ∧ count = st'.segs.lend.2 := by
  simp only [segSrc] at h
  split at h
  · cases h
  · rename_i e n s' heq
    split at h
    · cases h
    · rename_i sg hsg
      cases h
      exact ⟨heq, hsg, rfl⟩

theorem consume_inv {Src : ByteSrc σ} {st st' : ConstSlicer σ} {k k' c} (h : (segSrc Src).consume st k = .ok ((k', c), st')) :
    Src.consume st.src k' = .ok st'.src := by
  simp only [segSrc] at h
  split at h
  · cases h
  · split at h
    · cases h
    · rename_i s' heq
      cases h
      exact heq

theorem keeps {Src : ByteSrc σ} {F M' R L E} (h : Serves Src F M' R) (hA : Ample Src R L E)
    (mode : Manner) (P S M esc : Nat) (hL : mode.need P S esc ≤ L) : SegKeeps (segSrc Src) (Rel Src R E L mode P S M esc) := by
  have hL1 := mode.need_le P S esc
  refine ⟨?_, ?_⟩
  · rintro st lb w rem segs bytes count maxc st' ⟨base, e, rfl, hI, hE, ⟨l, hR⟩, hlb, hst⟩ hfill x hx
    obtain ⟨hf, hs, rfl⟩ := fill_inv hfill
    obtain ⟨a1, a2, a3⟩ := hA.fill _ _ _ _ _ _ _ _ hR hf
    have hef : e = false := by
      cases e with
      | false => rfl
      | true => exact absurd (a3 (hE.2 rfl)) (by simp)
    subst hef
    have hP := hI.P_pos
    have hlen := a1 rfl
    have hn : bytes ≤ rem.length := by
      rcases h.fill _ _ _ _ st.segs.minFillLen hR with ⟨er, hF, heq⟩ | ⟨eof, n, w', s', heq, hR', hn, hm, he', hne', hw', hw''⟩
      · rw [heq] at hf; cases hf
      · rw [heq] at hf; cases hf; exact hn
    obtain ⟨cnt, m, sg, hff, hl, hcm, hsg, hup, hdn, hme, hI2, hreach, hover⟩ := hI.fill_more bytes (by
      have := hI.first
      have := hI.base_eq
      omega)
    rw [hff] at hs
    cases hs
    obtain ⟨j, h1, h2, rfl⟩ := comb_take_mem hx
    rw [hl] at h1
    have h3 := mul_le_int P (show j + 1 ≤ cnt by omega)
    rw [succ_mul_int] at h3
    have := hup (by omega)
    have h0 : 0 ≤ (j : Int) * P := Int.mul_nonneg (by omega) (by omega)
    simp only [cseg, Seg.tail]
    omega
  · rintro st lb w rem segs eof bytes count maxc st1 k k' c st2 eof' bytes' count' maxc' st3 ⟨base, e, rfl, hI, hE, ⟨l, hR⟩, hlb, hst⟩ h1 h2 hk h3
    obtain ⟨f1, -, -⟩ := fill_inv h1
    have f2 := consume_inv h2
    obtain ⟨f3, -, -⟩ := fill_inv h3
    obtain ⟨a1, a2, a3⟩ := hA.fill _ _ _ _ _ _ _ _ hR f1
    rcases h.fill _ _ _ _ st.segs.minFillLen hR with ⟨er, hF, heq⟩ | ⟨eof, n, w', s', heq, hR', hn, hm, he', hne', hw', hw''⟩
    · rw [heq] at f1; cases f1
    rw [heq] at f1
    cases f1
    obtain ⟨s2, w2, heq2, hR2, hw2⟩ := h.consume _ _ _ _ _ hR' hk
    rw [heq2] at f2
    cases f2
    obtain ⟨b1, b2, b3⟩ := hA.fill _ _ _ _ _ _ _ _ hR2 f3
    refine ⟨fun he => b3 (((hA.consume _ _ _ heq2).trans a2).2 he), fun he => ?_⟩
    have := hA.keep _ _ _ _ _ _ _ _ _ _ hR' hk heq2 f3 he
    omega

end ConstSlicer

end Nd
