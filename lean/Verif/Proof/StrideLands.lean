import Verif.Proof.FilterStream
/-!
# The constant-stride slicer without a mapping stops exactly where it is told to
-/
namespace Nd

namespace ConstSegments

/-- Consuming up to the start of a slice, or up to where the next one would start. -/
theorem Inv.consume_aligned {s : ConstSegments} {base P S M esc n e} (h : Inv s base P S M esc n e) {cap cnt k j : Nat} (hl : s.lend = (cap, cnt))
    (hk : k ≤ cap) (hj : j ≤ cnt) (hkj : (k : Int) = base + j * P) (hesc : s.minEscape ≤ k) {k' c : Nat} {s' : ConstSegments}
    (heq : s.consume k = .ok ((k', c), s')) : k' = k := by
  have hP := h.P_pos
  have hb := h.base_eq
  obtain ⟨q, hq1, hq2⟩ := h.off
  unfold ConstSegments.consume at heq
  rw [if_neg (by omega)] at heq
  obtain ⟨t, ht⟩ : ∃ t : ConstSegments, t = if 0 < s.minEscape then { s with minEscape := 0, segments := [] } else s := ⟨_, rfl⟩
  have ht1 : t.pitch = P ∧ t.off = s.off ∧ t.curr = s.curr ∧ t.lend = (cap, cnt) ∧ t.isEof = s.isEof := by
    rw [ht]
    split <;> exact ⟨h.pitch, rfl, rfl, hl, rfl⟩
  obtain ⟨tp, tof, tc, tl, te⟩ := ht1
  rw [← ht] at heq
  simp only [tof, tc, tl, te] at heq
  split at heq
  · rename_i hc
    cases heq
    omega
  · have hcs : k + s.off - s.curr = j * P := by
      have : ((k + s.off : Nat) : Int) = s.curr + (j * P : Nat) := by rw [Int.natCast_add, Int.natCast_mul]; omega
      omega
    have hdiv : (k + s.off - s.curr + P - 1) / P = j := by
      rw [hcs]
      apply Nat.div_eq_of_lt_le
      · omega
      · rw [Nat.succ_mul]; omega
    simp only [countSegments, tp, hdiv, Nat.min_eq_left hj] at heq
    unfold updatePhase at heq
    simp only at heq
    split at heq
    · cases heq
    · rename_i curr b cc hup
      cases heq
      split at hup
      · cases hup; rfl
      · by_cases h16 : j < 16
        · simp only [if_pos h16] at hup
          cases hup; rfl
        · simp only [if_neg h16] at hup
          have hqj : q ≤ j := by
            rcases hq2 with rfl | hq2
            · omega
            · rcases Nat.lt_or_ge j q with hlt | hge
              · exfalso
                have h3 := mul_le_int P (show 16 ≤ q by omega)
                have hs := h.steps
                rw [hb, hq1, Int.natCast_mul] at hs
                have : ((16 : Nat) : Int) * P = 15 * P + P := by
                  rw [show ((16 : Nat) : Int) = 15 + 1 from rfl, Int.add_mul]; simp
                omega
              · exact hge
          have hle : q * P ≤ j * P := Nat.mul_le_mul_right P hqj
          have hsub : (j - q) * P = j * P - q * P := Nat.sub_mul _ _ _
          have hk2 : k = s.curr + (j - q) * P := by
            rw [hsub]
            have : ((j * P : Nat) : Int) = j * P := Int.natCast_mul _ _
            omega
          have hph : (if k ≤ s.curr then s.curr - k else if (k - s.curr) % P = 0 then 0 else P - (k - s.curr) % P) = 0 := by
            split
            · omega
            · rw [hk2, Nat.add_sub_cancel_left, Nat.mul_mod_left, if_pos rfl]
          rw [hph, if_pos rfl] at hup
          unfold ckSub at hup
          split at hup
          · cases hup
          · rename_i b' hb'
            split at hb'
            · cases hb'
              cases hup
              have : ((j * P : Nat) : Int) = j * P := Int.natCast_mul _ _
              omega
            · cases hb'

end ConstSegments

namespace ConstSlicer
open ConstSegments

theorem consume_segs {Src : ByteSrc σ} {st st' : ConstSlicer σ} {k k' c} (h : (segSrc Src).consume st k = .ok ((k', c), st')) :
    st.segs.consume k = .ok ((k', c), st'.segs) := by
  simp only [segSrc] at h
  split at h
  · cases h
  · rename_i heq
    split at h
    · cases h
    · cases h
      exact heq

theorem cseg_tail {base : Int} {P S M n j : Nat} (hP : 0 < P) (hj : j < ccount base P M n) (hb : 0 < base + S) :
    ((cseg base P S n j).tail : Int) = min (base + j * P + S) n := by
  have h1 := (lt_ccount hP).1 hj
  have h2 := mul_le_int P (Nat.zero_le j)
  simp only [cseg, Seg.tail]
  omega

/-- `--width N` without a mapping. -/
theorem lands {Src : ByteSrc σ} {R : σ → Phase → Nat → Bytes → Prop} {E : σ → Prop} {L : Nat} (mode : Manner) (P M esc : Nat) (hesc : esc ≤ 1) :
    SegLands (segSrc Src) (Rel Src R E L mode P P M esc) := by
  refine ⟨?_, ?_⟩
  · rintro st eof count cap w rem segs ⟨base, e, rfl, hI, hE, n, hR, rfl, hl, hc1, hcn, hnr, hee, hef, hst⟩ x hx
    obtain ⟨j, h1, h2, rfl⟩ := comb_take_mem hx
    have hP := hI.P_pos
    have ht := cseg_tail (S := P) hP h2 hI.tail_pos
    cases eof with
    | true => have := (hee rfl).1; omega
    | false =>
      have := ((hef rfl).2.2.2 (Nat.le_refl _)).1
      have h3 := mul_le_int P (show j + 1 ≤ count by omega)
      rw [succ_mul_int] at h3
      omega
  · rintro st eof count cap w rem segs k k' c st' ⟨base, e, rfl, hI, hE, n, hR, rfl, hl, hc1, hcn, hnr, hee, hef, hst⟩ hk hcase hcon
    have hP := hI.P_pos
    have heq := consume_segs hcon
    have hcon := hI.consume cap count k hl hc1 (by omega) hee (fun hf => by
      have := hef hf
      exact ⟨this.1, (Int.le_of_lt this.2.1), by omega⟩)
    obtain ⟨k2, c2, sg, base', heq2, h1, h2, h3, h4, h5, hI2, hd, h6, h7, h8⟩ := hcon
    rw [heq] at heq2
    cases heq2
    have hall : k = cap → k' = k := by
      rintro rfl
      cases eof with
      | true => exact h6 rfl (Nat.le_refl _)
      | false =>
        have := (hef rfl).2.2.2 (Nat.le_refl _)
        exact h7 rfl rfl this.2 this.1
    have hal : ∀ j, j ≤ count → (k : Int) = base + j * P → k' = k := by
      intro j hj hkj
      rcases Nat.lt_or_ge k st.segs.minEscape with hlt | hge
      · have := hI.esc_le.1
        omega
      · exact hI.consume_aligned hl hk hj hkj hge heq
    rcases hcase with hc | ⟨x, hx, hc | hc⟩
    · exact hall hc
    · obtain ⟨j, g1, g2, rfl⟩ := comb_take_mem hx
      rcases Nat.eq_zero_or_pos k with h0 | h0
      · omega
      · refine hal j (by omega) ?_
        simp only [cseg] at hc
        omega
    · obtain ⟨j, g1, g2, rfl⟩ := comb_take_mem hx
      have ht := cseg_tail (S := P) hP g2 hI.tail_pos
      rw [← hc] at ht
      by_cases hn : base + j * P + P ≤ rem.length
      · refine hal (j + 1) (by omega) ?_
        rw [succ_mul_int]
        omega
      · exact hall (by omega)

end ConstSlicer

end Nd
