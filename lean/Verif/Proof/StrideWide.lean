import Verif.Proof.Prompt
import Verif.Proof.SegKeeps
/-!
# Equally spaced slices that are large compared to the block size

`ConstSlicer.faithful` asks the source for lending enough for several slices in every fill.  Here only the first fill is trusted:
what a fill has lent and was not consumed is lent again, and that is enough if the client never asks for more than it is permitted.
-/
namespace Nd

namespace ConstSlicer
open ConstSegments

/-- `ex`: all slices that have been lent are consumed if the client takes all it may. -/
def wide (ex : Bool) (P S : Nat) : SegKind where
  full := true
  exact := ex && decide (P ≤ S)
  honest := true
  steady := false
  early := true
  moving := false
  snap := false
  strict := true
  policy := fun _ _ => True

/-- The next fill lends enough to place the next slice. -/
def Room (D P S : Nat) (base : Int) (sg : ConstSegments) (n : Nat) : Prop := base + S ≤ n + P ∧ (0 < sg.minEscape → S + P < n ∧ D ≤ n)

/-- The start is not clipped, or left with the first request. -/
def Clear (D P S : Nat) (base : Int) (sg : ConstSegments) : Prop := (0 ≤ base ∧ (sg.minEscape : Int) ≤ base + 1) ∨ (0 < sg.minEscape ∧ sg.minEscape + S + P ≤ D)

/-- The states of the slicer. -/
def WideRel (Src : ByteSrc σ) (R : σ → Phase → Nat → Bytes → Prop) (E : σ → Prop) (ex : Bool) (D P S M esc : Nat) (st : ConstSlicer σ) (ph : SegPhase)
    (w : Nat) (rem : Bytes) (segs : List Seg) : Prop :=
  ∃ base e, segs = comb base P S M rem.length ∧ Inv st.segs base P S M esc rem.length e ∧ (E st.src ↔ e = true) ∧ (ex = true → e = false → Clear D P S base st.segs) ∧
    match ph with
    | .idle lb => (∃ l, R st.src (.idle l) w rem) ∧ lb ≤ ccount base P M rem.length ∧
      (e = false → ∀ n s2, Src.fill st.src st.segs.minFillLen = .ok ((false, n), s2) → Room D P S base st.segs n)
    | .lent eof count cap => ∃ n, R st.src (.lent n) w rem ∧ eof = e ∧ st.segs.lend = (cap, count) ∧ count ≤ ccount base P M rem.length ∧
      cap ≤ n ∧ n ≤ rem.length ∧ (e = true → cap = rem.length ∧ count = ccount base P M rem.length ∧ st.segs.minEscape ≤ rem.length) ∧
      (e = false → cap = min (base + count * P).toNat n ∧ 0 ≤ base + count * P ∧ Room D P S base st.segs n ∧ (0 < count → base + count * P + S ≤ n + P) ∧
        (n : Int) < base + count * P + S + P)
    | .done => e = true ∧ rem = [] ∧ ∃ lb, R st.src (.idle lb) w rem

theorem wide_faithful {Src : ByteSrc σ} {F M' R L E} (h : Serves Src F M' R) (hA : Ample Src R L E) (hM' : ∀ m, M' m → AnyMargin m)
    (ex : Bool) (D P S M esc : Nat) :
    SegFaithful (segSrc Src) (wide ex P S) F (WideRel Src R E ex D P S M esc) := by
  have fillAny : ∀ (st : ConstSlicer σ) (w : Nat) (rem : Bytes) (lb : Nat) (base : Int) (e : Bool), Inv st.segs base P S M esc rem.length e →
      (E st.src ↔ e = true) → (ex = true → e = false → Clear D P S base st.segs) → R st.src (.idle lb) w rem →
      (e = false → ∀ n s2, Src.fill st.src st.segs.minFillLen = .ok ((false, n), s2) → Room D P S base st.segs n) →
      (∃ er, F er ∧ (segSrc Src).fill st = .error er) ∨
      ∃ eof bytes count cap w' s', (segSrc Src).fill st = .ok ((eof, bytes, count, cap), s') ∧
        WideRel Src R E ex D P S M esc s' (.lent eof count cap) w' rem (comb base P S M rem.length) ∧
        SegLent rem (comb base P S M rem.length) ((segSrc Src).slices s') bytes count ∧ cap ≤ bytes ∧
        (∀ x ∈ (comb base P S M rem.length).drop count, cap ≤ x.pos) ∧
        (eof = true → count = ccount base P M rem.length ∧ cap = bytes ∧ bytes = rem.length) ∧
        (∀ x ∈ (comb base P S M rem.length).take count, x.pos ≤ cap) ∧ w' ≤ w ∧ (eof = false → w' < w) ∧ (e = true → eof = true) := by
    intro st w rem lb base e hI hE hcl hR hroom
    have hP := hI.P_pos
    have hM := hI.M_pos
    have hMS := hI.M_le
    have htp := hI.tail_pos
    have hmo := hI.margin_ok
    simp only [segSrc]
    rcases h.fill _ _ _ _ st.segs.minFillLen hR with ⟨er, hF, heq⟩ | ⟨eof, n, w', s', heq, hR', hn, hm, he', hne', hw', hw''⟩
    · left; exact ⟨er, hF, by rw [heq]⟩
    · right
      obtain ⟨a1, a2, a3⟩ := hA.fill _ _ _ _ _ _ _ _ hR heq
      rw [heq]
      simp only
      have hslice : 0 < n → ∃ m, AnyMargin m ∧ Src.slice s' = rem.take n ++ m := by
        intro h0; obtain ⟨m, h1, h2⟩ := hm h0; exact ⟨m, hM' m h1, h2⟩
      cases eof with
      | true =>
        have hnr := he' rfl
        obtain ⟨sg, hfe, hs1, hs2, hI2, hme⟩ := hI.fill_eof
        rw [hnr, hfe]
        refine ⟨true, _, _, _, w', _, rfl, ⟨base, true, rfl, hI2, a2, by simp, n, hR', rfl, rfl, ?_⟩, ?_⟩
        · rw [hs2]
          exact ⟨Nat.le_refl _, by omega, by omega, fun _ => ⟨rfl, rfl, hme⟩, by simp⟩
        · rw [hs2]
          simp only
          refine ⟨⟨by rw [comb_length]; exact Nat.le_refl _, ?_, n, by omega, hn, hslice, ?_⟩, Nat.le_refl _, ?_, ?_, ?_, hw', by simp, by simp⟩
          · simp only [hs1]
          · intro x hx
            obtain ⟨j, h1, h2, rfl⟩ := comb_take_mem hx
            have := (lt_ccount hP).1 h2
            have h0 : 0 ≤ (j : Int) * P := Int.mul_nonneg (by omega) (by omega)
            simp only [cseg, Seg.tail]
            omega
          · intro x hx
            obtain ⟨j, h1, h2, rfl⟩ := comb_drop_mem hx
            omega
          · intro _; simp
          · intro x hx
            obtain ⟨j, h1, h2, rfl⟩ := comb_take_mem hx
            have := (lt_ccount hP).1 h2
            have h0 : 0 ≤ (j : Int) * P := Int.mul_nonneg (by omega) (by omega)
            simp only [cseg]
            omega
      | false =>
        have hef : e = false := by
          cases e with
          | false => rfl
          | true => exact absurd (a3 (hE.2 rfl)) (by simp)
        subst hef
        have hrm := hroom rfl _ _ heq
        obtain ⟨cnt, m, sg, hff, hl, hcm, hsg, hup, hdn, hme, hI2, hreach, hover⟩ := hI.fill_more n hrm.1
        have hge0 : 0 ≤ base + cnt * P := by
          have h0 := mul_le_int P (Nat.zero_le cnt)
          rcases Int.lt_or_le base 0 with hb | hb
          · rcases hI.head hb with hh | ⟨hh, _⟩
            · have := (hrm.2 hh).1
              omega
            · cases hh
          · omega
        rw [hff]
        have htail : ∀ j, j < cnt → base + j * P + S ≤ n := by
          intro j hj
          have h1 := mul_le_int P (show j + 1 ≤ cnt by omega)
          rw [succ_mul_int] at h1
          have := hup (by omega)
          omega
        have hcc : cnt ≤ ccount base P M rem.length := by
          rcases Nat.eq_zero_or_pos cnt with h0 | h0
          · omega
          · have h1 := htail (cnt - 1) (by omega)
            have h2 := (lt_ccount (base := base) (M := M) (n := rem.length) (j := cnt - 1) hP).2 (by omega)
            omega
        refine ⟨false, n, sg.lend.2, sg.lend.1, w', _, rfl, ⟨base, false, rfl, hI2, a2, fun h1 h2 => ?_, n, hR', rfl, rfl, ?_⟩, ?_⟩
        · have := hcl h1 h2
          unfold Clear at this ⊢
          rw [hme]
          exact this
        · rw [hl]
          simp only
          refine ⟨hcc, by omega, hn, by simp, fun _ => ⟨trivial, hge0, ?_, hup, hdn⟩⟩
          unfold Room at hrm ⊢
          rw [hme]
          exact hrm
        · rw [hl]
          simp only
          refine ⟨⟨by rw [comb_length]; exact hcc, ?_, n, Nat.le_refl _, hn, hslice, ?_⟩, by omega, ?_, by simp, ?_, hw', fun _ => hw'' rfl trivial, by simp⟩
          · simp only [hsg]
            exact take_comb hcm hcc fun j hj => by have := htail j hj; omega
          · intro x hx
            obtain ⟨j, h1, h2, rfl⟩ := comb_take_mem hx
            have := htail j h1
            have h0 : 0 ≤ (j : Int) * P := Int.mul_nonneg (by omega) (by omega)
            simp only [cseg, Seg.tail]
            omega
          · intro x hx
            obtain ⟨j, h1, h2, rfl⟩ := comb_drop_mem hx
            have := mul_le_int P h1
            simp only [cseg]
            omega
          · intro x hx
            obtain ⟨j, h1, h2, rfl⟩ := comb_take_mem hx
            have h3 := mul_le_int P (show j + 1 ≤ cnt by omega)
            rw [succ_mul_int] at h3
            have := htail j h1
            simp only [cseg]
            omega
  refine ⟨?_, ?_, ?_⟩
  · rintro st shown w rem segs ⟨base, e, rfl, hI, hE, hcl, ⟨lb, hR⟩, hsh, hroom⟩
    rcases fillAny st w rem lb base e hI hE hcl hR hroom with hh | ⟨eof, bytes, count, cap, w', s', h1, h2, h3, h4, h5, h6, h7, h8, h9, _⟩
    · exact Or.inl hh
    · right
      refine ⟨eof, bytes, count, cap, cap, w', s', h1, h2, h3, h4, h5, Or.inl rfl, ?_, fun _ => h7, h8, h9, by simp [wide], by simp [wide]⟩
      intro he; rw [comb_length]; exact ⟨(h6 he).1, (h6 he).2.1, fun _ => (h6 he).2.2⟩
  · rintro st eof count cap w rem segs k ⟨base, e, rfl, hI, hE, hcl, n, hR, rfl, hl, hc1, hcn, hnr, hee, hef⟩ hk
    have hP := hI.P_pos
    have hk : k ≤ cap := by
      rcases hk with ⟨_, h⟩ | h | h
      · cases h
      · omega
      · exact h.1
    have hcon := hI.consume cap count k hl hc1 (by omega) hee (fun hf => by
      have := hef hf
      exact ⟨by omega, this.2.1, hk⟩)
    obtain ⟨k', c, sg, base', heq, h1, h2, h3, h4, h5, hI2, hd, h6, h7, h8⟩ := hcon
    obtain ⟨s2, w2, heq2, hR2, hw2⟩ := h.consume _ _ _ _ k' hR (by omega)
    have hE2 := hA.consume _ _ _ heq2
    refine ⟨k', c, w2, { src := s2, segs := sg }, ?_, h1, h2, h3, ?_, ?_, ?_, hw2, fun he hkc => h6 he (by omega), ?_, by simp [wide]⟩
    · simp only [segSrc, heq, heq2]
    · intro x hx
      obtain ⟨j, h1, h2, rfl⟩ := comb_take_mem hx
      exact h4 j h1
    · intro x hx
      obtain ⟨j, h1, h2, rfl⟩ := comb_drop_mem hx
      exact h5 j h1 h2
    · rw [hd]
      refine ⟨base', eof, by simp, by simpa using hI2, hE2.trans hE, fun hx hf => ?_, ?_⟩
      · rcases h8 hf with ⟨_, rfl, rfl, _⟩ | ⟨_, hz, _⟩
        · exact hcl hx hf
        · unfold Clear
          simp only
          rw [hz]
          have : 0 ≤ base' := by
            rcases Int.lt_or_le base' 0 with hb | hb
            · rcases hI2.head hb with hh | ⟨hh, _⟩
              · omega
              · rw [hf] at hh; cases hh
            · exact hb
          omega
      by_cases hdone : eof = true ∧ k' = cap
      · rw [if_pos hdone]
        have := hee hdone.1
        exact ⟨hdone.1, List.drop_eq_nil_of_le (by omega), _, hR2⟩
      · rw [if_neg hdone]
        refine ⟨⟨_, hR2⟩, ?_, ?_⟩
        · have hlen := congrArg List.length hd
          simp only [List.length_map, List.length_drop, comb_length] at hlen
          simp only [List.length_drop]
          omega
        · intro hf n' s3 hfill
          have hkeep := hA.keep _ _ _ _ _ _ _ _ _ _ hR (by omega) heq2 hfill rfl
          obtain ⟨_, _, hrm, hup, _⟩ := hef hf
          unfold Room at hrm ⊢
          rcases h8 hf with ⟨_, rfl, rfl, rfl, rfl⟩ | ⟨_, hz, rfl, _⟩
          · simp only
            exact ⟨by omega, fun h0 => by have := hrm.2 h0; omega⟩
          · simp only
            rw [hz]
            refine ⟨?_, by simp⟩
            rcases Nat.eq_zero_or_pos c with h0 | h0
            · subst h0
              have := hrm.1
              simp only [Int.natCast_zero, Int.zero_mul]
              omega
            · have := hup (by omega)
              have := mul_le_int P h3
              omega
    · intro hx hkc
      simp only [wide, Bool.and_eq_true, decide_eq_true_eq] at hx
      obtain ⟨hx, hPS⟩ := hx
      rcases Nat.lt_or_ge c count with hlt | hge
      · exfalso
        have hl := h5 c (Nat.le_refl _) (by omega)
        cases eof with
        | true =>
          have := h6 rfl hkc
          have := (hee rfl).1
          have := (lt_ccount hP).1 (show c < ccount base P M rem.length by omega)
          have := hI.margin_ok
          have := hI.M_pos
          have := mul_le_int P (Nat.zero_le c)
          omega
        | false =>
          obtain ⟨g1, g2, g3, g4, g5⟩ := hef rfl
          have := g4 (by omega)
          have h3 := mul_le_int P (show c + 1 ≤ count by omega)
          rw [succ_mul_int] at h3
          have h0 := mul_le_int P (Nat.zero_le c)
          have hesc : st.segs.minEscape ≤ cap ∧ (0 ≤ base ∨ 0 < cap) := by
            rcases hcl hx rfl with ⟨_, _⟩ | ⟨h0, _⟩
            · omega
            · have := g3.2 h0
              omega
          have := h7 rfl (by omega) hesc.1 (by omega)
          omega
      · omega
  · rintro st w rem segs ⟨base, e, rfl, hI, hE, hcl, rfl, rfl, lb, hR⟩
    have hP := hI.P_pos
    have hz : ccount base P M ([] : Bytes).length = 0 := by
      rcases Nat.eq_zero_or_pos (ccount base P M ([] : Bytes).length) with h0 | h0
      · exact h0
      · have h2 := (lt_ccount hP).1 h0
        have := hI.margin_ok
        simp only [Int.natCast_zero, Int.zero_mul, List.length_nil] at h2
        omega
    rcases fillAny st w [] lb base true hI hE (by simp) hR (by simp) with hh | ⟨eof, bytes, count, cap, w', s', h1, h2, h3, h4, h5, h6, h7, h8, h9, h10⟩
    · exact Or.inl hh
    · right
      have he := h10 rfl
      subst he
      obtain ⟨g1, g2, g3⟩ := h6 rfl
      rw [comb_length, hz]
      rw [hz] at g1
      simp only [List.length_nil] at g3
      subst g3; subst g2; subst g1
      exact ⟨w', s', h1, h2, h3, h8⟩

/-- The first fill lends enough to place the first slice. -/
def FirstFits (D P : Nat) (head : Int) (S : Nat) : Prop := head + S ≤ (max D (max S (head.toNat + 1) + P + 1) : Nat) + P

theorem wide_new {Src : ByteSrc σ} {R : σ → Phase → Nat → Bytes → Prop} {E : σ → Prop} {D : Nat} (ex : Bool) (p : ConstSlicerParams) (hp : ParamsOk p) (src : σ) (w : Nat) (rem : Bytes)
    (hR : R src (.idle 1) w rem) (hE : ¬ E src) (hpr : Prompt Src D src) (hx : ex = true → 0 ≤ p.head ∨ p.head + 2 * p.span + p.pitch ≤ D) (hfit : FirstFits D p.pitch p.head p.span) :
    ∃ st, new src p = .ok st ∧
      WideRel Src R E ex D p.pitch p.span (p.tail + p.span).toNat (escape p) st (.idle 0) w rem (comb p.head p.pitch p.span (p.tail + p.span).toNat rem.length) := by
  obtain ⟨st, h1, rfl, h3, h4, h5⟩ := new_inv p hp src rem.length
  have hpos := hp.head
  refine ⟨st, h1, p.head, false, rfl, h5, by simp [hE], fun h _ => ?_, ⟨1, hR⟩, Nat.zero_le _, fun _ n s2 hf => ?_⟩
  · have := hx h
    unfold Clear
    rw [h4, escape]
    split <;> omega
  · have := hpr _ _ _ hf
    have hr := h5.res
    have hs := h5.span
    unfold FirstFits at hfit
    unfold minFillLen at this
    rw [hr, hs, h4] at this
    unfold Room
    unfold escape at this
    split at this <;> constructor <;> omega

end ConstSlicer
end Nd
