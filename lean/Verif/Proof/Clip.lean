import Verif.Model.Byte
import Verif.Spec.Byte
import Verif.Proof.Byte
import Verif.Proof.Cat
/-! Protocol proof of `ClipStream`. -/
namespace Nd
namespace ClipStream

/-- The relation between a `ClipStream` and the bytes it still has to deliver (`strip = 0`, the only
value `ClipperParams::from_raw` produces). -/
def Rel (R : σ → Phase → Nat → Bytes → Prop) (c : ClipStream σ) (ph : Phase) (w : Nat) (rem : Bytes) : Prop :=
  c.strip = 0 ∧ ∃ phs r, R c.src phs w r ∧ rem = (r.drop c.skip).take c.rem ∧
  match ph with
  | .idle lb => ∃ lbs, phs = .idle lbs ∧ lb ≤ max 1 lbs ∧ (0 < c.skip → lb ≤ 1)
  | .lent n => (c.skip = 0 ∧ ∃ m, phs = .lent m ∧ m ≤ r.length ∧ n = min c.rem m) ∨
      (n = 0 ∧ r = [] ∧ ∃ lbs, phs = .idle lbs)

theorem skipLoop_spec {S : ByteSrc σ} {F M R} (h : Faithful S F M R) (B : Nat) :
    ∀ (fuel : Nat) (c : ClipStream σ) (lbs w : Nat) (r : Bytes), R c.src (.idle lbs) w r → w + 1 < fuel →
      (∃ e, F e ∧ skipLoop S B fuel c = .error e) ∨
      ∃ b c' lbs' w' r', skipLoop S B fuel c = .ok (b, c') ∧ R c'.src (.idle lbs') w' r' ∧ w' ≤ w ∧
        c'.strip = c.strip ∧ c'.rem = c.rem ∧ r'.drop c'.skip = r.drop c.skip ∧
        (b = true → r' = []) ∧ (b = false → c'.skip = 0) ∧ (c.skip = 0 → b = false ∧ lbs' = lbs) := by
  intro fuel
  induction fuel with
  | zero => intro c lbs w r _ h; omega
  | succ fuel ih =>
    intro c lbs w r hR hf
    unfold skipLoop
    by_cases hs : c.skip > 0
    · rw [if_pos hs]
      rcases h.fill _ _ _ _ B hR with ⟨e, hF, heq⟩ | ⟨eof, n, w', s', heq, hR', hn, hm, he', hne', hw', hw''⟩
      · left; exact ⟨e, hF, by simp only [heq]⟩
      · simp only [heq]
        obtain ⟨s2, w2, heq2, hR2, hw2⟩ := h.consume _ _ _ _ (min c.skip n) hR' (Nat.min_le_right ..)
        simp only [heq2]
        have hdd : (r.drop (min c.skip n)).drop (c.skip - min c.skip n) = r.drop c.skip := by
          rw [List.drop_drop]; congr 1; omega
        by_cases hc : (eof && decide (min c.skip n = n)) = true
        · rw [if_pos hc]
          right
          simp only [Bool.and_eq_true, decide_eq_true_eq] at hc
          refine ⟨true, _, _, w2, r.drop (min c.skip n), rfl, hR2, by omega, rfl, rfl, hdd, ?_, by simp, by omega⟩
          intro _
          have := he' hc.1
          exact List.drop_of_length_le (by omega)
        · rw [if_neg hc]
          have hstep : w2 + 1 < fuel ∨ (c.skip - min c.skip n = 0 ∧ 0 < fuel) := by
            cases hE : eof with
            | true =>
              right
              simp [hE] at hc
              omega
            | false =>
              left
              have := hw'' hE trivial
              omega
          rcases hstep with hstep | ⟨h0, hf0⟩
          · rcases ih { c with src := s2, skip := c.skip - min c.skip n } _ w2 _ hR2 hstep with
              ⟨e, hF, heq3⟩ | ⟨b, c', lbs', w3, r', heq3, g1, g2, g3, g4, g5, g6, g7, g8⟩
            · left; exact ⟨e, hF, heq3⟩
            · right
              exact ⟨b, c', lbs', w3, r', heq3, g1, by omega, g3, g4, by rw [g5]; exact hdd, g6, g7, by omega⟩
          · obtain ⟨fuel', rfl⟩ : ∃ k, fuel = k + 1 := ⟨fuel - 1, by omega⟩
            unfold skipLoop
            simp only [h0]
            right
            refine ⟨false, _, _, w2, _, rfl, hR2, by omega, rfl, rfl, ?_, by simp, by simp, by omega⟩
            rw [h0] at hdd; exact hdd
    · rw [if_neg hs]
      right
      exact ⟨false, c, lbs, w, r, rfl, hR, Nat.le_refl _, rfl, rfl, rfl, by simp, by omega, by simp⟩

theorem fill_tail {S : ByteSrc σ} {F M R} (h : Faithful S F M R) (hM : ∀ m, M m → AnyMargin m)
    (c : ClipStream σ) (phs : Phase) (w : Nat) (r : Bytes) (hR : R c.src phs w r) (hs : c.strip = 0) (hk : c.skip = 0)
    (req : Nat) :
    (∃ e, F e ∧ (S.fill c.src req) = .error e) ∨
    ∃ eof n w' s', S.fill c.src req = .ok ((eof, n), s') ∧
      (∀ b, b = min c.rem (n - c.strip) →
        Rel R { c with src := s' } (.lent b) w' ((r.drop c.skip).take c.rem) ∧
        b ≤ ((r.drop c.skip).take c.rem).length ∧
        (0 < b → ∃ m, AnyMargin m ∧ S.slice s' = ((r.drop c.skip).take c.rem).take b ++ m) ∧
        ((eof || decide (b = c.rem)) = true → b = ((r.drop c.skip).take c.rem).length) ∧
        ((eof || decide (b = c.rem)) = false → 1 ≤ b ∧ phs.lb ≤ b) ∧
        w' ≤ w ∧ ((eof || decide (b = c.rem)) = false → phs.isIdle → w' < w)) := by
  rcases h.fill _ _ _ _ req hR with ⟨e, hF, heq⟩ | ⟨eof, n, w', s', heq, hR', hn, hm, he', hne', hw', hw''⟩
  · left; exact ⟨e, hF, heq⟩
  · right
    refine ⟨eof, n, w', s', heq, ?_⟩
    rintro b rfl
    have hb : min c.rem (n - c.strip) = min c.rem n := by rw [hs]; rfl
    have hk0 : r.drop c.skip = r := by rw [hk]; rfl
    rw [hb, hk0]
    refine ⟨⟨hs, _, r, hR', by simp only [hk0], Or.inl ⟨hk, n, rfl, hn, rfl⟩⟩, by simp; omega, ?_, ?_, ?_, hw', ?_⟩
    · intro hpos
      obtain ⟨m, hm1, hm2⟩ := hm (by omega)
      refine ⟨(r.take n).drop (min c.rem n) ++ m, ?_, ?_⟩
      · have := hM m hm1
        simp only [AnyMargin, List.length_append] at this ⊢; omega
      · rw [hm2, ← List.append_assoc, List.take_take]
        congr 1
        conv => lhs; rw [← List.take_append_drop (min c.rem n) (r.take n)]
        rw [List.take_take]
        congr 2; omega
    · intro hE
      simp only [Bool.or_eq_true, decide_eq_true_eq] at hE
      simp only [List.length_take]
      rcases hE with hE | hE
      · have := he' hE; omega
      · omega
    · intro hE
      simp only [Bool.or_eq_false_iff, decide_eq_false_iff_not] at hE
      have := hne' hE.1
      omega
    · intro hE hi
      simp only [Bool.or_eq_false_iff, decide_eq_false_iff_not] at hE
      exact hw'' hE.1 hi

theorem faithful {S : ByteSrc σ} {F M R} (h : Faithful S F M R) (hM : ∀ m, M m → AnyMargin m) (B fuel : Nat) :
    Faithful (byteSrc S B fuel) F AnyMargin (fun c ph w rem => Rel R c ph w rem ∧ w + 1 < fuel) where
  fill c ph w rem req := by
    rintro ⟨⟨hs, phs, r, hR, rfl, hph⟩, hw⟩
    simp only [byteSrc]
    have main : ∀ lbs, phs = .idle lbs → (∀ k, 1 ≤ k → (c.skip = 0 → lbs ≤ k) → r ≠ [] → ph.lb ≤ k) →
        ((∃ e, F e ∧ (byteSrc S B fuel).fill c req = .error e) ∨
        ∃ eof n w' s', (byteSrc S B fuel).fill c req = .ok ((eof, n), s') ∧
          (Rel R s' (.lent n) w' ((r.drop c.skip).take c.rem) ∧ w' + 1 < fuel) ∧
          n ≤ ((r.drop c.skip).take c.rem).length ∧
          (0 < n → ∃ m, AnyMargin m ∧ S.slice s'.src = ((r.drop c.skip).take c.rem).take n ++ m) ∧
          (eof = true → n = ((r.drop c.skip).take c.rem).length) ∧ (eof = false → 1 ≤ n ∧ ph.lb ≤ n) ∧
          w' ≤ w ∧ (eof = false → ph.isIdle → w' < w)) := by
      intro lbs hphs hlb
      subst hphs
      simp only [byteSrc]
      rcases skipLoop_spec h B fuel c lbs w r hR hw with
        ⟨e, hF, heq⟩ | ⟨b, c', lbs', w1, r', heq, g1, g2, g3, g4, g5, g6, g7, g8⟩
      · left; exact ⟨e, hF, by simp only [heq]⟩
      · simp only [heq]
        cases b with
        | true =>
          right
          have hr' := g6 rfl
          subst hr'
          have hnil : r.drop c.skip = [] := by rw [← g5]; simp
          refine ⟨true, 0, w1, c', rfl, ⟨⟨by rw [g3, hs], _, [], g1, by simp [hnil], Or.inr ⟨rfl, rfl, lbs', rfl⟩⟩, by omega⟩, by omega, by simp, by simp [hnil], by simp, g2, by simp⟩
        | false =>
          have hk' := g7 rfl
          rw [← g5, ← g4]
          rcases fill_tail h hM c' _ w1 r' g1 (by rw [g3, hs]) hk' (min c'.rem req + c'.strip + 1) with
            ⟨e, hF, heq2⟩ | ⟨eof, n, w', s', heq2, g⟩
          · left; exact ⟨e, hF, by simp only [heq2]⟩
          · right
            obtain ⟨k1, k2, k3, k4, k5, k6, k7⟩ := g _ rfl
            refine ⟨_, _, w', { c' with src := s' }, by simp only [heq2], ⟨k1, by omega⟩, k2, k3, k4, ?_, by omega, ?_⟩
            · intro hE
              have := k5 hE
              refine ⟨this.1, hlb _ this.1 (fun h0 => ?_) ?_⟩
              · rw [← (g8 h0).2]; exact this.2
              · intro h0
                rw [h0] at g5
                rw [g5] at k2
                simp at k2; omega
            · intro hE _
              have := k7 hE trivial
              omega
    cases ph with
    | idle lb =>
      obtain ⟨lbs, hphs, h1, h2⟩ := hph
      exact main lbs hphs (fun k hk hk2 _ => by
        simp only [Phase.lb]
        by_cases h0 : c.skip = 0
        · have := hk2 h0; omega
        · have := h2 (by omega); omega)
    | lent n0 =>
      rcases hph with ⟨h0, m, hphs, hm, hn0⟩ | ⟨hn0, hr, lbs, hphs⟩
      · obtain ⟨fuel', rfl⟩ : ∃ k, fuel = k + 1 := ⟨fuel - 1, by omega⟩
        have hsk : skipLoop S B (fuel' + 1) c = .ok (false, c) := by
          unfold skipLoop; rw [if_neg (by omega)]
        simp only [hsk]
        rcases fill_tail h hM c phs w r hR hs h0 (min c.rem req + c.strip + 1) with
          ⟨e, hF, heq2⟩ | ⟨eof, n, w', s', heq2, g⟩
        · left; exact ⟨e, hF, by simp only [heq2]⟩
        · right
          obtain ⟨k1, k2, k3, k4, k5, k6, k7⟩ := g _ rfl
          refine ⟨_, _, w', { c with src := s' }, by simp only [heq2], ⟨k1, by omega⟩, k2, k3, k4, ?_, k6, fun _ h => h.elim⟩
          intro hE
          have := k5 hE
          rw [hphs] at this
          simp only [Phase.lb] at this ⊢
          omega
      · exact main lbs hphs (fun k _ _ h => absurd hr h)
  consume c n w rem k := by
    rintro ⟨⟨hs, phs, r, hR, rfl, hph⟩, hw⟩ hk
    simp only [byteSrc]
    rcases hph with ⟨h0, m, hphs, hm, hn0⟩ | ⟨hn0, hr, lbs, hphs⟩
    · rw [if_neg (by omega)]
      subst hphs
      obtain ⟨s', w', heq, hR', hw'⟩ := h.consume _ _ _ _ k hR (by omega)
      simp only [heq]
      refine ⟨_, w', rfl, ⟨⟨hs, _, r.drop k, hR', ?_, _, rfl, ?_, ?_⟩, by omega⟩, hw'⟩
      · simp only [h0, List.drop_zero, List.drop_take]
      · split <;> omega
      · simp only; omega
    · have hk0 : k = 0 := by omega
      subst hk0 hphs
      rw [if_neg (by omega)]
      obtain ⟨s', w', heq, hR', hw'⟩ := h.nudge _ _ _ _ hR
      simp only [heq]
      refine ⟨_, w', rfl, ⟨⟨hs, _, r, hR', by simp, lbs, rfl, ?_, ?_⟩, by omega⟩, hw'⟩
      · rw [if_pos rfl]; omega
      · intro _; rw [if_pos rfl]; omega
  nudge c lb w rem := by
    rintro ⟨⟨hs, phs, r, hR, rfl, lbs, rfl, h1, h2⟩, hw⟩
    simp only [byteSrc]
    rw [if_neg (by omega)]
    obtain ⟨s', w', heq, hR', hw'⟩ := h.nudge _ _ _ _ hR
    simp only [heq]
    exact ⟨_, w', rfl, ⟨⟨hs, _, r, hR', by simp, lbs, rfl, h1, h2⟩, by omega⟩, hw'⟩

/-- A bound on the number of non-final fills of the padded source. -/
def fills (w : Nat) (c : Bytes) (h t : Nat) : Nat :=
  w + c.length + 1 + (ZeroStream.fills h + h + 1) + (ZeroStream.fills t + t + 1)

theorem delivers {S : ByteSrc σ} {F M} (hM : ∀ m, M m → AnyMargin m) {B fuel : Nat} (hB : 0 < B) {src : σ} {w : Nat}
    {c : Bytes} (h : Delivers S F M src w c) (params : ClipperParams) (hstrip : params.clip.2 = 0) (filler : Byte)
    (hf : fills w c params.pad.1 params.pad.2 + 1 < fuel) :
    Delivers (byteSrc (paddedSrc S B fuel) B fuel) F AnyMargin (new B src params filler)
      (fills w c params.pad.1 params.pad.2)
      (((Spec.pad params.pad.1 params.pad.2 filler c).drop params.clip.1).take params.len) := by
  have hsum : Faithful (sumSrc (ZeroStream.byteSrc B) S) F AnyMargin (SumRel (Live (ZeroStream.byteSrc B) F AnyMargin) (Live S F AnyMargin)) :=
    Live.faithful.sum Live.faithful
  have hS : Live S F AnyMargin src (.idle 1) w c := h.mono (fun _ h => h) hM
  have hZ : ∀ k, Live (ZeroStream.byteSrc B) F AnyMargin (ZeroStream.new B k filler) (.idle 1) (ZeroStream.fills k) (List.replicate k filler) :=
    fun k => (ZeroStream.delivers B hB k filler).mono (fun _ h => h.elim) (fun _ h => h)
  have hpad : ∃ w', w' ≤ fills w c params.pad.1 params.pad.2 ∧ Delivers (paddedSrc S B fuel) F AnyMargin (pad B src params filler) w'
      (Spec.pad params.pad.1 params.pad.2 filler c) := by
    unfold pad paddedSrc
    obtain ⟨⟨h0, t0⟩, clip, len⟩ := params
    have hz1 : ∀ k, Delivers (sumSrc (ZeroStream.byteSrc B) S) F AnyMargin (.inl (ZeroStream.new B k filler)) (ZeroStream.fills k) (List.replicate k filler) :=
      fun k => ⟨_, hsum, hZ k⟩
    have hs1 : Delivers (sumSrc (ZeroStream.byteSrc B) S) F AnyMargin (.inr src) w c := ⟨_, hsum, hS⟩
    have hcf : Faithful (CatStream.byteSrc (sumSrc (ZeroStream.byteSrc B) S) B fuel) F AnyMargin
        (Live (CatStream.byteSrc (sumSrc (ZeroStream.byteSrc B) S) B fuel) F AnyMargin) := Live.faithful
    rcases h0 with _ | h0 <;> rcases t0 with _ | t0
    · exact ⟨w, by simp [fills]; omega, by simpa [Spec.pad] using Delivers.inl hS hcf⟩
    · have := CatStream.delivers (fun _ h => h) (B := B) (fuel := fuel) hB (cs := [(w, c), (ZeroStream.fills (t0 + 1), List.replicate (t0 + 1) filler)]) (.cons hs1 (.cons (hz1 (t0 + 1)) .nil)) (by simp [CatStream.fills, fills] at hf ⊢; omega)
      refine ⟨_, ?_, by simpa [Spec.pad] using Delivers.inr this Live.faithful⟩
      simp [CatStream.fills, fills]
    · have := CatStream.delivers (fun _ h => h) (B := B) (fuel := fuel) hB (cs := [(ZeroStream.fills (h0 + 1), List.replicate (h0 + 1) filler), (w, c)]) (.cons (hz1 (h0 + 1)) (.cons hs1 .nil)) (by simp [CatStream.fills, fills] at hf ⊢; omega)
      refine ⟨_, ?_, by simpa [Spec.pad] using Delivers.inr this Live.faithful⟩
      simp [CatStream.fills, fills]; omega
    · have := CatStream.delivers (fun _ h => h) (B := B) (fuel := fuel) hB (cs := [(ZeroStream.fills (h0 + 1), List.replicate (h0 + 1) filler), (w, c), (ZeroStream.fills (t0 + 1), List.replicate (t0 + 1) filler)]) (.cons (hz1 (h0 + 1)) (.cons hs1 (.cons (hz1 (t0 + 1)) .nil))) (by simp [CatStream.fills, fills] at hf ⊢; omega)
      refine ⟨_, ?_, by simpa [Spec.pad] using Delivers.inr this Live.faithful⟩
      simp [CatStream.fills, fills]; omega
  obtain ⟨w', hw', R, hF, hR⟩ := hpad
  refine ⟨fun s ph w rem => ∃ w0 ≤ w, Rel R s ph w0 rem ∧ w0 + 1 < fuel, ?_, ⟨w', hw', ⟨hstrip, _, _, hR, rfl, 1, rfl, by omega, by omega⟩, by omega⟩⟩
  exact (faithful hF (fun _ h => h) B fuel).weaken
end ClipStream
end Nd
