import Verif.Model.Byte
import Verif.Proof.StreamBuf
import Mathlib.Data.List.Forall2
/-! Protocol proof of `CatStream`. -/
namespace Nd
namespace CatStream

/-- Untouched sources with their joint content; `W` bounds the remaining work. -/
def Fresh (R : σ → Phase → Nat → Bytes → Prop) : List σ → Nat → Bytes → Prop
  | [], _, c => c = []
  | s :: ss, W, c => ∃ w c1 c2 W2, c = c1 ++ c2 ∧ R s (.idle 1) w c1 ∧ Fresh R ss W2 c2 ∧ w + c1.length + 1 + W2 ≤ W

/-- What the closure of `accumulate_into_cache` still has to produce: the current source has lent `dup`
bytes, which are already at the end of the buffer (beyond the first `N` bytes). -/
def P (R : σ → Phase → Nat → Bytes → Prop) (N : Nat) (t : Captured σ) (buf : Bytes) (μ : Nat) (p : Bytes) : Prop :=
  match t.1 with
  | [] => False
  | s :: rest => ∃ w r1 r2 W2, R s (.lent t.2.1) w r1 ∧ t.2.1 ≤ r1.length ∧
      (t.2.2 = true → t.2.1 = r1.length) ∧ (t.2.2 = false → 1 ≤ t.2.1) ∧ Fresh R rest W2 r2 ∧
      w + r1.length + 1 + W2 ≤ μ ∧ p = r1.drop t.2.1 ++ r2 ∧ ∃ x, buf = x ++ r1.take t.2.1 ∧ N ≤ x.length

theorem feed_produces {S : ByteSrc σ} {F M R} (h : Serves S F M R) (N : Nat) :
    Produces (feed S) F (P R N) (fun t => t.1 = []) := by
  rintro ⟨srcs, dup, isEof⟩ μ p req buf hP
  cases srcs with
  | nil => exact hP.elim
  | cons s rest =>
    obtain ⟨w, r1, r2, W2, hR, hd, he, hne, hfr, hμ, rfl, x, rfl, hN⟩ := hP
    simp only at hR hd he hne hfr hμ hN
    obtain ⟨s1, w1, hc, hR1, hw1⟩ := h.consume _ _ _ _ dup hR (Nat.le_refl _)
    unfold feed
    simp only [hc]
    cases isEof with
    | true =>
      have hdl := he rfl
      simp only [if_true]
      cases rest with
      | nil =>
        right
        refine ⟨true, [], ([], 0, true), [], by simp, ?_, by simp, by simp⟩
        simp only [Fresh] at hfr
        simp [hfr, hdl]
      | cons s2 rest =>
        obtain ⟨w2, c1, c2, W3, rfl, hR2, hfr, hW⟩ := hfr
        rcases h.fill s2 _ _ _ req hR2 with ⟨e, hF, heq⟩ | ⟨eof, n, w', s', heq, hR', hn, hm, he', hne', hw', hw''⟩
        · left; exact ⟨e, hF, by simp [heq]⟩
        · right
          refine ⟨false, c1.take n, (s' :: rest, n, eof), c1.drop n ++ c2, by simp only [heq, slice_take hn hm], ?_, by simp, ?_⟩
          · rw [hdl, List.drop_length, List.nil_append, ← List.append_assoc, List.take_append_drop]
          · intro _
            refine ⟨w' + c1.length + 1 + W3, by omega, w', c1, c2, W3, hR', hn, he', fun h => (hne' h).1, hfr, Nat.le_refl _, rfl, _, rfl, ?_⟩
            simp; omega
    | false =>
      simp only [Bool.false_eq_true, if_false]
      have h1 := hne rfl
      rcases h.fill s1 _ _ _ req hR1 with ⟨e, hF, heq⟩ | ⟨eof, n, w', s', heq, hR', hn, hm, he', hne', hw', hw''⟩
      · left; exact ⟨e, hF, by simp [heq]⟩
      · right
        refine ⟨false, (r1.drop dup).take n, (s' :: rest, n, eof), (r1.drop dup).drop n ++ r2, by simp only [heq, slice_take hn hm], ?_, by simp, ?_⟩
        · rw [← List.append_assoc, List.take_append_drop]
        · intro _
          refine ⟨w' + (r1.drop dup).length + 1 + W2, ?_, w', r1.drop dup, r2, W2, hR', hn, he', fun h => (hne' h).1, hfr, Nat.le_refl _, rfl, _, rfl, ?_⟩
          · simp at hn ⊢; omega
          · simp; omega

/-- The relation between a `CatStream` and the bytes it still has to deliver. -/
def Rel (R : σ → Phase → Nat → Bytes → Prop) (c : CatStream σ) (ph : Phase) (w : Nat) (rem : Bytes) : Prop :=
  c.cache.align = 1 ∧
  match c.srcs with
  | [] => (∃ m, StreamBuf.View c.cache rem m) ∧ (∀ n, ph = .lent n → n = rem.length)
  | s :: rest => c.cache.isEof = false ∧ ∃ d m phs ws r1 r2 W2, StreamBuf.View c.cache d m ∧ R s phs ws r1 ∧
      Fresh R rest W2 r2 ∧ ws + r1.length + 1 + W2 ≤ w ∧
      ((d = [] ∧ rem = r1 ++ r2 ∧ c.dup = 0 ∧ c.cache.len + 1 ≤ c.cache.targetLen ∧
        (match ph with
          | .lent n => phs = .lent n ∧ 1 ≤ n ∧ n ≤ r1.length
          | .idle lb => ∃ lb', phs = .idle lb' ∧ 1 ≤ lb' ∧ lb ≤ lb' ∧ lb ≤ max 1 r1.length)) ∨
       (d ≠ [] ∧ phs = .lent c.dup ∧ c.dup ≤ r1.length ∧
        (∃ d0, d = d0 ++ r1.take c.dup ∧ rem = d0 ++ r1 ++ r2) ∧
        (match ph with
          | .lent n => n = d.length
          | .idle lb => lb ≤ d.length)))

theorem accumulate_spec {S : ByteSrc σ} {F M R} (h : Serves S F M R) {fuel : Nat} {c : CatStream σ} {s : σ} {rest : List σ}
    (hs : c.srcs = s :: rest) (hal : c.cache.align = 1) (heof : c.cache.isEof = false)
    {d m : Bytes} (hv : StreamBuf.View c.cache d m) {isEof : Bool} {n ws W2 w : Nat} {r1 r2 : Bytes}
    (hR : R s (.lent n) ws r1) (hn : n ≤ r1.length) (hsl : (S.slice s).take n = r1.take n)
    (he : isEof = true → n = r1.length) (hne : isEof = false → 1 ≤ n) (hfr : Fresh R rest W2 r2)
    (hw : ws + r1.length + 1 + W2 ≤ w) (hfuel : w < fuel) (d0 : Bytes) (hdup : c.dup ≤ n)
    (hd : d = d0 ++ r1.take c.dup) (htl : d = [] → c.cache.len + 1 ≤ c.cache.targetLen) (req : Nat) :
    (∃ e, F e ∧ accumulateIntoCache S fuel c isEof n req = .error e) ∨
    ∃ eof k w' c', accumulateIntoCache S fuel c isEof n req = .ok ((eof, k), c') ∧
      Rel R c' (.lent k) w' (d0 ++ r1 ++ r2) ∧ k ≤ (d0 ++ r1 ++ r2).length ∧
      (0 < k → c'.cache.asSlice = (d0 ++ r1 ++ r2).take k ++ List.replicate MARGIN 10 ∧ c'.cache.length ≠ 0) ∧
      (eof = true → k = (d0 ++ r1 ++ r2).length) ∧ (eof = false → 1 ≤ k ∧ (d0 ++ r1.take n).length ≤ k) ∧
      w' ≤ w ∧ (eof = false → w' < w) := by
  unfold accumulateIntoCache
  simp only [hs]
  rw [if_neg (by omega)]
  have hv' := hv.extend (((S.slice s).take n).drop c.dup)
  have hd' : d ++ ((S.slice s).take n).drop c.dup = d0 ++ r1.take n := by
    have : r1.take n = r1.take c.dup ++ (r1.take n).drop c.dup := by
      conv => lhs; rw [← List.take_append_drop c.dup (r1.take n)]
      rw [List.take_take, Nat.min_eq_left hdup]
    rw [hd, hsl, List.append_assoc, ← this]
  rw [hd'] at hv'
  obtain ⟨pre, htake, hpre⟩ := hv'.take
  have hrel : StreamBuf.Rel (P R c.cache.pos) (fun t => t.1 = []) (c.cache.extendFromSlice (((S.slice s).take n).drop c.dup))
      (s :: rest, n, isEof) (.idle (max 1 (d0 ++ r1.take n).length)) w (d0 ++ r1 ++ r2) := by
    refine ⟨by simp [StreamBuf.extendFromSlice, hal], ⟨_, _, hv', by simp [StreamBuf.extendFromSlice, heof], ?_⟩, ?_, by simp⟩
    · intro _
      refine ⟨r1.drop n ++ r2, ⟨ws, r1, r2, W2, hR, hn, he, hne, hfr, hw, rfl, pre ++ d0, ?_, ?_⟩, ?_⟩
      · rw [htake]; simp
      · have : (c.cache.extendFromSlice (((S.slice s).take n).drop c.dup)).pos = c.cache.pos := rfl
        simp; omega
      · simp only [StreamBuf.extendFromSlice, hal, padLen_one]
        simp
        rw [← List.append_assoc, List.take_append_drop]
    · intro lb hlb
      simp only [Phase.idle.injEq] at hlb
      have hl := hv'.length
      unfold StreamBuf.length at hl
      obtain ⟨_, _, _, hl2, _⟩ := hv'
      refine ⟨by omega, fun _ => ?_⟩
      by_cases h0 : (d0 ++ r1.take n).length = 0
      · have hd0 : d = [] := by
          have := congrArg List.length hd'
          rw [List.length_append, h0] at this
          exact List.eq_nil_of_length_eq_zero (by omega)
        have h1 := htl hd0
        have h2 : (c.cache.extendFromSlice (((S.slice s).take n).drop c.dup)).targetLen = c.cache.targetLen := rfl
        have h3 : (c.cache.extendFromSlice (((S.slice s).take n).drop c.dup)).pos = c.cache.pos := rfl
        obtain ⟨_, _, _, hl3, _⟩ := hv
        rw [hd0] at hl3
        simp at hl3
        omega
      · omega
  rcases StreamBuf.fillBuf_spec (feed_produces h c.cache.pos) hrel hfuel req with
    ⟨e, hF, heq⟩ | ⟨eof, k, w', s', t', heq, g1, g2, g3, g4, g5, g6, g7, g8, g9, g10, g11⟩
  · left; exact ⟨e, hF, by simp [heq]⟩
  · right
    obtain ⟨hb1, ⟨d', m', hv2, hq1, hq2⟩, _, hlent⟩ := g1
    have hk := (hlent k rfl).1
    have hlk : s'.length = k := by unfold StreamBuf.length; omega
    refine ⟨eof, k, w', { srcs := t'.1, dup := t'.2.1, cache := s' }, by simp [heq], ?_, g2, fun h => ⟨g3, by simp only [hlk]; omega⟩, g4, ?_, g6, g7⟩
    · obtain ⟨srcs', dup', e'⟩ := t'
      have hal' : s'.align = 1 := by rw [g9]; exact hal
      refine ⟨hal', ?_⟩
      cases hE : s'.isEof with
      | true =>
        obtain ⟨_, hr, hnil⟩ := hq1 hE
        simp only at hnil
        subst hnil
        simp only
        refine ⟨⟨m', by rw [hr]; exact hv2⟩, ?_⟩
        intro n hn; cases hn; exact g4 (by rw [g8, hE])
      | false =>
        obtain ⟨p, hP, hr⟩ := hq2 hE
        cases srcs' with
        | nil => exact hP.elim
        | cons s2 rest2 =>
          obtain ⟨ws2, q1, q2, W3, k1, k2, k3, k4, k5, k6, k7, x, k8, k9⟩ := hP
          simp only at k1 k2 k3 k4 k5 k6 k7 k8 k9 ⊢
          obtain ⟨pre2, ht2, hp2⟩ := hv2.take
          have hpos : s'.pos = c.cache.pos := g11
          have hd2 : d' = x.drop pre2.length ++ q1.take dup' := by
            have h1 : (pre2 ++ d').drop pre2.length = d' := List.drop_left ..
            rw [← h1, ← ht2, k8, List.drop_append_of_le_length (by omega)]
          have hdl : d'.length = k := by rw [← hv2.length]; exact hlk
          have hk1 : 1 ≤ k := (hlent k rfl).2 hE
          refine ⟨trivial, d', m', _, ws2, q1, q2, W3, hv2, k1, k5, k6, Or.inr ⟨?_, rfl, k2, ⟨x.drop pre2.length, hd2, ?_⟩, hdl.symm⟩⟩
          · intro h0; rw [h0] at hdl; simp at hdl; omega
          · rw [hr, k7, hd2]
            simp [hal', padLen_one]
            rw [← List.append_assoc, List.take_append_drop]
    · intro he; have := g5 he; simp only [Phase.lb] at this; omega

theorem serves {S : ByteSrc σ} {F M R} (h : Serves S F M R) (hM : ∀ m, M m → AnyMargin m) (B fuel : Nat) :
    Serves (byteSrc S B fuel) F AnyMargin (fun c ph w rem => Rel R c ph w rem ∧ w < fuel) where
  fill c ph w rem req := by
    rintro ⟨⟨hal, hrel⟩, hw⟩
    cases hs : c.srcs with
    | nil =>
      rw [hs] at hrel
      obtain ⟨⟨m, hv⟩, _⟩ := hrel
      right
      refine ⟨true, c.cache.length, w, c, by simp [byteSrc, hs], ⟨⟨hal, by simp only [hs]; exact ⟨⟨m, hv⟩, by rintro n ⟨⟩; exact hv.length⟩⟩, hw⟩, by rw [hv.length]; exact Nat.le_refl _, ?_, fun _ => hv.length, by simp, Nat.le_refl _, by simp⟩
      intro _
      refine ⟨m, ?_, ?_⟩
      · obtain ⟨_, _, _, _, hm⟩ := hv; rw [AnyMargin, hm]; exact Nat.le_refl _
      · simp only [byteSrc, hs, hv.asSlice, hv.length, List.take_length]
    | cons s rest =>
      rw [hs] at hrel
      obtain ⟨heof, d, m, phs, ws, r1, r2, W2, hv, hR, hfr, hW, hcase⟩ := hrel
      simp only [byteSrc, hs]
      rcases h.fill s _ _ _ (max 1 (req - c.cache.length)) hR with
        ⟨e, hF, heq⟩ | ⟨eof, n, w', s', heq, hR', hn, hm, he', hne', hw', hw''⟩
      · left; exact ⟨e, hF, by simp only [heq]⟩
      · simp only [heq]
        by_cases hp : (eof || decide (c.cache.length > 0)) = true
        · rw [if_pos hp]
          -- both cases have the same shape
          have hshape : ∃ d0, d = d0 ++ r1.take c.dup ∧ rem = d0 ++ r1 ++ r2 ∧ c.dup ≤ n ∧
              (d = [] → c.cache.len + 1 ≤ c.cache.targetLen) ∧ (∀ k, (d0 ++ r1.take n).length ≤ k → 1 ≤ k → ph.lb ≤ k) := by
            rcases hcase with ⟨hd, hrem, hdup, htl, hph⟩ | ⟨hd, hphs, hdup, ⟨d0, hd0, hrem⟩, hph⟩
            · refine ⟨[], by simp [hd, hdup], by simp [hrem], by omega, fun _ => htl, ?_⟩
              intro k hk h1
              have hE : eof = true := by
                rw [hv.length, hd] at hp; simpa using hp
              have := he' hE
              simp only [List.nil_append, List.length_take] at hk
              cases ph with
              | lent n' => simp only at hph; simp only [Phase.lb]; omega
              | idle lb => obtain ⟨lb', _, _, _, h4⟩ := hph; simp only [Phase.lb]; omega
            · have hdn : c.dup ≤ n := by
                cases hE : eof with
                | true => rw [he' hE]; exact hdup
                | false => have := (hne' hE).2; rw [hphs] at this; exact this
              refine ⟨d0, hd0, hrem, hdn, fun h => absurd h hd, ?_⟩
              intro k hk h1
              have : d.length ≤ (d0 ++ r1.take n).length := by rw [hd0]; simp; omega
              cases ph with
              | lent n' => simp only at hph; simp only [Phase.lb]; omega
              | idle lb => simp only at hph; simp only [Phase.lb]; omega
          obtain ⟨d0, hd0, hrem, hdn, htl, hlb⟩ := hshape
          rcases accumulate_spec h (fuel := fuel) (c := { c with srcs := s' :: rest }) rfl hal heof hv hR' hn (slice_take hn hm) he' (fun h => (hne' h).1) hfr (w := w) (by omega) hw d0 hdn hd0 htl (max 1 (req - c.cache.length)) with
            ⟨e, hF, heq2⟩ | ⟨eof2, k, w2, c', heq2, g1, g2, g3, g4, g5, g6, g7⟩
          · left; exact ⟨e, hF, heq2⟩
          · right
            rw [hrem]
            refine ⟨eof2, k, w2, c', heq2, ⟨g1, by omega⟩, g2, ?_, g4, ?_, g6, fun h _ => g7 h⟩
            · intro hk
              refine ⟨List.replicate MARGIN 10, by simp [AnyMargin], ?_⟩
              · obtain ⟨h1, h2⟩ := g3 hk
                rw [← h1]
                split
                · rfl
                · exact if_neg h2
            · intro h; exact ⟨(g5 h).1, hlb k (g5 h).2 (g5 h).1⟩
        · rw [if_neg hp]
          simp only [Bool.or_eq_true, decide_eq_true_eq, not_or, Bool.not_eq_true] at hp
          obtain ⟨hE, hl0⟩ := hp
          have hd : d = [] := List.eq_nil_of_length_eq_zero (by rw [← hv.length]; omega)
          rcases hcase with ⟨_, hrem, hdup, htl, hph⟩ | ⟨h0, _⟩
          · right
            refine ⟨eof, n, w' + r1.length + 1 + W2, _, rfl, ⟨⟨hal, heof, d, m, _, w', r1, r2, W2, hv, hR', hfr, Nat.le_refl _, Or.inl ⟨hd, hrem, rfl, htl, rfl, (hne' hE).1, hn⟩⟩, by omega⟩, ?_, ?_, ?_, ?_, by omega, ?_⟩
            · rw [hrem]; simp; omega
            · intro hk
              obtain ⟨m2, hm2, hs2⟩ := hm hk
              refine ⟨m2, hM m2 hm2, ?_⟩
              simp only
              rw [if_pos (by omega), hs2, hrem, List.take_append_of_le_length hn]
            · simp [hE]
            · intro _
              refine ⟨(hne' hE).1, ?_⟩
              have := (hne' hE).2
              cases ph with
              | lent n' => simp only at hph; rw [hph.1] at this; exact this
              | idle lb => obtain ⟨lb', h1, _, h3, _⟩ := hph; rw [h1] at this; simp only [Phase.lb] at this ⊢; omega
            · intro _ hidle
              cases ph with
              | lent n' => exact hidle.elim
              | idle lb =>
                obtain ⟨lb', h1, _⟩ := hph
                have := hw'' hE (by rw [h1]; trivial)
                omega
          · exact absurd hd h0
  consume c n w rem k := by
    rintro ⟨⟨hal, hrel⟩, hw⟩ hk
    cases hs : c.srcs with
    | nil =>
      rw [hs] at hrel
      obtain ⟨⟨m, hv⟩, hn⟩ := hrel
      have := hn n rfl
      obtain ⟨h1, h2, h3, _⟩ := hv.consume B k (by omega)
      refine ⟨{ c with srcs := [], cache := c.cache.consume B k }, w, by simp only [byteSrc, hs], ⟨⟨by simp only [h3]; exact hal, ?_⟩, hw⟩, Nat.le_refl _⟩
      simp only
      exact ⟨⟨m, h1⟩, by simp [Phase.afterConsume]⟩
    | cons s rest =>
      rw [hs] at hrel
      obtain ⟨heof, d, m, phs, ws, r1, r2, W2, hv, hR, hfr, hW, hcase⟩ := hrel
      simp only [byteSrc, hs]
      rcases hcase with ⟨hd, hrem, hdup, htl, hph, hn1, hn2⟩ | ⟨hd, hphs, hdup, ⟨d0, hd0, hrem⟩, hph⟩
      · have hl : c.cache.length = 0 := by rw [hv.length, hd]; rfl
        rw [if_pos hl]
        subst hph
        obtain ⟨s', w', heq, hR', hw'⟩ := h.consume _ _ _ _ k hR hk
        simp only [heq]
        refine ⟨_, w, rfl, ⟨⟨hal, heof, d, m, _, w', r1.drop k, r2, W2, hv, hR', hfr, by simp; omega, Or.inl ⟨hd, ?_, hdup, htl, _, rfl, by split <;> omega, Nat.le_refl _, ?_⟩⟩, hw⟩, Nat.le_refl _⟩
        · rw [hrem, List.drop_append_of_le_length (by omega)]
        · simp only [List.length_drop]; split <;> omega
      · have hl : c.cache.length ≠ 0 := by
          rw [hv.length]; intro h0; exact hd (List.eq_nil_of_length_eq_zero h0)
        rw [if_neg hl]
        simp only at hph
        subst hph
        have hdl : d.length = d0.length + c.dup := by rw [hd0]; simp; omega
        by_cases hlt : k < c.cache.length - c.dup
        · rw [if_pos hlt]
          rw [hv.length] at hlt
          obtain ⟨h1, h2, h3, _⟩ := hv.consume B k hk
          refine ⟨_, w, rfl, ⟨⟨by simp only [h3]; exact hal, ?_⟩, hw⟩, Nat.le_refl _⟩
          simp only
          refine ⟨by rw [h2]; exact heof, d.drop k, m, phs, ws, r1, r2, W2, h1, hR, hfr, hW, Or.inr ⟨?_, hphs, hdup, ⟨d0.drop k, ?_, ?_⟩, ?_⟩⟩
          · intro h0
            have := congrArg List.length h0
            simp at this; omega
          · rw [hd0, List.drop_append_of_le_length (by omega)]
          · rw [hrem, List.append_assoc, List.drop_append_of_le_length (by omega), List.append_assoc]
          · show (if k = 0 then max 1 d.length else 1) ≤ (d.drop k).length
            rw [List.length_drop]; split <;> omega
        · rw [if_neg hlt]
          rw [hv.length] at hlt ⊢
          subst hphs
          obtain ⟨s', w', heq, hR', hw'⟩ := h.consume _ _ _ _ (k - (d.length - c.dup)) hR (by omega)
          obtain ⟨h1, h2, h3, _, _, h6⟩ := hv.consume B d.length (Nat.le_refl _)
          simp only [heq]
          refine ⟨_, w, rfl, ⟨⟨by simp only [h3]; exact hal, by simp only [h2]; exact heof, _, m, _, w', _, r2, W2, h1, hR', hfr, by simp; omega, Or.inl ⟨by simp, ?_, rfl, h6 heof, _, rfl, by split <;> omega, ?_, ?_⟩⟩, hw⟩, Nat.le_refl _⟩
          · rw [hrem, List.append_assoc, List.drop_append, List.drop_of_length_le (by omega), List.nil_append,
              List.drop_append_of_le_length (by omega)]
            congr 2; omega
          · split <;> split <;> omega
          · simp only [List.length_drop]; split <;> omega

theorem faithful {S : ByteSrc σ} {F M R} (h : Faithful S F M R) (hM : ∀ m, M m → AnyMargin m) (B fuel : Nat) :
    Faithful (byteSrc S B fuel) F AnyMargin (fun c ph w rem => Rel R c ph w rem ∧ w < fuel) where
  fill := (serves h.serves hM B fuel).fill
  consume := (serves h.serves hM B fuel).consume
  nudge c lb w rem := by
    rintro ⟨⟨hal, hrel⟩, hw⟩
    cases hs : c.srcs with
    | nil =>
      rw [hs] at hrel
      obtain ⟨⟨m, hv⟩, hn⟩ := hrel
      obtain ⟨h1, h2, h3, _⟩ := hv.consume B 0 (by omega)
      refine ⟨{ c with srcs := [], cache := c.cache.consume B 0 }, w, by simp only [byteSrc, hs], ⟨⟨by simp only [h3]; exact hal, ?_⟩, hw⟩, Nat.le_refl _⟩
      simp only
      exact ⟨⟨m, h1⟩, by simp⟩
    | cons s rest =>
      rw [hs] at hrel
      obtain ⟨heof, d, m, phs, ws, r1, r2, W2, hv, hR, hfr, hW, hcase⟩ := hrel
      simp only [byteSrc, hs]
      rcases hcase with ⟨hd, hrem, hdup, htl, lb', hph, hl1, hl2, hl3⟩ | ⟨hd, hphs, hdup, ⟨d0, hd0, hrem⟩, hph⟩
      · have hl : c.cache.length = 0 := by rw [hv.length, hd]; rfl
        rw [if_pos hl]
        subst hph
        obtain ⟨s', w', heq, hR', hw'⟩ := h.nudge _ _ _ _ hR
        simp only [heq]
        exact ⟨_, w, rfl, ⟨⟨hal, heof, d, m, _, w', r1, r2, W2, hv, hR', hfr, by omega, Or.inl ⟨hd, hrem, hdup, htl, _, rfl, hl1, hl2, hl3⟩⟩, hw⟩, Nat.le_refl _⟩
      · have hl : c.cache.length ≠ 0 := by
          rw [hv.length]; intro h0; exact hd (List.eq_nil_of_length_eq_zero h0)
        rw [if_neg hl]
        have hdl : d.length = d0.length + c.dup := by rw [hd0]; simp; omega
        by_cases hlt : 0 < c.cache.length - c.dup
        · rw [if_pos hlt]
          rw [hv.length] at hlt
          obtain ⟨h1, h2, h3, _⟩ := hv.consume B 0 (by omega)
          refine ⟨_, w, rfl, ⟨⟨by simp only [h3]; exact hal, ?_⟩, hw⟩, Nat.le_refl _⟩
          simp only
          exact ⟨by rw [h2]; exact heof, d, m, phs, ws, r1, r2, W2, h1, hR, hfr, hW, Or.inr ⟨hd, hphs, hdup, ⟨d0, hd0, hrem⟩, hph⟩⟩
        · rw [if_neg hlt]
          rw [hv.length] at hlt ⊢
          subst hphs
          obtain ⟨s', w', heq, hR', hw'⟩ := h.consume _ _ _ _ (0 - (d.length - c.dup)) hR (by omega)
          obtain ⟨h1, h2, h3, _, _, h6⟩ := hv.consume B d.length (Nat.le_refl _)
          simp only [heq]
          have hd00 : d0 = [] := List.eq_nil_of_length_eq_zero (by omega)
          refine ⟨_, w, rfl, ⟨⟨by simp only [h3]; exact hal, by simp only [h2]; exact heof, _, m, _, w', _, r2, W2, h1, hR', hfr, by simp; omega, Or.inl ⟨by simp, ?_, rfl, h6 heof, _, rfl, by split <;> omega, ?_, ?_⟩⟩, hw⟩, Nat.le_refl _⟩
          · rw [hrem, hd00]; simp
          · simp only at hph; split <;> omega
          · simp only at hph; simp; omega

/-- The bound on the number of non-final fills of a `CatStream`, from the bounds and contents of its
sources. -/
def fills (ws : List (Nat × Bytes)) : Nat := (ws.map fun x => x.1 + x.2.length + 1).sum

theorem fresh_of_forall {R : σ → Phase → Nat → Bytes → Prop} :
    ∀ {srcs : List σ} {cs : List (Nat × Bytes)}, List.Forall₂ (fun s c => R s (.idle 1) c.1 c.2) srcs cs →
      Fresh R srcs (fills cs) (cs.map Prod.snd).flatten := by
  intro srcs cs h
  induction h with
  | nil => rfl
  | cons h _ ih => exact ⟨_, _, _, _, rfl, h, ih, by simp [fills]⟩

theorem delivers {S : ByteSrc σ} {F M} (hM : ∀ m, M m → AnyMargin m) {B fuel : Nat} (hB : 0 < B) {srcs : List σ}
    {cs : List (Nat × Bytes)} (h : List.Forall₂ (fun s c => Delivers S F M s c.1 c.2) srcs cs) (hf : fills cs < fuel) :
    Delivers (byteSrc S B fuel) F AnyMargin (new B srcs) (fills cs) (cs.map Prod.snd).flatten := by
  have h' : List.Forall₂ (fun s c => Live S F M s (.idle 1) c.1 c.2) srcs cs := h
  refine ⟨_, faithful Live.faithful hM B fuel, ⟨rfl, ?_⟩, hf⟩
  have hfr := fresh_of_forall h'
  cases srcs with
  | nil =>
    simp only [Fresh] at hfr
    simp only [new]
    rw [hfr]
    exact ⟨⟨_, StreamBuf.View.new B 1 0⟩, by simp⟩
  | cons s rest =>
    obtain ⟨w, c1, c2, W2, hc, hR, hfr, hW⟩ := hfr
    exact ⟨rfl, [], _, _, w, c1, c2, W2, StreamBuf.View.new B 1 0, hR, hfr, hW, Or.inl ⟨rfl, hc, rfl, hB, 1, rfl, Nat.le_refl _, Nat.le_refl _, by omega⟩⟩

end CatStream
end Nd
