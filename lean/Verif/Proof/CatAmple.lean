import Verif.Proof.Ample
import Verif.Proof.Cat
/-!
# `CatStream` lends enough before its end
-/
namespace Nd
namespace CatStream

theorem feed_shape {S : ByteSrc σ} {t : Captured σ} {req : Nat} {buf : Bytes} {eof buf' t'} (h : feed S t req buf = .ok (eof, buf', t')) :
    buf.length ≤ buf'.length ∧ (eof = true ↔ t'.1 = []) := by
  obtain ⟨srcs, dup, isEof⟩ := t
  unfold feed at h
  cases srcs with
  | nil => cases h
  | cons s rest =>
    simp only at h
    split at h
    · cases h
    · rename_i s1 _
      cases hb : (if isEof = true then rest else s1 :: rest) with
      | nil =>
        rw [hb] at h
        cases h
        simp
      | cons s2 rest2 =>
        rw [hb] at h
        simp only at h
        split at h
        · cases h
        · cases h
          simp

theorem fillLoop_shape {S : ByteSrc σ} (target : Nat) : ∀ (fuel : Nat) (s : StreamBuf) (t : Captured σ) (s' : StreamBuf) (t' : Captured σ),
    s.isEof = false → StreamBuf.fillLoop (feed S) target fuel s t = .ok (s', t') →
    (s'.isEof = true ↔ t'.1 = []) ∧ (s'.isEof = false → s.buf.length ≤ s'.buf.length)
  | 0, s, t, s', t', _, h => by simp [StreamBuf.fillLoop] at h
  | fuel + 1, s, t, s', t', he, h => by
    unfold StreamBuf.fillLoop at h
    split at h
    · cases h
    · rename_i eof buf t1 hf
      obtain ⟨h1, h2⟩ := feed_shape hf
      simp only at h
      split at h
      · rename_i hE
        cases h
        exact ⟨⟨fun _ => h2.1 hE, fun _ => rfl⟩, by simp [StreamBuf.markEof]⟩
      · rename_i hE
        split at h
        · cases h
          refine ⟨?_, fun _ => h1⟩
          simp only [he, Bool.false_eq_true, false_iff]
          exact fun h => hE (h2.2 h)
        · obtain ⟨h3, h4⟩ := fillLoop_shape target fuel _ t1 s' t' (by exact he) h
          exact ⟨h3, fun h => Nat.le_trans h1 (h4 h)⟩

open StreamBuf (Ready Filled Early)

theorem accumulate_shape {S : ByteSrc σ} {B fuel : Nat} {c : CatStream σ} {isEof : Bool} {bytes req : Nat} {eof n c'} (hc : c.cache.isEof = false)
    (hi : Ready B c.cache ∨ Filled B c.cache) (h : accumulateIntoCache S fuel c isEof bytes req = .ok ((eof, n), c')) (hn : eof = false → 1 ≤ n) :
    (c'.srcs = [] ↔ eof = true) ∧ (eof = false → c'.cache.isEof = false ∧ Filled B c'.cache ∧ c'.cache.length = n ∧
      ∀ s rest, c.srcs = s :: rest → bytes ≤ (S.slice s).length → c.cache.pos ≤ c.cache.len → c.cache.len - c.cache.pos + (bytes - c.dup) ≤ n) := by
  unfold accumulateIntoCache at h
  split at h
  · cases h
  · rename_i s rest hs
    split at h
    · cases h
    · simp only at h
      split at h
      · cases h
      · rename_i r cache srcs dup e1 hf
        simp only [Except.ok.injEq, Prod.mk.injEq] at h
        obtain ⟨hr, hc'⟩ := h
        subst hc' hr
        simp only
        obtain ⟨h1, h2, h3, h4⟩ := StreamBuf.fillBuf_shape hf
        have hE : (c.cache.extendFromSlice (((S.slice s).take bytes).drop c.dup)).isEof = false := hc
        unfold StreamBuf.fillBuf at hf
        rw [if_neg (by rw [hE]; simp)] at hf
        split at hf
        · cases hf
        · rename_i s1 t1 hl
          obtain ⟨k1, k2⟩ := fillLoop_shape _ _ _ _ _ _ (by exact hE) hl
          simp only [Except.ok.injEq, Prod.mk.injEq] at hf
          obtain ⟨⟨g1, g2⟩, g3, g4⟩ := hf
          subst g4
          refine ⟨by rw [← k1, g1], fun he => ?_⟩
          subst he
          have hnn := hn rfl
          have hgrow : (c.cache.extendFromSlice (((S.slice s).take bytes).drop c.dup)).len ≤ cache.len := by
            have hk := k2 g1
            rw [← g3]
            simp only
            refine Nat.le_trans (Nat.le_of_eq ?_) hk
            simp only [StreamBuf.extendFromSlice, resize, List.length_take, List.length_append, List.length_replicate]
            omega
          refine ⟨h2, Or.inr ?_, h1.symm, ?_⟩
          rotate_left
          · intro s' rest' hs' hb hpl
            rw [hs, List.cons.injEq] at hs'
            obtain ⟨rfl, rfl⟩ := hs'
            have e2 : (c.cache.extendFromSlice (((S.slice s).take bytes).drop c.dup)).pos = c.cache.pos := rfl
            have e4 : (c.cache.extendFromSlice (((S.slice s).take bytes).drop c.dup)).len = c.cache.len + (bytes - c.dup) := by
              simp only [StreamBuf.extendFromSlice, List.length_drop, List.length_take]
              omega
            omega
          rcases h4 with ⟨h4, _⟩ | ⟨_, h5 | ⟨h5, h6⟩⟩
          · rw [hE] at h4; cases h4
          · cases h5
          · have hM : MARGIN = 256 := rfl
            have e1 : (c.cache.extendFromSlice (((S.slice s).take bytes).drop c.dup)).targetLen = c.cache.targetLen := rfl
            have e2 : (c.cache.extendFromSlice (((S.slice s).take bytes).drop c.dup)).pos = c.cache.pos := rfl
            have e3 : c.cache.len ≤ (c.cache.extendFromSlice (((S.slice s).take bytes).drop c.dup)).len := Nat.le_add_right _ _
            have hbe : B ≤ max c.cache.targetLen c.cache.len ∧ Early B c.cache := by
              rcases hi with (hi | hi) | (hi | hi)
              · rw [hc] at hi; cases hi
              · exact ⟨by omega, hi.2.2⟩
              · rw [hc] at hi; cases hi
              · exact ⟨by omega, hi.2.2.2⟩
            refine ⟨h5, by omega, by omega, ?_⟩
            have hea := hbe.2
            unfold Early at hea ⊢
            rw [h3, e2]
            rcases hea with hea | hea
            · exact Or.inl hea
            · right; omega

/-- The cache is ready to lend enough, and starts at the front when it is empty. -/
def Home (B : Nat) (s : StreamBuf) : Prop := Ready B s ∧ (1792 ≤ B → s.length = 0 → s.pos = 0)

/-- The cache is ready to lend enough. -/
def CacheOk (B : Nat) (c : CatStream σ) (ph : Phase) : Prop :=
  c.srcs = [] ∨ (c.cache.isEof = false ∧
    match ph with
    | .idle _ => Home B c.cache
    | .lent _ => (c.cache.length = 0 ∧ Home B c.cache) ∨ (c.cache.length ≠ 0 ∧ Filled B c.cache))

def AmpleRel (R : σ → Phase → Nat → Bytes → Prop) (B fuel : Nat) (c : CatStream σ) (ph : Phase) (w : Nat) (rem : Bytes) : Prop :=
  (Rel R c ph w rem ∧ w < fuel) ∧ CacheOk B c ph

theorem accumulate_far {S : ByteSrc σ} {fuel : Nat} {c : CatStream σ} {isEof : Bool} {bytes req : Nat} {n c'} (hp : c.cache.pos = 0)
    (h : accumulateIntoCache S fuel c isEof bytes req = .ok ((false, n), c')) : req ≤ n := by
  unfold accumulateIntoCache at h
  split at h
  · cases h
  · split at h
    · cases h
    · simp only at h
      split at h
      · cases h
      · rename_i r cache srcs dup e1 hf
        simp only [Except.ok.injEq, Prod.mk.injEq] at h
        obtain ⟨hr, _⟩ := h
        subst hr
        obtain ⟨h1, h2, h3, h4⟩ := StreamBuf.fillBuf_shape hf
        simp only [StreamBuf.extendFromSlice] at h3
        rcases h4 with ⟨h4, h5⟩ | ⟨_, h5 | ⟨_, h5⟩⟩
        · rw [h5, h4] at h2; cases h2
        · cases h5
        · omega

theorem far {S : ByteSrc σ} {F R} (hF : Far S R) {B fuel : Nat} (hserve : Serves (byteSrc S B fuel) F AnyMargin (AmpleRel R B fuel)) (hB : 1792 ≤ B) :
    Far (byteSrc S B fuel) (AmpleRel R B fuel) := by
  rintro c n w rem c1 req n' c2 hR0 hc hf
  obtain ⟨c1', w1, hc', hR1, _⟩ := hserve.consume c n w rem n hR0 (Nat.le_refl n)
  rw [hc] at hc'
  simp only [Except.ok.injEq] at hc'
  subst hc'
  obtain ⟨_, hok1⟩ := hR1
  obtain ⟨⟨⟨hal, hrel⟩, hw⟩, hok⟩ := hR0
  simp only [byteSrc] at hc hf
  cases hs : c.srcs with
  | nil =>
    rw [hs] at hc
    cases hc
    simp at hf
  | cons s rest =>
    rw [hs] at hrel hc
    obtain ⟨heof, d, m, phs, ws, r1, r2, W2, hv, hR, hfr, hW, hcase⟩ := hrel
    simp only at hc
    have after : ∀ (s0 s1 : σ) (m : Nat) (w1 : Nat) (r1' : Bytes), c1.srcs = s1 :: rest → c1.cache.length = 0 → R s0 (.lent m) w1 r1' → S.consume s0 m = .ok s1 → req ≤ n' := by
      intro s0 s1 m w1 r1' hs1 hl0 hRs hcs
      rw [hs1] at hf
      simp only [hl0, Nat.sub_zero, Nat.lt_irrefl, decide_false, Bool.or_false, gt_iff_lt] at hf
      rcases hok1 with hok1 | ⟨hce, hready, hhome⟩
      · rw [hs1] at hok1; cases hok1
      split at hf
      · cases hf
      · rename_i e0 n0 s2 hfs
        split at hf
        · have := accumulate_far (by exact hhome hB hl0) hf
          omega
        · rename_i he0
          simp only [Bool.not_eq_true] at he0
          subst he0
          simp only [Except.ok.injEq, Prod.mk.injEq] at hf
          obtain ⟨⟨_, hn⟩, _⟩ := hf
          have := hF _ _ _ _ _ _ _ _ hRs hcs hfs
          omega
    rcases hcase with ⟨hd, hrem, hdup, htl, hph, hnn1, hn2⟩ | ⟨hd, hphs, hdup, ⟨d0, hd0, hrem⟩, hph⟩
    · have hl : c.cache.length = 0 := by rw [hv.length, hd]; rfl
      rw [if_pos hl] at hc
      subst hph
      split at hc
      · cases hc
      · rename_i s' heq
        cases hc
        exact after s s' n _ _ rfl hl hR heq
    · have hl : c.cache.length ≠ 0 := by
        rw [hv.length]; intro h0; exact hd (List.eq_nil_of_length_eq_zero h0)
      rw [if_neg hl] at hc
      simp only at hph
      subst hph
      have hdl : d.length = d0.length + c.dup := by rw [hd0]; simp; omega
      have hgone : (c.cache.consume B c.cache.length).length = 0 := by
        rw [hv.length, (hv.consume B d.length (Nat.le_refl _)).1.length]
        simp
      subst hphs
      by_cases hlt : d.length < c.cache.length - c.dup
      · rw [hv.length] at hlt
        omega
      · rw [if_neg hlt] at hc
        split at hc
        · cases hc
        · rename_i s' heq
          cases hc
          rw [hv.length, show d.length - (d.length - c.dup) = c.dup by omega] at heq
          exact after s s' c.dup _ _ rfl hgone hR heq

theorem ample {S : ByteSrc σ} {F M R L E} (h : Serves S F M R) (hA : Ample S R L E) (hM : ∀ m, M m → AnyMargin m) {B fuel : Nat} (hB : 0 < B) :
    Serves (byteSrc S B fuel) F AnyMargin (AmpleRel R B fuel) ∧
    Ample (byteSrc S B fuel) (AmpleRel R B fuel) (min L ((B - 1784) / 8)) (fun c => c.srcs = []) := by
  have hserve := serves h hM B fuel
  have shape : ∀ (c : CatStream σ) (ph : Phase) (w : Nat) (rem : Bytes) (req : Nat) (eof : Bool) (n : Nat) (c' : CatStream σ),
      AmpleRel R B fuel c ph w rem → (byteSrc S B fuel).fill c req = .ok ((eof, n), c') →
      (c'.srcs = [] ↔ eof = true) ∧ CacheOk B c' (.lent n) ∧ (eof = false → min L ((B - 1784) / 8) ≤ n) ∧ (c.srcs = [] → eof = true) := by
    rintro c ph w rem req eof n c' ⟨hrel, hok⟩ heq
    have hlb : eof = false → 1 ≤ n := by
      rcases hserve.fill c ph w rem req hrel with ⟨e, _, h⟩ | ⟨eof1, n1, w1, s1, h, _, _, _, _, hne, _, _⟩
      · rw [heq] at h; cases h
      · rw [heq] at h; cases h; exact fun h => (hne h).1
    simp only [byteSrc] at heq
    cases hs : c.srcs with
    | nil =>
      rw [hs] at heq
      simp only [Except.ok.injEq, Prod.mk.injEq] at heq
      obtain ⟨⟨h1, h2⟩, h3⟩ := heq
      subst h1 h2 h3
      simp [hs, CacheOk]
    | cons s rest =>
      rw [hs] at heq
      simp only at heq
      rcases hok with hok | ⟨hc, hok⟩
      · rw [hs] at hok; cases hok
      have hi : Ready B c.cache ∨ Filled B c.cache := by
        cases ph with
        | idle lb => exact Or.inl hok.1
        | lent k => exact hok.elim (fun h => Or.inl h.2.1) (fun h => Or.inr h.2)
      split at heq
      · cases heq
      · rename_i eof0 bytes s' hf
        split at heq
        · obtain ⟨k1, k2⟩ := accumulate_shape (B := B) (c := { c with srcs := s' :: rest }) hc hi heq hlb
          refine ⟨k1, ?_, ?_, by simp⟩
          · cases eof with
            | true => exact Or.inl (k1.2 rfl)
            | false =>
              obtain ⟨g1, g2, g3, _⟩ := k2 rfl
              have := hlb rfl
              exact Or.inr ⟨g1, Or.inr ⟨by omega, g2⟩⟩
          · intro he
            obtain ⟨g1, g2, g3, _⟩ := k2 he
            have := g2.ample g1
            rw [← g3]
            unfold StreamBuf.length
            omega
        · rename_i hcond
          simp only [Bool.or_eq_true, decide_eq_true_eq, not_or, Bool.not_eq_true] at hcond
          simp only [Except.ok.injEq, Prod.mk.injEq] at heq
          obtain ⟨⟨h1, h2⟩, h3⟩ := heq
          subst h1 h2 h3
          have hl0 : c.cache.length = 0 := by omega
          refine ⟨by simp [hcond.1], Or.inr ⟨hc, Or.inl ⟨hl0, ?_⟩⟩, ?_, by simp⟩
          · cases ph with
            | idle lb => exact hok
            | lent k => exact hok.elim (fun h => h.2) (fun h => absurd hl0 h.1)
          · intro he
            obtain ⟨⟨_, hr⟩, _⟩ := hrel
            rw [hs] at hr
            obtain ⟨_, d, m, phs, ws, r1, r2, W2, hv, hR, _⟩ := hr
            have := (hA.fill s phs ws r1 _ _ _ _ hR hf).1 he
            omega
  have hserve2 : Serves (byteSrc S B fuel) F AnyMargin (AmpleRel R B fuel) := by
    refine ⟨?_, ?_⟩
    · intro c ph w rem req hR
      rcases hserve.fill c ph w rem req hR.1 with h | ⟨eof, n, w', s', heq, hR', h1⟩
      · exact Or.inl h
      · exact Or.inr ⟨eof, n, w', s', heq, ⟨hR', (shape c ph w rem req eof n s' hR heq).2.1⟩, h1⟩
    · intro c n w rem k hR hk
      obtain ⟨c2, w2, heq2, hR2, hw2⟩ := hserve.consume c n w rem k hR.1 hk
      refine ⟨c2, w2, heq2, ⟨hR2, ?_⟩, hw2⟩
      obtain ⟨_, hok⟩ := hR
      simp only [byteSrc] at heq2
      cases hs : c.srcs with
      | nil =>
        rw [hs] at heq2
        cases heq2
        exact Or.inl rfl
      | cons s rest =>
        rw [hs] at heq2
        simp only at heq2
        rcases hok with hok | ⟨hc, hok⟩
        · rw [hs] at hok; cases hok
        split at heq2
        · rename_i hl0
          split at heq2
          · cases heq2
          · cases heq2
            exact Or.inr ⟨hc, hok.elim (fun h => h.2) (fun h => absurd hl0 h.1)⟩
        · rename_i hl0
          have hfil := hok.elim (fun h => absurd h.1 hl0) (fun h => h.2)
          split at heq2
          · rename_i hlt
            cases heq2
            exact Or.inr ⟨by rw [StreamBuf.isEof_consume]; exact hc, ⟨hfil.consume hB k fun _ => by unfold StreamBuf.length at hlt; omega, fun h => hfil.home h hc k⟩⟩
          · split at heq2
            · cases heq2
            · cases heq2
              exact Or.inr ⟨by rw [StreamBuf.isEof_consume]; exact hc, ⟨hfil.consume hB _ fun _ => by unfold StreamBuf.length; omega, fun h => hfil.home h hc _⟩⟩
  refine ⟨hserve2, ⟨?_, ?_, ?_, fun hL => far (hA.far (by omega)) hserve2 (by omega)⟩⟩
  · intro c ph w rem req eof n c' hR heq
    obtain ⟨h1, _, h3, h4⟩ := shape c ph w rem req eof n c' hR heq
    exact ⟨h3, h1, h4⟩
  · intro c k c' heq
    simp only [byteSrc] at heq
    cases hs : c.srcs with
    | nil =>
      rw [hs] at heq
      cases heq
      simp
    | cons s rest =>
      rw [hs] at heq
      simp only at heq
      split at heq
      · split at heq
        · cases heq
        · cases heq; simp
      · split at heq
        · cases heq; simp
        · split at heq
          · cases heq
          · cases heq; simp
  · rintro c n w rem k c1 req eof n' c2 hR0 hk hc hf he
    subst he
    obtain ⟨c1', w1, hc', hR1, _⟩ := hserve2.consume c n w rem k hR0 hk
    rw [hc] at hc'
    simp only [Except.ok.injEq] at hc'
    subst hc'
    have hn1 : 1 ≤ n' := by
      rcases hserve2.fill c1 _ _ _ req hR1 with ⟨e, _, h⟩ | ⟨eof1, n1, w1, s1, h, _, _, _, _, hne, _, _⟩
      · rw [hf] at h; cases h
      · rw [hf] at h; cases h; exact (hne rfl).1
    obtain ⟨⟨⟨_, hrel1⟩, _⟩, hok1⟩ := hR1
    obtain ⟨⟨⟨hal, hrel⟩, hw⟩, hok⟩ := hR0
    simp only [byteSrc] at hc hf
    cases hs : c.srcs with
    | nil =>
      rw [hs] at hc
      cases hc
      simp at hf
    | cons s rest =>
      rw [hs] at hrel hc
      obtain ⟨heof, d, m, phs, ws, r1, r2, W2, hv, hR, hfr, hW, hcase⟩ := hrel
      simp only at hc
      -- the first source after the consume, and what it has lent
      have after : ∀ (s1 : σ) (ph1 : Phase) (w1 : Nat) (r1' : Bytes) (lb : Nat), c1.srcs = s1 :: rest → R s1 ph1 w1 r1' → c1.dup ≤ lb →
          lb ≤ r1'.length → (∀ req n0 s2, S.fill s1 req = .ok ((false, n0), s2) → lb ≤ n0) →
          c1.cache.length + (lb - c1.dup) ≤ n' := by
        intro s1 ph1 w1 r1' lb hs1 hRs hdl hlr hlb
        rw [hs1] at hf hrel1
        obtain ⟨_, _, _, _, _, _, _, _, ⟨_, _, hp1, hp2, _⟩, _⟩ := hrel1
        simp only at hf
        rcases hok1 with hok1 | ⟨hce, hready⟩
        · rw [hs1] at hok1; cases hok1
        split at hf
        · cases hf
        · rename_i e0 n0 s2 hfs
          have hb : n0 ≤ (S.slice s2).length ∧ lb ≤ n0 := by
            rcases h.fill s1 _ _ _ _ hRs with ⟨e, _, hh⟩ | ⟨e1, n1, w1, s1', hh, _, hn, hm, he', _, _, _⟩
            · rw [hfs] at hh; cases hh
            · rw [hfs] at hh
              cases hh
              refine ⟨?_, ?_⟩
              · rcases Nat.eq_zero_or_pos n0 with h0 | h0
                · omega
                · obtain ⟨m, _, hm⟩ := hm h0
                  rw [hm]; simp; omega
              · cases e0 with
                | true => have := he' rfl; omega
                | false => exact hlb _ _ _ hfs
          split at hf
          · obtain ⟨_, k2⟩ := accumulate_shape (B := B) (c := { c1 with srcs := s2 :: rest }) hce (Or.inl hready.1) hf (fun _ => hn1)
            have := (k2 rfl).2.2.2 s2 rest rfl hb.1 (by simp only; omega)
            unfold StreamBuf.length
            simp only at this
            omega
          · rename_i hcond
            simp only [Bool.or_eq_true, decide_eq_true_eq, not_or] at hcond
            simp only [Except.ok.injEq, Prod.mk.injEq] at hf
            obtain ⟨⟨_, hn⟩, _⟩ := hf
            omega
      rcases hcase with ⟨hd, hrem, hdup, htl, hph, hnn1, hn2⟩ | ⟨hd, hphs, hdup, ⟨d0, hd0, hrem⟩, hph⟩
      · have hl : c.cache.length = 0 := by rw [hv.length, hd]; rfl
        rw [if_pos hl] at hc
        subst hph
        obtain ⟨s', w', heq, hR', hw'⟩ := h.consume _ _ _ _ k hR hk
        rw [heq] at hc
        cases hc
        have := after s' _ _ _ (n - k) rfl hR' (by simp only; omega) (by simp; omega) (fun req n0 s2 hfs => hA.keep _ _ _ _ _ _ _ _ _ _ hR hk heq hfs rfl)
        simp only [hdup] at this
        omega
      · have hl : c.cache.length ≠ 0 := by
          rw [hv.length]; intro h0; exact hd (List.eq_nil_of_length_eq_zero h0)
        rw [if_neg hl] at hc
        simp only at hph
        subst hph
        have hdl : d.length = d0.length + c.dup := by rw [hd0]; simp; omega
        by_cases hlt : k < c.cache.length - c.dup
        · rw [if_pos hlt] at hc
          cases hc
          subst hphs
          obtain ⟨h1, _⟩ := hv.consume B k hk
          have := after s _ _ _ c.dup rfl hR (Nat.le_refl _) hdup (fun req n0 s2 hfs => by
            rcases h.fill s _ _ _ req hR with ⟨e, _, hh⟩ | ⟨e1, n1, w1, s1', hh, _, _, _, _, hne, _, _⟩
            · rw [hfs] at hh; cases hh
            · rw [hfs] at hh; cases hh; exact (hne rfl).2)
          simp only at this
          rw [h1.length, List.length_drop] at this
          omega
        · rw [if_neg hlt] at hc
          subst hphs
          rw [hv.length] at hc hlt
          obtain ⟨s', w', heq, hR', hw'⟩ := h.consume _ _ _ _ (k - (d.length - c.dup)) hR (by omega)
          rw [heq] at hc
          cases hc
          have := after s' _ _ _ (c.dup - (k - (d.length - c.dup))) rfl hR' (Nat.zero_le _) (by simp; omega)
            (fun req n0 s2 hfs => hA.keep _ _ _ _ _ _ _ _ _ _ hR (by omega) heq hfs rfl)
          simp only at this
          omega

/-- A fresh `CatStream` over sources that lend enough. -/
theorem amply {S : ByteSrc σ} {F M R L E} (h : Serves S F M R) (hA : Ample S R L E) (hM : ∀ m, M m → AnyMargin m) {B fuel : Nat} (hB : 0 < B)
    {srcs : List σ} {cs : List (Nat × Bytes)} (hne : srcs ≠ []) (hs : List.Forall₂ (fun s c => R s (.idle 1) c.1 c.2) srcs cs) (hf : fills cs < fuel) :
    ServesAmply (byteSrc S B fuel) F AnyMargin (min L ((B - 1784) / 8)) (new B srcs) (fills cs) (cs.map Prod.snd).flatten := by
  obtain ⟨h1, h2⟩ := ample h hA hM (fuel := fuel) hB
  refine ⟨_, _, h1, h2, ⟨⟨⟨rfl, ?_⟩, hf⟩, Or.inr ⟨rfl, Ready.new B 1 0, fun _ _ => rfl⟩⟩, hne⟩
  have hfr := fresh_of_forall hs
  cases srcs with
  | nil => exact absurd rfl hne
  | cons s rest =>
    obtain ⟨w, c1, c2, W2, hc, hR, hfr, hW⟩ := hfr
    exact ⟨rfl, [], _, _, w, c1, c2, W2, StreamBuf.View.new B 1 0, hR, hfr, hW, Or.inl ⟨rfl, hc, rfl, hB, 1, rfl, Nat.le_refl _, Nat.le_refl _, by omega⟩⟩

end CatStream
end Nd
