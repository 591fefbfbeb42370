import Verif.Model.Asserts
import Verif.Proof.CatAmple
import Verif.Proof.Scatter
/-! The assertions of the debug build hold: a stream with assertions that always hold behaves like the stream without them. -/
namespace Nd

theorem ByteSrc.asserting_fill {S : ByteSrc σ} {of oc} {s : σ} {req r s'} (h : (S.asserting of oc).fill s req = .ok (r, s')) : S.fill s req = .ok (r, s') := by
  simp only [ByteSrc.asserting] at h
  split at h
  · cases h
  · split at h
    · rename_i heq _
      cases h
      exact heq
    · cases h

theorem ByteSrc.asserting_consume {S : ByteSrc σ} {of oc} {s : σ} {k s'} (h : (S.asserting of oc).consume s k = .ok s') : S.consume s k = .ok s' := by
  simp only [ByteSrc.asserting] at h
  split at h
  · cases h
  · split at h
    · rename_i heq _
      cases h
      exact heq
    · cases h

/-- `I` is an invariant of the stream under which its assertions hold. -/
structure Upholds (S : ByteSrc σ) (M : Bytes → Prop) (R : σ → Phase → Nat → Bytes → Prop) (onFill : σ → Bool × Nat → σ → Bool) (onConsume : σ → Nat → σ → Bool) (I : σ → Phase → Prop) : Prop where
  fill : ∀ s ph w rem req eof n s' w', R s ph w rem → I s ph → S.fill s req = .ok ((eof, n), s') → R s' (.lent n) w' rem → n ≤ rem.length →
    (0 < n → ∃ m, M m ∧ S.slice s' = rem.take n ++ m) → I s' (.lent n) ∧ onFill s (eof, n) s' = true
  consume : ∀ s n w rem k s' w', R s (.lent n) w rem → I s (.lent n) → k ≤ n → S.consume s k = .ok s' → R s' (Phase.afterConsume n k) w' (rem.drop k) →
    I s' (Phase.afterConsume n k) ∧ onConsume s k s' = true

theorem Serves.asserting {S : ByteSrc σ} {F M R of oc I} (h : Serves S F M R) (hu : Upholds S M R of oc I) :
    Serves (S.asserting of oc) F M (fun s ph w rem => R s ph w rem ∧ I s ph) where
  fill s ph w rem req := by
    rintro ⟨hR, hI⟩
    rcases h.fill s ph w rem req hR with ⟨e, hF, heq⟩ | ⟨eof, n, w', s', heq, hR', hn, hm, he, hne, hw, hw'⟩
    · exact Or.inl ⟨e, hF, by simp only [ByteSrc.asserting, heq]⟩
    · obtain ⟨h1, h2⟩ := hu.fill _ _ _ _ _ _ _ _ _ hR hI heq hR' hn hm
      exact Or.inr ⟨eof, n, w', s', by simp only [ByteSrc.asserting, heq, h2, if_true], ⟨hR', h1⟩, hn, hm, he, hne, hw, hw'⟩
  consume s n w rem k := by
    rintro ⟨hR, hI⟩ hk
    obtain ⟨s', w', heq, hR', hw⟩ := h.consume s n w rem k hR hk
    obtain ⟨h1, h2⟩ := hu.consume _ _ _ _ _ _ _ hR hI hk heq hR'
    exact ⟨s', w', by simp only [ByteSrc.asserting, heq, h2, if_true], ⟨hR', h1⟩, hw⟩

/-- Streams that put up with a consume out of turn. -/
theorem Faithful.asserting {S : ByteSrc σ} {F M R of oc I} (h : Faithful S F M R) (hu : Upholds S M R of oc I)
    (hn : ∀ s lb w rem s' w', R s (.idle lb) w rem → I s (.idle lb) → S.consume s 0 = .ok s' → R s' (.idle lb) w' rem → I s' (.idle lb) ∧ oc s 0 s' = true) :
    Faithful (S.asserting of oc) F M (fun s ph w rem => R s ph w rem ∧ I s ph) where
  fill := (h.serves.asserting hu).fill
  consume := (h.serves.asserting hu).consume
  nudge s lb w rem := by
    rintro ⟨hR, hI⟩
    obtain ⟨s', w', heq, hR', hw⟩ := h.nudge s lb w rem hR
    obtain ⟨h1, h2⟩ := hn _ _ _ _ _ _ hR hI heq hR'
    exact ⟨s', w', by simp only [ByteSrc.asserting, heq, h2, if_true], ⟨hR', h1⟩, hw⟩

theorem Ample.asserting {S : ByteSrc σ} {R L E of oc} {I : σ → Phase → Prop} (h : Ample S R L E) : Ample (S.asserting of oc) (fun s ph w rem => R s ph w rem ∧ I s ph) L E where
  fill s ph w rem req eof n s' hR hf := h.fill s ph w rem req eof n s' hR.1 (ByteSrc.asserting_fill hf)
  consume s k s' hc := h.consume s k s' (ByteSrc.asserting_consume hc)
  keep s n w rem k s1 req eof n' s2 hR hk hc hf := h.keep s n w rem k s1 req eof n' s2 hR.1 hk (ByteSrc.asserting_consume hc) (ByteSrc.asserting_fill hf)
  far hL := by
    have := h.far hL
    unfold Far at this ⊢
    intro s n w rem s1 req n' s2 hR hc hf
    exact this s n w rem s1 req n' s2 hR.1 (ByteSrc.asserting_consume hc) (ByteSrc.asserting_fill hf)

namespace StreamBuf

/-- The buffer holds its margin and the position lies inside. -/
structure Sound (s : StreamBuf) : Prop where
  align : 0 < s.align
  inside : s.pos ≤ s.len
  margin : s.buf.length = s.len + MARGIN

theorem Sound.asserts {s : StreamBuf} (h : s.Sound) : s.asserts = true := by
  have := h.inside
  have := h.margin
  simp only [StreamBuf.asserts, Bool.and_eq_true, decide_eq_true_eq]
  omega

theorem Sound.new (B align : Nat) (filler : Byte) (ha : 0 < align) : (newWithAlign B align filler).Sound := ⟨ha, Nat.le_refl _, by simp [newWithAlign]⟩

theorem View.sound {s : StreamBuf} {d m} (h : View s d m) (ha : 0 < s.align) : s.Sound := by
  obtain ⟨pre, h1, h2, h3, h4⟩ := h
  refine ⟨ha, by omega, ?_⟩
  rw [h1]
  simp only [List.length_append]
  omega

/-- A closure that only appends. -/
def Appends (f : Closure τ) : Prop := ∀ t req buf eof buf' t', f t req buf = .ok (eof, buf', t') → buf.length ≤ buf'.length

theorem fillLoop_appends {f : Closure τ} (hf : Appends f) {target : Nat} : ∀ (fuel : Nat) (s : StreamBuf) (t : τ), 0 < s.align → ∀ s' t', fillLoop f target fuel s t = .ok (s', t') →
    s'.pos = s.pos ∧ s'.align = s.align ∧ s.buf.length ≤ s'.buf.length
  | 0, _, _, _, _, _, h => by cases h
  | fuel + 1, s, t, ha, s', t', h => by
    unfold fillLoop at h
    split at h
    · cases h
    · rename_i eof buf t1 heq
      have h3 := hf _ _ _ _ _ _ heq
      simp only at h
      split at h
      · cases h
        refine ⟨rfl, rfl, ?_⟩
        have hr : ∀ (l : Bytes) n x, (resize l n x).length = n := fun l n x => by simp only [resize, List.length_append, List.length_take, List.length_replicate]; omega
        simp only [markEof, hr]
        have := Nat.div_add_mod (s.offset + buf.length + s.align - 1) s.align
        have h5 := Nat.mod_lt (s.offset + buf.length + s.align - 1) ha
        rw [Nat.mul_comm] at this
        omega
      · split at h
        · cases h
          exact ⟨rfl, rfl, h3⟩
        · obtain ⟨g1, g2, g3⟩ := fillLoop_appends hf fuel { s with buf := buf } _ ha _ _ h
          exact ⟨g1, g2, Nat.le_trans h3 g3⟩

theorem Sound.fill {f : Closure τ} (hf : Appends f) {fuel : Nat} {s : StreamBuf} {t : τ} {req r s' t'} (h : s.Sound) (hr : s.fillBuf fuel f t req = .ok (r, s', t')) :
    s'.Sound ∧ r.2 = s'.len - s'.pos := by
  unfold fillBuf at hr
  split at hr
  · cases hr
    exact ⟨h, rfl⟩
  · split at hr
    · cases hr
    · rename_i s1 t1 heq
      obtain ⟨h1, h2, h3⟩ := fillLoop_appends hf fuel { s with buf := s.buf.take s.len } _ h.align _ _ heq
      cases hr
      have hi := h.inside
      have hm := h.margin
      simp only [List.length_take] at h1 h2 h3
      refine ⟨⟨by rw [h2]; exact h.align, ?_, ?_⟩, rfl⟩
      · show s1.pos ≤ s1.buf.length
        omega
      · show (resize s1.buf (s1.buf.length + MARGIN) 10).length = s1.buf.length + MARGIN
        rw [resize_self_add]
        simp

theorem Sound.consume {B : Nat} {s : StreamBuf} (h : s.Sound) {k : Nat} (hk : k ≤ s.len - s.pos) : (s.consume B k).Sound ∧ (s.consume B k).assertsTarget k = true := by
  have hi := h.inside
  have hm := h.margin
  have ha := h.align
  have hmin : min (s.pos + k) s.buf.length = s.pos + k := by omega
  unfold StreamBuf.consume
  simp only [hmin]
  by_cases he : s.isEof = true
  · rw [if_pos he]
    exact ⟨⟨ha, by simp only; omega, hm⟩, by simp [assertsTarget, he]⟩
  · rw [if_neg he]
    by_cases hp : s.pos + k ≥ min (7 * s.buf.length / 8) (8 * B)
    · simp only [if_pos hp]
      have hb : (s.buf.drop (s.pos + k)).length = s.len - (s.pos + k) + MARGIN := by rw [List.length_drop]; omega
      split
      · refine ⟨⟨ha, Nat.zero_le _, hb⟩, ?_⟩
        have := lt_target (s.len - (s.pos + k))
        simp only [assertsTarget, Bool.or_eq_true, decide_eq_true_eq]
        exact Or.inr this
      · rename_i hk0
        exact ⟨⟨ha, Nat.zero_le _, hb⟩, by simp [assertsTarget, hk0]⟩
    · simp only [if_neg hp]
      split
      · refine ⟨⟨ha, by simp only; omega, hm⟩, ?_⟩
        have := lt_target s.len
        simp only [assertsTarget, Bool.or_eq_true, decide_eq_true_eq]
        exact Or.inr this
      · rename_i hk0
        exact ⟨⟨ha, by simp only; omega, hm⟩, by simp [assertsTarget, hk0]⟩

end StreamBuf

/-- What holds in every state of a buffered stream. -/
def BufSound (s : Buffered τ) (ph : Phase) : Prop := s.buf.Sound ∧ ∀ n, ph = .lent n → n ≤ s.buf.len - s.buf.pos

theorem bufferedSrc_fill {f : StreamBuf.Closure τ} (hf : StreamBuf.Appends f) {B fuel : Nat} {s s' : Buffered τ} {req : Nat} {r} (h : s.buf.Sound)
    (heq : (bufferedSrc B fuel f).fill s req = .ok (r, s')) : BufSound s' (.lent r.2) := by
  simp only [bufferedSrc] at heq
  split at heq
  · cases heq
  · rename_i r1 buf t hfill
    cases heq
    obtain ⟨h1, h2⟩ := h.fill hf hfill
    exact ⟨h1, fun n hn => by cases hn; exact Nat.le_of_eq h2⟩

theorem bufferedSrc_consume {f : StreamBuf.Closure τ} {B fuel : Nat} {s s' : Buffered τ} {k : Nat} (h : s.buf.Sound) (hk : k ≤ s.buf.len - s.buf.pos)
    (heq : (bufferedSrc B fuel f).consume s k = .ok s') : s'.buf.Sound ∧ (s'.buf.asserts && s'.buf.assertsTarget k) = true := by
  simp only [bufferedSrc] at heq
  cases heq
  obtain ⟨h1, h2⟩ := h.consume (B := B) hk
  exact ⟨h1, by rw [h1.asserts, h2]; rfl⟩

theorem buffered_upholds {f : StreamBuf.Closure τ} (hf : StreamBuf.Appends f) (B fuel : Nat) (M : Bytes → Prop) (R : Buffered τ → Phase → Nat → Bytes → Prop) :
    Upholds (bufferedSrc B fuel f) M R (fun _ _ s' => s'.buf.asserts) (fun _ k s' => s'.buf.asserts && s'.buf.assertsTarget k) BufSound where
  fill s ph w rem req eof n s' w' _ hI heq _ _ _ := by
    have := bufferedSrc_fill hf hI.1 heq
    exact ⟨this, this.1.asserts⟩
  consume s n w rem k s' w' _ hI hk heq _ := by
    obtain ⟨h1, h2⟩ := bufferedSrc_consume hI.1 (Nat.le_trans hk (hI.2 n rfl)) heq
    exact ⟨⟨h1, fun m hm => by cases hm⟩, h2⟩

/-- A stream with a buffer carries the same bytes in the debug build. -/
theorem Delivers.asserting {f : StreamBuf.Closure τ} (hf : StreamBuf.Appends f) {B fuel : Nat} {F M} {s : Buffered τ} {w : Nat} {content : Bytes} (hs : s.buf.Sound)
    (h : Delivers (bufferedSrc B fuel f) F M s w content) : Delivers (bufferedAsserting B fuel f) F M s w content := by
  obtain ⟨R, hR, h0⟩ := h
  refine ⟨_, hR.asserting (buffered_upholds hf B fuel M R) ?_, h0, hs, fun n hn => by cases hn⟩
  intro s lb w rem s' w' _ hI heq _
  obtain ⟨h1, h2⟩ := bufferedSrc_consume hI.1 (Nat.zero_le _) heq
  exact ⟨⟨h1, fun m hm => by cases hm⟩, h2⟩

/-- The states of a buffered stream in the debug build. -/
def SoundRel (S : ByteSrc (Buffered τ)) (F : Err → Prop) (M : Bytes → Prop) (B : Nat) (s : Buffered τ) (ph : Phase) (w : Nat) (rem : Bytes) : Prop :=
  AmpleRel S F M B s ph w rem ∧ BufSound s ph

theorem buffered_ample_asserting {f : StreamBuf.Closure τ} (hf : StreamBuf.Appends f) {F M} {B fuel : Nat} (hB : 0 < B) :
    Serves (bufferedAsserting B fuel f) F M (SoundRel (bufferedSrc B fuel f) F M B) ∧
    Ample (bufferedAsserting B fuel f) (SoundRel (bufferedSrc B fuel f) F M B) ((B - 1784) / 8) (fun s => s.buf.isEof = true) :=
  ⟨(buffered_ample hB).1.asserting (buffered_upholds hf B fuel M _), (buffered_ample hB).2.asserting⟩

namespace CatStream

theorem dup_feed {S : ByteSrc σ} {t : Captured σ} {req buf eof buf' t'} (h : feed S t req buf = .ok (eof, buf', t')) : t'.1 = [] → t'.2.1 = 0 := by
  obtain ⟨srcs, dup, isEof⟩ := t
  simp only [feed] at h
  split at h
  · cases h
  · split at h
    · cases h
    · split at h
      · cases h
        exact fun _ => rfl
      · split at h
        · cases h
        · cases h
          intro h
          cases h

theorem dup_loop {S : ByteSrc σ} (target : Nat) : ∀ (fuel : Nat) (s : StreamBuf) (t : Captured σ) (s' : StreamBuf) (t' : Captured σ),
    StreamBuf.fillLoop (feed S) target fuel s t = .ok (s', t') → t'.1 = [] → t'.2.1 = 0
  | 0, _, _, _, _, h => by cases h
  | fuel + 1, s, t, s', t', h => by
    unfold StreamBuf.fillLoop at h
    split at h
    · cases h
    · rename_i eof buf t1 heq
      simp only at h
      split at h
      · cases h
        exact dup_feed heq
      · split at h
        · cases h
          exact dup_feed heq
        · exact dup_loop target fuel _ _ _ _ h

theorem dup_accumulate {S : ByteSrc σ} {fuel : Nat} {c c' : CatStream σ} {isEof : Bool} {bytes req : Nat} {r} (h : accumulateIntoCache S fuel c isEof bytes req = .ok (r, c')) :
    c'.srcs = [] → c'.dup = 0 := by
  unfold accumulateIntoCache at h
  split at h
  · cases h
  · rename_i s rest hs
    split at h
    · cases h
    · simp only at h
      split at h
      · cases h
      · rename_i heq
        cases h
        unfold StreamBuf.fillBuf at heq
        split at heq
        · cases heq
          intro h
          rw [hs] at h
          cases h
        · split at heq
          · cases heq
          · rename_i hl
            cases heq
            exact dup_loop _ _ _ _ _ _ hl

/-- When all sources have been read nothing is duplicated. -/
def Undup (c : CatStream σ) (_ : Phase) : Prop := c.srcs = [] → c.dup = 0

theorem Rel.sound {R : σ → Phase → Nat → Bytes → Prop} {c : CatStream σ} {ph w rem} (h : Rel R c ph w rem) : c.cache.Sound := by
  obtain ⟨ha, h⟩ := h
  cases hs : c.srcs with
  | nil =>
    rw [hs] at h
    obtain ⟨⟨m, hv⟩, _⟩ := h
    exact hv.sound (by omega)
  | cons s rest =>
    rw [hs] at h
    obtain ⟨_, d, m, _, _, _, _, _, hv, _⟩ := h
    exact hv.sound (by omega)

/-- What is consumed lies in the cache, and so does what is duplicated. -/
theorem Rel.cached {R : σ → Phase → Nat → Bytes → Prop} {c : CatStream σ} {n w rem} (h : Rel R c (.lent n) w rem) (hu : Undup c (.lent n)) :
    c.direct = true ∨ (n ≤ c.cache.length ∧ c.dup ≤ c.cache.length) := by
  obtain ⟨ha, h⟩ := h
  cases hs : c.srcs with
  | nil =>
    rw [hs] at h
    obtain ⟨⟨m, hv⟩, hn⟩ := h
    refine Or.inr ⟨by rw [hn n rfl, hv.length]; exact Nat.le_refl _, by rw [hu hs]; exact Nat.zero_le _⟩
  | cons s rest =>
    rw [hs] at h
    obtain ⟨_, d, m, phs, ws, r1, r2, W2, hv, _, _, _, ⟨hd, _⟩ | ⟨hd, _, hdup, ⟨d0, hd0, _⟩, hn⟩⟩ := h
    · refine Or.inl ?_
      simp [direct, hs, hv.length, hd]
    · simp only at hn
      refine Or.inr ⟨by rw [hn, hv.length]; exact Nat.le_refl _, ?_⟩
      rw [hv.length, hd0, List.length_append, List.length_take]
      omega

theorem upholds {S : ByteSrc σ} {B fuel : Nat} {M : Bytes → Prop} {R : σ → Phase → Nat → Bytes → Prop} {R' : CatStream σ → Phase → Nat → Bytes → Prop}
    (hR : ∀ c ph w rem, R' c ph w rem → Rel R c ph w rem) :
    Upholds (byteSrc S B fuel) M R' (fun c _ c' => (!c.srcs.isEmpty || decide (c.dup = 0)) && c.cache.asserts && c'.cache.asserts)
      (fun c k c' => c.cache.asserts && c'.cache.asserts && (c.direct || (decide (k ≤ c.cache.length) && decide (c.dup ≤ c.cache.length) && c'.cache.assertsTarget k))) Undup where
  fill c ph w rem req eof n c' w' h1 hI heq h2 _ _ := by
    have s1 := (hR _ _ _ _ h1).sound.asserts
    have s2 := (hR _ _ _ _ h2).sound.asserts
    refine ⟨?_, ?_⟩
    · simp only [byteSrc] at heq
      split at heq
      · cases heq
        exact hI
      · split at heq
        · cases heq
        · split at heq
          · exact dup_accumulate heq
          · cases heq
            intro h
            cases h
    · rw [s1, s2]
      cases hs : c.srcs with
      | nil => simp [hI hs]
      | cons s rest => simp
  consume c n w rem k c' w' h1 hI hk heq h2 := by
    have t1 := hR _ _ _ _ h1
    have s1 := t1.sound
    have s2 := (hR _ _ _ _ h2).sound.asserts
    have hc := t1.cached hI
    simp only [s1.asserts, s2, Bool.true_and, Bool.or_eq_true, Bool.and_eq_true, decide_eq_true_eq]
    simp only [byteSrc] at heq
    split at heq
    · rename_i hs
      cases heq
      rcases hc with hc | ⟨hc1, hc2⟩
      · simp [direct, hs] at hc
      · exact ⟨hI, Or.inr ⟨⟨by omega, hc2⟩, (s1.consume (by unfold StreamBuf.length at hc1; omega)).2⟩⟩
    · rename_i s rest hs
      split at heq
      · rename_i hl
        split at heq
        · cases heq
        · cases heq
          refine ⟨(fun h => by cases h), Or.inl ?_⟩
          simp [direct, hs, hl]
      · rename_i hl
        have hnd : c.direct = false := by simp [direct, hl]
        rw [hnd] at hc
        rcases hc with hc | ⟨hc1, hc2⟩
        · cases hc
        split at heq
        · cases heq
          exact ⟨(fun h => by rw [hs] at h; cases h), Or.inr ⟨⟨by omega, hc2⟩, (s1.consume (by unfold StreamBuf.length at hc1; omega)).2⟩⟩
        · split at heq
          · cases heq
          · cases heq
            refine ⟨(fun h => by cases h), Or.inr ⟨⟨by omega, hc2⟩, ?_⟩⟩
            show StreamBuf.assertsTarget k (c.cache.consume B c.cache.length) = true
            unfold StreamBuf.consume
            simp only [hl, if_false]
            split
            · rename_i he
              simp [StreamBuf.assertsTarget, he]
            · have : ∀ a b : Nat, a < max (a + 1) b := fun a b => by omega
              simp [StreamBuf.assertsTarget, this]

theorem asserting_serves {S : ByteSrc σ} {F M R} (h : Serves S F M R) (hM : ∀ m, M m → AnyMargin m) (B fuel : Nat) :
    Serves (asserting S B fuel) F AnyMargin (fun c ph w rem => (Rel R c ph w rem ∧ w < fuel) ∧ Undup c ph) :=
  (serves h hM B fuel).asserting (upholds fun _ _ _ _ h => h.1)

theorem asserting_amply {S : ByteSrc σ} {F M R L E} (h : Serves S F M R) (hA : Ample S R L E) (hM : ∀ m, M m → AnyMargin m) {B fuel : Nat} (hB : 0 < B)
    {srcs : List σ} {cs : List (Nat × Bytes)} (hne : srcs ≠ []) (hs : List.Forall₂ (fun s c => R s (.idle 1) c.1 c.2) srcs cs) (hf : fills cs < fuel) :
    ServesAmply (asserting S B fuel) F AnyMargin (min L ((B - 1784) / 8)) (new B srcs) (fills cs) (cs.map Prod.snd).flatten := by
  obtain ⟨h1, h2⟩ := ample h hA hM (fuel := fuel) hB
  refine ⟨_, _, h1.asserting (upholds fun _ _ _ _ h => h.1.1), h2.asserting, ⟨⟨⟨⟨rfl, ?_⟩, hf⟩, Or.inr ⟨rfl, StreamBuf.Ready.new B 1 0, fun _ _ => rfl⟩⟩, fun _ => rfl⟩, hne⟩
  have hfr := fresh_of_forall hs
  cases srcs with
  | nil => exact absurd rfl hne
  | cons s rest =>
    obtain ⟨w, c1, c2, W2, hc, hR, hfr, hW⟩ := hfr
    exact ⟨rfl, [], _, _, w, c1, c2, W2, StreamBuf.View.new B 1 0, hR, hfr, hW, Or.inl ⟨rfl, hc, rfl, hB, 1, rfl, Nat.le_refl _, Nat.le_refl _, by omega⟩⟩

end CatStream

namespace ClipStream

theorem skipLoop_skip {S : ByteSrc σ} {B : Nat} : ∀ (fuel : Nat) (c c' : ClipStream σ), skipLoop S B fuel c = .ok (false, c') → c'.skip = 0 ∧ c'.strip = c.strip
  | 0, _, _, h => by cases h
  | fuel + 1, c, c', h => by
    unfold skipLoop at h
    split at h
    · split at h
      · cases h
      · simp only at h
        split at h
        · cases h
        · split at h
          · cases h
          · have := skipLoop_skip fuel _ _ h
            exact this
    · cases h
      exact ⟨by omega, rfl⟩

/-- Without bytes to strip at the end, the assertions hold whenever the source lends something before its end. -/
theorem asserting_fill {S : ByteSrc σ} {B fuel : Nat} {c : ClipStream σ} {req : Nat} (hstrip : c.strip = 0)
    (h : ∀ c' r n s', skipLoop S B fuel c = .ok (false, c') → S.fill c'.src r = .ok ((false, n), s') → 1 ≤ n) :
    (asserting S B fuel).fill c req = (byteSrc S B fuel).fill c req := by
  simp only [asserting, byteSrc]
  rcases hc : skipLoop S B fuel c with e | ⟨b, c'⟩
  · rfl
  cases b with
  | true => rfl
  | false =>
    obtain ⟨h1, h2⟩ := skipLoop_skip _ _ _ hc
    simp only
    rw [if_neg (by omega), if_neg (by omega)]
    rcases hs : S.fill c'.src (min c'.rem req + c'.strip + 1) with e | ⟨⟨isEof, bytes⟩, s⟩
    · rfl
    · simp only
      rw [if_neg]
      rintro ⟨rfl, hb⟩
      have := h c' _ _ _ hc hs
      omega

end ClipStream

namespace ScatterDrain

theorem feed_appends (S : SegSrc σ) (f : Formatting) : StreamBuf.Appends (feed S f) := by
  intro d req buf eof buf' d' h
  unfold feed at h
  split at h
  · cases h
  · simp only at h
    split at h
    · cases h
    · split at h
      · cases h
      · split at h
        · cases h
        · cases h
          simp

theorem feedAsserting_appends (S : SegSrc σ) (f : Formatting) : StreamBuf.Appends (feedAsserting S f) := by
  intro d req buf eof buf' d' h
  unfold feedAsserting at h
  split at h
  · cases h
  · split at h
    · cases h
    · split at h
      · exact feed_appends S f _ _ _ _ _ _ h
      · split at h
        · cases h
        · exact feed_appends S f _ _ _ _ _ _ h

/-- The assertions hold over every stream that keeps the protocol. -/
theorem feedAsserting_eq {S : SegSrc σ} {K F R} (h : SegFaithful S K F R) (f : Formatting) (d : ScatterDrain σ) (lb w : Nat) (rem : Bytes) (segs : List Seg)
    (hR : R d.src (.idle lb) w rem segs) (req : Nat) (buf : Bytes) : feedAsserting S f d req buf = feed S f d req buf := by
  unfold feedAsserting
  rcases h.fill d.src lb w rem segs hR with ⟨e, hF, heq⟩ | ⟨eof, bytes, count, maxc, cap, w', src, heq, hR', _, _, _, hmax, heof, _⟩
  · simp only [feed, heq]
  · simp only [heq]
    have hm : eof = true → maxc = cap := fun he => by
      rcases hmax with hm | ⟨_, hm, _⟩
      · exact hm
      · rw [he] at hm; cases hm
    rw [if_neg (by rintro ⟨he, hb⟩; exact hb (by rw [hm he, (heof he).2.1]))]
    obtain ⟨k', c, w'', src', hc, _, _, _, _, _, _, _, hke, _⟩ := h.consume src eof count cap w' rem segs maxc hR' (by
      rcases hmax with h | ⟨h1, _, _, h3⟩
      · exact Or.inr (Or.inl h)
      · exact Or.inl ⟨h1, h3⟩)
    simp only [hc]
    rw [if_neg (by rintro ⟨he, hb⟩; exact hb (by rw [hke he (hm he), hm he]))]

theorem feedAsserting_produces {S : SegSrc σ} {K F R} (h : SegFaithful S K F R) (hK : K.exact = true) (f : Formatting) :
    Produces (feedAsserting S f) F (fun d _ w p => Pending R f d w p) (fun _ => True) := by
  intro d w p req buf hP
  obtain ⟨lb, rem, segs, hR, _⟩ := id hP
  rw [feedAsserting_eq h f d lb w rem segs hR req buf]
  exact feed_produces h hK f d w p req buf hP

/-- The drain prints the same in the debug build. -/
theorem asserting_delivers {S : SegSrc σ} {K F} (hK : K.exact = true) (f : Formatting) {B fuel : Nat} (hB : 0 < B) {s : σ} {w : Nat} {content : Bytes} {segs : List Seg}
    (h : SegDelivers S K F s w content segs) (hlen : content.length < 2 ^ 64) (hf : w < fuel) :
    Delivers (asserting S f B fuel) F NlMargin (through B s) w ((slicesOf content segs).flatMap f.line) := by
  obtain ⟨R, hR, hs⟩ := h
  exact (buffered_delivers' (feedAsserting_produces hR hK f) hB ⟨0, content, segs, hs, rfl, by simpa [new] using hlen, by rw [← absOf_zero]; rfl⟩ hf).asserting
    (feedAsserting_appends S f) (StreamBuf.Sound.new B 1 0 (by decide))

end ScatterDrain
end Nd
