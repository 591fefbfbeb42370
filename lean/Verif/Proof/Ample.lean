import Verif.Proof.Roomy
/-!
# Byte sources that lend a minimum amount

The stride slicer relies on being lent a certain number of bytes before the end of the stream.  A stream
that has not been told to read ahead by little (a `consume(0)` before the first fill) provides that.
-/
namespace Nd

/-- When everything lent has been consumed, the next fill lends as many bytes as requested, unless it reports the end. -/
def Far (S : ByteSrc σ) (R : σ → Phase → Nat → Bytes → Prop) : Prop :=
  ∀ s n w rem s1 req n' s2, R s (.lent n) w rem → S.consume s n = .ok s1 → S.fill s1 req = .ok ((false, n'), s2) → req ≤ n'

/-- A byte source that lends at least `L` bytes unless it reports the end, and keeps reporting the end (`E`)
once it has. -/
structure Ample (S : ByteSrc σ) (R : σ → Phase → Nat → Bytes → Prop) (L : Nat) (E : σ → Prop) : Prop where
  fill : ∀ s ph w rem req eof n s', R s ph w rem → S.fill s req = .ok ((eof, n), s') →
    (eof = false → L ≤ n) ∧ (E s' ↔ eof = true) ∧ (E s → eof = true)
  consume : ∀ s k s', S.consume s k = .ok s' → (E s' ↔ E s)
  /-- what was lent and not consumed is lent again -/
  keep : ∀ s n w rem k s1 req eof n' s2, R s (.lent n) w rem → k ≤ n → S.consume s k = .ok s1 →
    S.fill s1 req = .ok ((eof, n'), s2) → eof = false → n - k ≤ n'
  far : 0 < L → Far S R

/-- `s` is a fresh stream that delivers `content` and lends at least `L` bytes at a time before the end. -/
def ServesAmply (S : ByteSrc σ) (F : Err → Prop) (M : Bytes → Prop) (L : Nat) (s : σ) (w : Nat) (content : Bytes) : Prop :=
  ∃ R E, Serves S F M R ∧ Ample S R L E ∧ R s (.idle 1) w content ∧ ¬ E s

namespace StreamBuf

/-- The position is in the first seven eighths of the buffer. -/
def Early (B : Nat) (s : StreamBuf) : Prop := s.pos = 0 ∨ (8 * s.pos + 8 ≤ 7 * (s.len + MARGIN) ∧ s.pos < 8 * B)

/-- Before a fill. -/
def Ready (B : Nat) (s : StreamBuf) : Prop := s.isEof = true ∨ (B ≤ s.targetLen ∧ s.len ≤ s.targetLen ∧ Early B s)

/-- After a fill. -/
def Filled (B : Nat) (s : StreamBuf) : Prop := s.isEof = true ∨ (s.buf.length = s.len + MARGIN ∧ s.pos ≤ s.len ∧ B ≤ s.len ∧ Early B s)

theorem Ready.new (B align : Nat) (filler : Byte) : Ready B (newWithAlign B align filler) :=
  Or.inr ⟨Nat.le_refl _, Nat.zero_le _, Or.inl rfl⟩

theorem Filled.ample {B : Nat} {s : StreamBuf} (h : Filled B s) (he : s.isEof = false) : (B - 1784) / 8 ≤ s.len - s.pos := by
  rcases h with h | ⟨h1, h2, h3, h4⟩
  · rw [he] at h; cases h
  · have hM : MARGIN = 256 := rfl
    rcases h4 with h4 | h4 <;> omega

/-- What a fill returns, in terms of the buffer after it. -/
theorem fillBuf_shape {fuel : Nat} {f : Closure τ} {s : StreamBuf} {t : τ} {req eof n s' t'}
    (hf : fillBuf fuel f s t req = .ok ((eof, n), s', t')) :
    n = s'.len - s'.pos ∧ s'.isEof = eof ∧ s'.pos = s.pos ∧
    ((s.isEof = true ∧ s' = s) ∨ (s.isEof = false ∧ (eof = true ∨ (s'.buf.length = s'.len + MARGIN ∧ max s.targetLen req ≤ s'.len)))) := by
  unfold fillBuf at hf
  by_cases he : s.isEof = true
  · rw [if_pos he] at hf
    simp only [Except.ok.injEq, Prod.mk.injEq] at hf
    obtain ⟨⟨h1, h2⟩, h3, _⟩ := hf
    subst h3
    exact ⟨h2.symm, by rw [he, h1], rfl, Or.inl ⟨he, rfl⟩⟩
  · rw [if_neg he] at hf
    have he' : s.isEof = false := by simpa using he
    split at hf
    · cases hf
    · rename_i s1 t1 hl
      obtain ⟨hp, hg⟩ := fillLoop_grows f _ fuel _ t s1 t1 (by exact he') hl
      simp only [Except.ok.injEq, Prod.mk.injEq] at hf
      obtain ⟨⟨h1, h2⟩, h3, _⟩ := hf
      subst h3
      refine ⟨h2.symm, h1, hp, Or.inr ⟨he', ?_⟩⟩
      rcases hg with hg | ⟨_, hg⟩
      · left; rw [← h1]; exact hg
      · right; exact ⟨by simp [resize], hg⟩

theorem Ready.fill {B fuel : Nat} {f : Closure τ} {s : StreamBuf} {t : τ} {req eof n s' t'} (h : Ready B s)
    (hf : fillBuf fuel f s t req = .ok ((eof, n), s', t')) (hn : eof = false → 1 ≤ n) : Filled B s' := by
  obtain ⟨h1, h2, h3, h4⟩ := fillBuf_shape hf
  rcases h4 with ⟨h4, rfl⟩ | ⟨h4, h5 | ⟨h5, h6⟩⟩
  · exact Or.inl h4
  · exact Or.inl (h2.trans h5)
  · cases eof with
    | true => exact Or.inl h2
    | false =>
      have := hn rfl
      rcases h with h | ⟨g1, g2, g3⟩
      · rw [h4] at h; cases h
      · right
        refine ⟨h5, by omega, by omega, ?_⟩
        unfold Early at g3 ⊢
        rw [h3]
        rcases g3 with g3 | g3
        · exact Or.inl g3
        · right; omega

theorem Filled.fill {B fuel : Nat} {f : Closure τ} {s : StreamBuf} {t : τ} {req eof n s' t'} (h : Filled B s)
    (hf : fillBuf fuel f s t req = .ok ((eof, n), s', t')) (hn : eof = false → 1 ≤ n ∧ s.len - s.pos ≤ n) : Filled B s' := by
  obtain ⟨h1, h2, h3, h4⟩ := fillBuf_shape hf
  rcases h4 with ⟨h4, rfl⟩ | ⟨h4, h5 | ⟨h5, h6⟩⟩
  · exact Or.inl h4
  · exact Or.inl (h2.trans h5)
  · cases eof with
    | true => exact Or.inl h2
    | false =>
      have := hn rfl
      rcases h with h | ⟨g1, g2, g3, g4⟩
      · rw [h4] at h; cases h
      · right
        refine ⟨h5, by omega, by omega, ?_⟩
        unfold Early at g4 ⊢
        rw [h3]
        rcases g4 with g4 | g4
        · exact Or.inl g4
        · right; omega

theorem isEof_consume (B : Nat) (s : StreamBuf) (k : Nat) : (s.consume B k).isEof = s.isEof := by
  unfold StreamBuf.consume
  simp only
  split
  · rfl
  · repeat' split
    all_goals rfl

theorem Filled.consume {B : Nat} {s : StreamBuf} (hB : 0 < B) (h : Filled B s) (k : Nat) (hk : s.isEof = false → k ≤ s.len - s.pos) : Ready B (s.consume B k) := by
  rcases h with h | ⟨g1, g2, g3, g4⟩
  · left; rw [isEof_consume]; exact h
  · by_cases he : s.isEof = true
    · left; rw [isEof_consume]; exact he
    · have he' : s.isEof = false := by simpa using he
      have := hk he'
      have hM : MARGIN = 256 := rfl
      right
      unfold StreamBuf.consume Early
      simp only [he', Bool.false_eq_true, if_false]
      rw [g1, Nat.min_eq_left (by omega : s.pos + k ≤ s.len + MARGIN)]
      by_cases hk0 : k = 0
      · subst hk0
        have hth : ¬ (s.pos + 0 ≥ min (7 * (s.len + MARGIN) / 8) (8 * B)) := by
          rcases g4 with g4 | g4
          · rw [g4]; omega
          · omega
        rw [if_neg hth, if_pos rfl]
        simp only
        have h1 := le_nextPow2 (s.len + (s.len + 1) / 2)
        refine ⟨by omega, by omega, ?_⟩
        rcases g4 with g4 | g4
        · left; omega
        · right; omega
      · rw [if_neg hk0]
        split
        · exact ⟨by simp only; omega, by simp only; omega, Or.inl rfl⟩
        · rename_i hth
          refine ⟨by simp only; omega, by simp only; omega, Or.inr ?_⟩
          simp only
          omega

theorem Filled.left {B : Nat} {s : StreamBuf} (h : Filled B s) (he : s.isEof = false) (k : Nat) (hk : k ≤ s.len - s.pos) :
    (s.consume B k).len - (s.consume B k).pos = s.len - s.pos - k := by
  rcases h with h | ⟨g1, g2, _, _⟩
  · rw [he] at h; cases h
  · have hM : MARGIN = 256 := rfl
    unfold StreamBuf.consume
    simp only [he, Bool.false_eq_true, if_false]
    rw [g1, Nat.min_eq_left (by omega : s.pos + k ≤ s.len + MARGIN)]
    repeat' split
    all_goals simp only
    all_goals omega

theorem Filled.home {B : Nat} {s : StreamBuf} (hB : 1792 ≤ B) (h : Filled B s) (he : s.isEof = false) (k : Nat) (hl : (s.consume B k).length = 0) : (s.consume B k).pos = 0 := by
  rcases h with h | ⟨g1, g2, g3, g4⟩
  · rw [he] at h; cases h
  · have hM : MARGIN = 256 := rfl
    unfold StreamBuf.length StreamBuf.consume at hl
    unfold StreamBuf.consume
    simp only [he, Bool.false_eq_true, if_false] at hl ⊢
    rw [g1] at hl ⊢
    by_cases hth : min (s.pos + k) (s.len + MARGIN) ≥ min (7 * (s.len + MARGIN) / 8) (8 * B)
    · rw [if_pos hth]
      split <;> rfl
    · rw [if_neg hth] at hl ⊢
      split at hl
      all_goals simp only at hl
      all_goals omega

end StreamBuf

/-- The states of a buffered stream whose client keeps to the protocol. -/
def AmpleRel (S : ByteSrc (Buffered τ)) (F : Err → Prop) (M : Bytes → Prop) (B : Nat) (s : Buffered τ) (ph : Phase) (w : Nat) (rem : Bytes) : Prop :=
  Live S F M s ph w rem ∧
  match ph with
  | .idle _ => s.buf.Ready B
  | .lent n => s.buf.Filled B ∧ (s.buf.isEof = false → n = s.buf.len - s.buf.pos)

theorem buffered_far {f : StreamBuf.Closure τ} {F M} {B fuel : Nat} (hB : 1792 ≤ B) : Far (bufferedSrc B fuel f) (AmpleRel (bufferedSrc B fuel f) F M B) := by
  rintro s n w rem s1 req n' s2 ⟨_, hfil, hn⟩ hc hf
  simp only [bufferedSrc] at hc hf
  cases hc
  split at hf
  · cases hf
  · rename_i r buf t hfill
    cases hf
    obtain ⟨h1, h2, h3, h4⟩ := StreamBuf.fillBuf_shape hfill
    simp only at h1 h2 h3 h4
    rcases h4 with ⟨h4, h5⟩ | ⟨h4, h5 | ⟨_, h5⟩⟩
    · rw [h5, h4] at h2; cases h2
    · cases h5
    · have he : s.buf.isEof = false := by rw [← h4, StreamBuf.isEof_consume]
      have hnn := hn he
      have hl : (s.buf.consume B n).length = 0 := by
        unfold StreamBuf.length
        rw [hfil.left he n (by omega)]
        omega
      have hpos := hfil.home hB he n hl
      omega

theorem buffered_ample {f : StreamBuf.Closure τ} {F M} {B fuel : Nat} (hB : 0 < B) :
    Serves (bufferedSrc B fuel f) F M (AmpleRel (bufferedSrc B fuel f) F M B) ∧
    Ample (bufferedSrc B fuel f) (AmpleRel (bufferedSrc B fuel f) F M B) ((B - 1784) / 8) (fun s => s.buf.isEof = true) := by
  have filled : ∀ (s : Buffered τ) (ph : Phase) (w : Nat) (rem : Bytes) (req : Nat) (eof : Bool) (n : Nat) (s' : Buffered τ),
      AmpleRel (bufferedSrc B fuel f) F M B s ph w rem → (bufferedSrc B fuel f).fill s req = .ok ((eof, n), s') →
      s'.buf.Filled B ∧ (s'.buf.isEof = eof) ∧ n = s'.buf.len - s'.buf.pos ∧ (s.buf.isEof = true → eof = true) := by
    rintro s ph w rem req eof n s' ⟨hL, hph⟩ heq
    have hlb : eof = false → 1 ≤ n ∧ ph.lb ≤ n := by
      rcases Live.faithful.fill s ph w rem req hL with ⟨e, _, h⟩ | ⟨eof1, n1, w1, s1, h, _, _, _, _, hne, _, _⟩
      · rw [heq] at h; cases h
      · rw [heq] at h; cases h; exact hne
    simp only [bufferedSrc] at heq
    split at heq
    · cases heq
    · rename_i r buf t hfill
      cases heq
      obtain ⟨h1, h2, h3, h4⟩ := StreamBuf.fillBuf_shape hfill
      refine ⟨?_, h2, h1, ?_⟩
      · cases ph with
        | idle lb => exact StreamBuf.Ready.fill hph hfill fun h => (hlb h).1
        | lent m =>
          refine StreamBuf.Filled.fill hph.1 hfill fun h => ⟨(hlb h).1, ?_⟩
          have hse : s.buf.isEof = false := by
            rcases h4 with ⟨h4, h5⟩ | ⟨h4, _⟩
            · rw [h5, h4] at h2; rw [h] at h2; cases h2
            · exact h4
          have := hph.2 hse
          have h7 := (hlb h).2
          simp only [Phase.lb] at h7
          omega
      · intro he
        rcases h4 with ⟨_, h5⟩ | ⟨h4, _⟩
        · rw [h5, he] at h2; exact h2.symm
        · rw [he] at h4; cases h4
  refine ⟨⟨?_, ?_⟩, ⟨?_, ?_, ?_, fun hL => buffered_far (by omega)⟩⟩
  · intro s ph w rem req hR
    rcases Live.faithful.fill s ph w rem req hR.1 with h | ⟨eof, n, w', s', heq, hR', h1⟩
    · exact Or.inl h
    · obtain ⟨g1, g2, g3, g4⟩ := filled s ph w rem req eof n s' hR heq
      exact Or.inr ⟨eof, n, w', s', heq, ⟨hR', g1, fun _ => g3⟩, h1⟩
  · intro s n w rem k hR hk
    obtain ⟨s2, w2, heq2, hR2, hw2⟩ := Live.faithful.consume s n w rem k hR.1 hk
    refine ⟨s2, w2, heq2, ⟨hR2, ?_⟩, hw2⟩
    simp only [bufferedSrc] at heq2
    cases heq2
    exact StreamBuf.Filled.consume hB hR.2.1 k fun h => by have := hR.2.2 h; omega
  · intro s ph w rem req eof n s' hR heq
    obtain ⟨g1, g2, g3, g4⟩ := filled s ph w rem req eof n s' hR heq
    refine ⟨fun h => ?_, by rw [g2], g4⟩
    rw [g3]
    exact g1.ample (g2.trans h)
  · intro s k s' heq
    simp only [bufferedSrc] at heq
    cases heq
    rw [StreamBuf.isEof_consume]
  · rintro s n w rem k s1 req eof n' s2 ⟨_, hfil, hn⟩ hk hc hf he
    subst he
    simp only [bufferedSrc] at hc hf
    cases hc
    split at hf
    · cases hf
    · rename_i r buf t hfill
      cases hf
      obtain ⟨h1, h2, h3, h4⟩ := StreamBuf.fillBuf_shape hfill
      simp only at h1 h2 h3 h4
      rcases h4 with ⟨h4, h5⟩ | ⟨h4, h5 | ⟨_, h5⟩⟩
      · rw [h5, h4] at h2; cases h2
      · cases h5
      · have he : s.buf.isEof = false := by rw [← h4, StreamBuf.isEof_consume]
        have hnn := hn he
        have hl := hfil.left he k (by omega)
        have hr := hfil.consume hB k fun h => by omega
        rcases hr with hr | ⟨_, hr, _⟩
        · rw [h4] at hr; cases hr
        · omega

/-- Any fresh buffered stream lends at least an eighth of a block (less the margin) before its end. -/
theorem Delivers.amply {f : StreamBuf.Closure τ} {F M} {B fuel align w : Nat} {filler : Byte} {t : τ} {content : Bytes} (hB : 0 < B)
    (h : Delivers (bufferedSrc B fuel f) F M { inner := t, buf := StreamBuf.newWithAlign B align filler } w content) :
    ServesAmply (bufferedSrc B fuel f) F M ((B - 1784) / 8) { inner := t, buf := StreamBuf.newWithAlign B align filler } w content :=
  ⟨_, _, buffered_ample hB |>.1, buffered_ample hB |>.2, ⟨h, StreamBuf.Ready.new B align filler⟩, by simp [StreamBuf.newWithAlign]⟩

end Nd
