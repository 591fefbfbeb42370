import Verif.Proof.CatAmple
import Verif.Proof.Clip
/-!
# `ClipStream` lends enough before its end when it only pads
-/
namespace Nd

/-- Dynamic dispatch preserves what a source lends. -/
theorem Serves.sum {S : ByteSrc σ} {T : ByteSrc τ} {F M R Q} (h : Serves S F M R) (k : Serves T F M Q) : Serves (sumSrc S T) F M (SumRel R Q) where
  fill s ph w rem req hR := by
    cases s with
    | inl s =>
      rcases h.fill s ph w rem req hR with ⟨e, he, heq⟩ | ⟨eof, n, w', s', heq, h1⟩
      · exact Or.inl ⟨e, he, by simp [sumSrc, heq]⟩
      · exact Or.inr ⟨eof, n, w', .inl s', by simp [sumSrc, heq], h1⟩
    | inr s =>
      rcases k.fill s ph w rem req hR with ⟨e, he, heq⟩ | ⟨eof, n, w', s', heq, h1⟩
      · exact Or.inl ⟨e, he, by simp [sumSrc, heq]⟩
      · exact Or.inr ⟨eof, n, w', .inr s', by simp [sumSrc, heq], h1⟩
  consume s n w rem k' hR hk := by
    cases s with
    | inl s =>
      obtain ⟨s', w', heq, h1⟩ := h.consume s n w rem k' hR hk
      exact ⟨.inl s', w', by simp [sumSrc, heq], h1⟩
    | inr s =>
      obtain ⟨s', w', heq, h1⟩ := k.consume s n w rem k' hR hk
      exact ⟨.inr s', w', by simp [sumSrc, heq], h1⟩

theorem Ample.mono {S : ByteSrc σ} {R L L' E} (h : Ample S R L E) (hl : L' ≤ L) : Ample S R L' E where
  fill s ph w rem req eof n s' hR hf := by
    obtain ⟨h1, h2⟩ := h.fill s ph w rem req eof n s' hR hf
    exact ⟨fun he => Nat.le_trans hl (h1 he), h2⟩
  consume := h.consume
  keep := h.keep
  far hL := h.far (by omega)

theorem ServesAmply.mono {S : ByteSrc σ} {F F' M M' L L' s w content} (h : ServesAmply S F M L s w content) (hF : ∀ e, F e → F' e) (hM : ∀ m, M m → M' m) (hl : L' ≤ L) :
    ServesAmply S F' M' L' s w content := by
  obtain ⟨R, E, h1, h2, h3, h4⟩ := h
  refine ⟨R, E, ⟨fun s ph w rem req hR => ?_, h1.consume⟩, h2.mono hl, h3, h4⟩
  rcases h1.fill s ph w rem req hR with ⟨e, he, heq⟩ | ⟨eof, n, w', s', heq, hR', hn, hm, h1⟩
  · exact Or.inl ⟨e, hF e he, heq⟩
  · exact Or.inr ⟨eof, n, w', s', heq, hR', hn, fun h => (hm h).imp fun m h => ⟨hM m h.1, h.2⟩, h1⟩

theorem Ample.sum {S : ByteSrc σ} {T : ByteSrc τ} {R Q L E D} (h : Ample S R L E) (k : Ample T Q L D) : Ample (sumSrc S T) (SumRel R Q) L (Sum.elim E D) where
  fill s ph w rem req eof n s' hR hf := by
    cases s with
    | inl s =>
      simp only [sumSrc] at hf
      cases h2 : S.fill s req with
      | error e => rw [h2] at hf; cases hf
      | ok r =>
        obtain ⟨r1, r2⟩ := r
        rw [h2] at hf
        cases hf
        exact h.fill s ph w rem req eof n _ hR h2
    | inr s =>
      simp only [sumSrc] at hf
      cases h2 : T.fill s req with
      | error e => rw [h2] at hf; cases hf
      | ok r =>
        obtain ⟨r1, r2⟩ := r
        rw [h2] at hf
        cases hf
        exact k.fill s ph w rem req eof n _ hR h2
  consume s j s' hc := by
    cases s with
    | inl s =>
      simp only [sumSrc] at hc
      cases h2 : S.consume s j with
      | error e => rw [h2] at hc; cases hc
      | ok r => rw [h2] at hc; cases hc; exact h.consume s j _ h2
    | inr s =>
      simp only [sumSrc] at hc
      cases h2 : T.consume s j with
      | error e => rw [h2] at hc; cases hc
      | ok r => rw [h2] at hc; cases hc; exact k.consume s j _ h2
  keep s n w rem j s1 req eof n' s2 hR hj hc hf he := by
    cases s with
    | inl s =>
      simp only [sumSrc] at hc
      cases h2 : S.consume s j with
      | error e => rw [h2] at hc; cases hc
      | ok r =>
        rw [h2] at hc
        cases hc
        simp only [sumSrc] at hf
        cases h3 : S.fill r req with
        | error e => rw [h3] at hf; cases hf
        | ok r' =>
          obtain ⟨r1, r2⟩ := r'
          rw [h3] at hf; cases hf; exact h.keep s n w rem j _ req eof n' _ hR hj h2 h3 he
    | inr s =>
      simp only [sumSrc] at hc
      cases h2 : T.consume s j with
      | error e => rw [h2] at hc; cases hc
      | ok r =>
        rw [h2] at hc
        cases hc
        simp only [sumSrc] at hf
        cases h3 : T.fill r req with
        | error e => rw [h3] at hf; cases hf
        | ok r' =>
          obtain ⟨r1, r2⟩ := r'
          rw [h3] at hf; cases hf; exact k.keep s n w rem j _ req eof n' _ hR hj h2 h3 he
  far hL s n w rem s1 req n' s2 hR hc hf := by
    cases s with
    | inl s =>
      simp only [sumSrc] at hc
      cases h2 : S.consume s n with
      | error e => rw [h2] at hc; cases hc
      | ok r =>
        rw [h2] at hc
        cases hc
        simp only [sumSrc] at hf
        cases h3 : S.fill r req with
        | error e => rw [h3] at hf; cases hf
        | ok r' =>
          obtain ⟨r1, r2⟩ := r'
          rw [h3] at hf; cases hf; exact h.far hL s n w rem _ req n' _ hR h2 h3
    | inr s =>
      simp only [sumSrc] at hc
      cases h2 : T.consume s n with
      | error e => rw [h2] at hc; cases hc
      | ok r =>
        rw [h2] at hc
        cases hc
        simp only [sumSrc] at hf
        cases h3 : T.fill r req with
        | error e => rw [h3] at hf; cases hf
        | ok r' =>
          obtain ⟨r1, r2⟩ := r'
          rw [h3] at hf; cases hf; exact k.far hL s n w rem _ req n' _ hR h2 h3

namespace ZeroStream

/-- A stream of at most a block lends all of it. -/
def Short (B : Nat) (s : ZeroStream) (ph : Phase) (w : Nat) (rem : Bytes) : Prop := Rel s ph w rem ∧ s.nextLen = s.len - s.offset ∧ s.len ≤ B

theorem short_serves (B : Nat) (hB : 0 < B) : Serves (byteSrc B) NoErr AnyMargin (Short B) where
  fill s ph w rem req := by
    rintro ⟨hR, hn, hl⟩
    rcases (faithful B hB).fill s ph w rem req hR with ⟨e, he, _⟩ | ⟨eof, n, w', s', heq, hR', h1⟩
    · exact he.elim
    · refine Or.inr ⟨eof, n, w', s', heq, ⟨hR', ?_⟩, h1⟩
      simp only [byteSrc] at heq
      split at heq <;> cases heq
      · exact ⟨by simp only; omega, hl⟩
      · exact ⟨hn, hl⟩
  consume s n w rem k := by
    rintro ⟨hR, hn, hl⟩ hk
    obtain ⟨s', w', heq, hR', h1⟩ := (faithful B hB).consume s n w rem k hR hk
    refine ⟨s', w', heq, ⟨hR', ?_⟩, h1⟩
    simp only [byteSrc] at heq
    split at heq
    · cases heq
    · split at heq <;> cases heq
      · exact ⟨by simp only; omega, hl⟩
      · exact ⟨by simp only; omega, hl⟩

theorem short_eof {B : Nat} {s ph w rem} (h : Short B s ph w rem) {req eof n s'} (hf : (byteSrc B).fill s req = .ok ((eof, n), s')) : eof = true := by
  obtain ⟨_, hn, _⟩ := h
  simp only [byteSrc] at hf
  split at hf <;> cases hf
  · rfl
  · simp; omega

theorem short_ample (B : Nat) (hB : 0 < B) (L : Nat) : Ample (byteSrc B) (Short B) L (fun _ => True) where
  fill s ph w rem req eof n s' hR hf := by simp [short_eof hR hf]
  consume _ _ _ _ := Iff.rfl
  keep s n w rem k s1 req eof n' s2 hR hk hc hf he := by
    obtain ⟨s', w', heq, hR', _⟩ := (short_serves B hB).consume s n w rem k hR hk
    rw [heq] at hc
    cases hc
    have := short_eof hR' hf
    rw [he] at this
    cases this
  far _ s n w rem s1 req n' s2 hR hc hf := by
    obtain ⟨s', w', heq, hR', _⟩ := (short_serves B hB).consume s n w rem n hR (Nat.le_refl n)
    rw [heq] at hc
    cases hc
    cases short_eof hR' hf

theorem short_new {B k : Nat} (hk : k ≤ B) (filler : Byte) : Short B (new B k filler) (.idle 1) (fills k) (List.replicate k filler) := by
  refine ⟨⟨by simp [new], by simp [new]; omega, ?_, ?_⟩, by simp [new]; omega, hk⟩
  · simp [new]; omega
  · show k * (k + 1) - min k B + (if min k B < k then 1 else 0) ≤ k * (k + 1) + 1
    split <;> omega

end ZeroStream

namespace ClipStream

/-- The relation for a stream that only pads. -/
def Through (R : σ → Phase → Nat → Bytes → Prop) (c : ClipStream σ) (ph : Phase) (w : Nat) (rem : Bytes) : Prop :=
  c.strip = 0 ∧ c.skip = 0 ∧ rem.length < c.rem ∧ R c.src ph w rem ∧ ∀ n, ph = .lent n → n ≤ rem.length

theorem fill_through {S : ByteSrc σ} {R} {B fuel : Nat} (hf : 0 < fuel) {c : ClipStream σ} {ph w rem} (hR : Through R c ph w rem) (req : Nat) :
    (byteSrc S B fuel).fill c req = match S.fill c.src (min c.rem req + 1) with
      | .error e => .error e
      | .ok ((isEof, bytes), s) => .ok ((isEof || decide (min c.rem bytes = c.rem), min c.rem bytes), { c with src := s }) := by
  obtain ⟨h1, h2, h3, h4, h5⟩ := hR
  obtain ⟨k, rfl⟩ : ∃ k, fuel = k + 1 := ⟨fuel - 1, by omega⟩
  have hsk : skipLoop S B (k + 1) c = .ok (false, c) := by unfold skipLoop; rw [if_neg (by omega)]
  simp only [byteSrc, hsk, h1, Nat.add_zero, Nat.sub_zero]
  rfl

theorem through_serves {S : ByteSrc σ} {F M R} (h : Serves S F M R) {B fuel : Nat} (hf : 0 < fuel) : Serves (byteSrc S B fuel) F M (Through R) where
  fill c ph w rem req hR := by
    rw [fill_through hf hR]
    obtain ⟨h1, h2, h3, h4, h5⟩ := hR
    rcases h.fill c.src ph w rem (min c.rem req + 1) h4 with ⟨e, he, heq⟩ | ⟨eof, n, w', s', heq, hR', hn, hm, ha, hb⟩
    · exact Or.inl ⟨e, he, by rw [heq]⟩
    · have e1 : min c.rem n = n := by omega
      refine Or.inr ⟨eof, n, w', { c with src := s' }, ?_, ⟨h1, h2, h3, hR', fun _ h => by cases h; exact hn⟩, hn, hm, ha, hb⟩
      rw [heq]
      simp only [e1]
      rw [decide_eq_false (by omega), Bool.or_false]
  consume c n w rem k := by
    rintro ⟨h1, h2, h3, h4, h5⟩ hk
    obtain ⟨s', w', heq, hR', hw⟩ := h.consume c.src n w rem k h4 hk
    have := h5 n rfl
    refine ⟨{ c with src := s', rem := c.rem - k }, w', ?_, ⟨h1, h2, by simp; omega, hR', ?_⟩, hw⟩
    · simp only [byteSrc, heq]
      rw [if_neg (by omega)]
    · intro m hm
      simp only [Phase.afterConsume] at hm
      cases hm

theorem through_ample {S : ByteSrc σ} {F M R L E} (h : Serves S F M R) (hA : Ample S R L E) {B fuel : Nat} (hf : 0 < fuel) :
    Ample (byteSrc S B fuel) (Through R) L (fun c => E c.src) where
  fill c ph w rem req eof n c' hR hfl := by
    rw [fill_through hf hR] at hfl
    obtain ⟨h1, h2, h3, h4, h5⟩ := hR
    rcases h.fill c.src ph w rem (min c.rem req + 1) h4 with ⟨e, he, heq⟩ | ⟨eof', n', w', s', heq, hR', hn, hm, ha, hb⟩
    · rw [heq] at hfl; cases hfl
    · rw [heq] at hfl
      have e1 : min c.rem n' = n' := by omega
      simp only [e1] at hfl
      rw [decide_eq_false (by omega), Bool.or_false] at hfl
      cases hfl
      exact hA.fill _ _ _ _ _ _ _ _ h4 heq
  consume c k c' hc := by
    simp only [byteSrc] at hc
    split at hc
    · cases hc
    · split at hc
      · cases hc
      · rename_i s' heq
        cases hc
        exact hA.consume _ _ _ heq
  keep c n w rem k c1 req eof n' c2 hR hk hc hfl he := by
    have hR' := hR
    obtain ⟨h1, h2, h3, h4, h5⟩ := hR
    obtain ⟨s', w', heq, hR2, hw⟩ := h.consume c.src n w rem k h4 hk
    have := h5 n rfl
    simp only [byteSrc] at hc
    rw [if_neg (by omega), heq] at hc
    cases hc
    have hR3 : Through R { c with src := s', rem := c.rem - k } (Phase.afterConsume n k) w' (rem.drop k) :=
      ⟨h1, h2, by simp; omega, hR2, fun m hm => by simp only [Phase.afterConsume] at hm; cases hm⟩
    rw [fill_through hf hR3] at hfl
    simp only at hfl
    rcases h.fill s' _ w' _ (min (c.rem - k) req + 1) hR2 with ⟨e, _, heq2⟩ | ⟨eof', n2, w2, s2, heq2, hR4, hn, _⟩
    · rw [heq2] at hfl; cases hfl
    · rw [heq2] at hfl
      simp only [List.length_drop] at hn
      have e1 : min (c.rem - k) n2 = n2 := by omega
      simp only [e1] at hfl
      rw [decide_eq_false (by omega), Bool.or_false] at hfl
      cases hfl
      exact hA.keep _ _ _ _ _ _ _ _ _ _ h4 hk heq heq2 he
  far hL c n w rem c1 req n' c2 hR hc hfl := by
    have hR' := hR
    obtain ⟨h1, h2, h3, h4, h5⟩ := hR
    obtain ⟨s', w', heq, hR2, hw⟩ := h.consume c.src n w rem n h4 (Nat.le_refl n)
    have := h5 n rfl
    simp only [byteSrc] at hc
    rw [if_neg (by omega), heq] at hc
    cases hc
    have hR3 : Through R { c with src := s', rem := c.rem - n } (Phase.afterConsume n n) w' (rem.drop n) :=
      ⟨h1, h2, by simp; omega, hR2, fun m hm => by simp only [Phase.afterConsume] at hm; cases hm⟩
    rw [fill_through hf hR3] at hfl
    simp only at hfl
    rcases h.fill s' _ w' _ (min (c.rem - n) req + 1) hR2 with ⟨e, _, heq2⟩ | ⟨eof', n2, w2, s2, heq2, hR4, hn, _⟩
    · rw [heq2] at hfl; cases hfl
    · rw [heq2] at hfl
      simp only [List.length_drop] at hn
      have e1 : min (c.rem - n) n2 = n2 := by omega
      simp only [e1] at hfl
      rw [decide_eq_false (by omega), Bool.or_false] at hfl
      cases hfl
      have := hA.far hL _ _ _ _ _ _ _ _ h4 heq heq2
      omega

/-- A fresh `ClipStream` that pads by less than a block on each side. -/
theorem amply {S : ByteSrc σ} {F M L} (hM : ∀ m, M m → AnyMargin m) {B fuel : Nat} (hB : 0 < B) {src : σ} {w : Nat} {c : Bytes}
    (hs : ServesAmply S F M L src w c) {h t : Nat} (hh : h ≤ B) (ht : t ≤ B) (hlen : h + c.length + t < usizeMax) (filler : Byte) (hf : fills w c h t < fuel) :
    ∃ w' ≤ fills w c h t, ServesAmply (byteSrc (paddedSrc S B fuel) B fuel) F AnyMargin (min L ((B - 1784) / 8)) (new B src { pad := (h, t), clip := (0, 0), len := usizeMax } filler)
      w' (Spec.pad h t filler c) := by
  obtain ⟨R, E, h1, h2, h3, h4⟩ := hs
  have hz : Serves (ZeroStream.byteSrc B) F AnyMargin (ZeroStream.Short B) := by
    refine ⟨fun s ph w rem req hR => ?_, (ZeroStream.short_serves B hB).consume⟩
    rcases (ZeroStream.short_serves B hB).fill s ph w rem req hR with ⟨e, he, heq⟩ | h
    · exact he.elim
    · exact Or.inr h
  have hS : Serves S F AnyMargin R := by
    refine ⟨fun s ph w rem req hR => ?_, h1.consume⟩
    rcases h1.fill s ph w rem req hR with he | ⟨eof, n, w', s', heq, hR', hn, hm, h1⟩
    · exact Or.inl he
    · exact Or.inr ⟨eof, n, w', s', heq, hR', hn, fun h => (hm h).imp fun m h => ⟨hM m h.1, h.2⟩, h1⟩
  have hsum := hz.sum hS
  have hsumA := (ZeroStream.short_ample B hB L).sum h2
  have hin : SumRel (ZeroStream.Short B) R (.inr src) (.idle 1) w c := h3
  have hzero : ∀ k, k ≤ B → SumRel (ZeroStream.Short B) R (.inl (ZeroStream.new B k filler)) (.idle 1) (ZeroStream.fills k) (List.replicate k filler) :=
    fun k hk => ZeroStream.short_new hk filler
  have key : ∀ (srcs : List (ZeroStream ⊕ σ)) (cs : List (Nat × Bytes)), srcs ≠ [] →
      List.Forall₂ (fun s c => SumRel (ZeroStream.Short B) R s (.idle 1) c.1 c.2) srcs cs → CatStream.fills cs ≤ fills w c h t → (cs.map Prod.snd).flatten = Spec.pad h t filler c →
      ∃ w' ≤ fills w c h t, ServesAmply (byteSrc (paddedSrc S B fuel) B fuel) F AnyMargin (min L ((B - 1784) / 8))
        { src := .inr (CatStream.new B srcs), skip := 0, rem := usizeMax, strip := 0 } w' (Spec.pad h t filler c) := by
    intro srcs cs hne hall hle hcs
    obtain ⟨R2, E2, g1, g2, g3, g4⟩ := CatStream.amply hsum hsumA (fun _ h => h) (B := B) (fuel := fuel) hB hne hall (by omega)
    refine ⟨_, hle, ⟨Through (SumRel R R2), fun c => Sum.elim E E2 c.src, through_serves (hS.sum g1) (by omega), ?_, ⟨rfl, rfl, ?_, ?_, by simp⟩, g4⟩⟩
    · exact through_ample (hS.sum g1) ((h2.mono (Nat.min_le_left _ _)).sum g2) (by omega)
    · simp [Spec.pad]; omega
    · rw [← hcs]; exact g3
  unfold new pad
  rcases h with _ | h <;> rcases t with _ | t
  · refine ⟨w, by simp [fills]; omega, ⟨Through (SumRel R (fun _ _ _ _ => False)), fun c => Sum.elim E (fun _ => False) c.src, ?_, ?_, ⟨rfl, rfl, ?_, ?_, by simp⟩, h4⟩⟩
    · exact through_serves (hS.sum ⟨fun _ _ _ _ _ h => h.elim, fun _ _ _ _ _ h => h.elim⟩) (by omega)
    · refine through_ample (hS.sum ⟨fun _ _ _ _ _ h => h.elim, fun _ _ _ _ _ h => h.elim⟩) ?_ (by omega)
      exact (h2.mono (Nat.min_le_left _ _)).sum ⟨fun _ _ _ _ _ _ _ _ h => h.elim, fun _ _ _ _ => Iff.rfl, fun _ _ _ _ _ _ _ _ _ _ h => h.elim, fun _ _ _ _ _ _ _ _ _ h => h.elim⟩
    · simp [Spec.pad]; omega
    · have : Spec.pad 0 0 filler c = c := by simp [Spec.pad]
      rw [this]
      exact h3
  · refine key _ [(w, c), (ZeroStream.fills (t + 1), List.replicate (t + 1) filler)] (by simp) (.cons hin (.cons (hzero _ ht) .nil)) ?_ (by simp [Spec.pad])
    simp [CatStream.fills, fills]
  · refine key _ [(ZeroStream.fills (h + 1), List.replicate (h + 1) filler), (w, c)] (by simp) (.cons (hzero _ hh) (.cons hin .nil)) ?_ (by simp [Spec.pad])
    simp [CatStream.fills, fills]; omega
  · refine key _ [(ZeroStream.fills (h + 1), List.replicate (h + 1) filler), (w, c), (ZeroStream.fills (t + 1), List.replicate (t + 1) filler)] (by simp)
      (.cons (hzero _ hh) (.cons hin (.cons (hzero _ ht) .nil))) ?_ (by simp [Spec.pad])
    simp [CatStream.fills, fills]; omega

end ClipStream
end Nd
