import Verif.Proof.Asserts
import Verif.Proof.Clip
import Verif.Proof.Cut
import Verif.Proof.Patch
import Verif.Proof.Text
import Verif.Proof.Zip
import Verif.Model.PatchBack
/-! The byte streams of the debug build. -/
namespace Nd

theorem RawStream.appends (B : Nat) : StreamBuf.Appends (RawStream.feed B) := by
  intro r req buf eof buf' r' h
  unfold RawStream.feed at h
  split at h
  · cases h
  · cases h
    simp

theorem Zipper.appends (S : ByteSrc σ) (B : Nat) : StreamBuf.Appends (Zipper.feed S B) := by
  intro z req buf eof buf' z' h
  simp only [Zipper.feed] at h
  split at h
  · cases h
  · split at h
    · cases h
    · cases h
      simp

theorem CutStream.appends (S : ByteSrc σ) : StreamBuf.Appends (CutStream.feed S) := by
  intro c req buf eof buf' c' h
  simp only [CutStream.feed] at h
  split at h
  · cases h
  · split at h
    · cases h
    · cases h
      simp

theorem GaplessTextStream.appends (P : RecSrc τ) : StreamBuf.Appends (GaplessTextStream.feed P) := by
  intro t req buf eof buf' t' h
  unfold GaplessTextStream.feed at h
  split at h
  · cases h
  · cases h
    exact Nat.le_refl _
  · cases h
    simp

theorem TextStream.appends (P : RecSrc τ) (B : Nat) (filler : Byte) : StreamBuf.Appends (TextStream.feed P B filler) := by
  intro t req buf eof buf' t' h
  have hr : ∀ (l : Bytes) n x, (resize l n x).length = n := fun l n x => by simp only [resize, List.length_append, List.length_take, List.length_replicate]; omega
  simp only [TextStream.feed] at h
  split at h
  · cases h
    exact Nat.le_refl _
  · split at h
    · cases h
    · split at h
      · cases h
        rw [hr]
        omega
      · split at h
        · cases h
        · split at h
          · cases h
          · cases h
            rw [List.length_append, hr]
            omega

theorem PatchStream.appends (S : ByteSrc σ) (P : RecSrc τ) (B fuel : Nat) : StreamBuf.Appends (PatchStream.feed S P B fuel) := by
  intro t req buf eof buf' t' h
  simp only [PatchStream.feed] at h
  split at h
  · cases h
  · cases h
    exact Nat.le_refl _
  · split at h
    · cases h
    · split at h
      · cases h
      · split at h
        · cases h
        · cases h
          simp

theorem TeeReader.appends (B : Nat) : StreamBuf.Appends (TeeReader.feed B) := by
  intro t req buf eof buf' t' h
  unfold TeeReader.feed at h
  split at h
  · cases h
  · cases h
    simp

/-- The debug build and the release build of a buffered stream answer every client in the same way. -/
theorem Client.run_asserting {f : StreamBuf.Closure τ} (hf : StreamBuf.Appends f) (B fuel : Nat) :
    ∀ (ops : List ClientOp) (c : Client (Buffered τ)), (BufSound c.st (match c.lent with | some n => .lent n | none => .idle 1)) →
      c.run (bufferedAsserting B fuel f) ops = c.run (bufferedSrc B fuel f) ops
  | [], _, _ => rfl
  | .fill req :: ops, c, hc => by
    simp only [Client.run, Client.step]
    rcases heq : (bufferedSrc B fuel f).fill c.st req with e | ⟨⟨eof, n⟩, s⟩
    · simp only [bufferedAsserting, ByteSrc.asserting, heq]
    · have hs := bufferedSrc_fill hf hc.1 heq
      simp only [bufferedAsserting, ByteSrc.asserting, heq, hs.1.asserts, if_true]
      exact Client.run_asserting hf B fuel ops _ hs
  | .consume k :: ops, c, hc => by
    simp only [Client.run, Client.step]
    cases hl : c.lent with
    | none => exact Client.run_asserting hf B fuel ops c hc
    | some n =>
      rw [hl] at hc
      have hk := hc.2 n rfl
      rcases heq : (bufferedSrc B fuel f).consume c.st (min k n) with e | s
      · simp only [bufferedAsserting, ByteSrc.asserting, heq]
      · obtain ⟨h1, h2⟩ := bufferedSrc_consume hc.1 (by omega) heq
        simp only [bufferedAsserting, ByteSrc.asserting, heq, h2, if_true]
        exact Client.run_asserting hf B fuel ops _ ⟨h1, fun m hm => by cases hm⟩

namespace CatStream

theorem Rel.dup_le {R : σ → Phase → Nat → Bytes → Prop} {c : CatStream σ} {ph w rem} (h : Rel R c ph w rem) (hu : c.srcs = [] → c.dup = 0) : c.direct = true ∨ c.dup ≤ c.cache.length := by
  obtain ⟨ha, h⟩ := h
  cases hs : c.srcs with
  | nil => exact Or.inr (by rw [hu hs]; exact Nat.zero_le _)
  | cons s rest =>
    rw [hs] at h
    obtain ⟨_, d, m, phs, ws, r1, r2, W2, hv, _, _, _, ⟨hd, _⟩ | ⟨hd, _, hdup, ⟨d0, hd0, _⟩, hn⟩⟩ := h
    · refine Or.inl ?_
      simp [direct, hs, hv.length, hd]
    · refine Or.inr ?_
      rw [hv.length, hd0, List.length_append, List.length_take]
      omega

theorem asserting_faithful {S : ByteSrc σ} {F M R} (h : Faithful S F M R) (hM : ∀ m, M m → AnyMargin m) (B fuel : Nat) :
    Faithful (asserting S B fuel) F AnyMargin (fun c ph w rem => (Rel R c ph w rem ∧ w < fuel) ∧ Undup c ph) := by
  refine (faithful h hM B fuel).asserting (upholds fun _ _ _ _ h => h.1) ?_
  intro c lb w rem c' w' h1 hI heq h2
  have t1 := h1.1
  have s1 := t1.sound
  have s2 := h2.1.sound.asserts
  have hc := t1.dup_le hI
  simp only [s1.asserts, s2, Bool.true_and, Bool.or_eq_true, Bool.and_eq_true, decide_eq_true_eq]
  simp only [byteSrc] at heq
  split at heq
  · rename_i hs
    cases heq
    rcases hc with hc | hc
    · simp [direct, hs] at hc
    · exact ⟨hI, Or.inr ⟨⟨by omega, hc⟩, (s1.consume (by omega)).2⟩⟩
  · rename_i s rest hs
    split at heq
    · rename_i hl
      split at heq
      · cases heq
      · cases heq
        refine ⟨(fun h => by cases h), Or.inl ?_⟩
        simp [direct, hs, hl]
    · rename_i hl
      have hnd : c.direct = false := by simp [direct, hl]
      rw [hnd] at hc
      rcases hc with hc | hc2
      · cases hc
      split at heq
      · cases heq
        exact ⟨(fun h => by rw [hs] at h; cases h), Or.inr ⟨⟨by omega, hc2⟩, (s1.consume (by omega)).2⟩⟩
      · split at heq
        · cases heq
        · cases heq
          refine ⟨(fun h => by cases h), Or.inr ⟨⟨by omega, hc2⟩, ?_⟩⟩
          show StreamBuf.assertsTarget 0 (c.cache.consume B c.cache.length) = true
          unfold StreamBuf.consume
          simp only [hl, if_false]
          split
          · rename_i he
            simp [StreamBuf.assertsTarget, he]
          · have : ∀ a b : Nat, a < max (a + 1) b := fun a b => by omega
            simp [StreamBuf.assertsTarget, this]

theorem asserting_delivers {S : ByteSrc σ} {F M} (hM : ∀ m, M m → AnyMargin m) {B fuel : Nat} (hB : 0 < B) {srcs : List σ}
    {cs : List (Nat × Bytes)} (h : List.Forall₂ (fun s c => Delivers S F M s c.1 c.2) srcs cs) (hf : fills cs < fuel) :
    Delivers (asserting S B fuel) F AnyMargin (new B srcs) (fills cs) (cs.map Prod.snd).flatten := by
  have h' : List.Forall₂ (fun s c => Live S F M s (.idle 1) c.1 c.2) srcs cs := h
  refine ⟨_, asserting_faithful Live.faithful hM B fuel, ⟨⟨rfl, ?_⟩, hf⟩, fun _ => rfl⟩
  have hfr := fresh_of_forall h'
  cases srcs with
  | nil =>
    simp only [Fresh] at hfr
    simp only [new]
    rw [hfr]
    exact ⟨⟨_, StreamBuf.View.new B 1 0⟩, by simp⟩
  | cons s rest =>
    obtain ⟨w, c1, c2, W2, hc, hR, hfr, hW⟩ := hfr
    exact ⟨rfl, [], _, _, w, c1, c2, W2, StreamBuf.View.new B 1 0, hR, hfr, hW, Or.inl ⟨rfl, hc, rfl, hB, 1, rfl, Nat.le_refl _, Nat.le_refl _, by omega⟩⟩

end CatStream

namespace ClipStream

theorem asserting_eq {S : ByteSrc σ} {F M R} (h : Faithful S F M R) {B fuel : Nat} {c : ClipStream σ} {ph w rem} (hR : Rel R c ph w rem) (hw : w + 1 < fuel) (req : Nat) :
    (asserting S B fuel).fill c req = (byteSrc S B fuel).fill c req := by
  obtain ⟨hs, phs, r, hR, _, hph⟩ := hR
  refine asserting_fill hs fun c' r' n s' hc hf => ?_
  have step : ∀ ph' w' rem', R c'.src ph' w' rem' → 1 ≤ n := fun ph' w' rem' hR' => by
    rcases h.fill _ _ _ _ r' hR' with ⟨e, _, heq⟩ | ⟨eof1, n1, w1, s1, heq, _, _, _, _, hne, _, _⟩
    · rw [heq] at hf; cases hf
    · rw [heq] at hf
      cases hf
      exact (hne rfl).1
  have idle : ∀ lbs, phs = .idle lbs → 1 ≤ n := by
    rintro lbs rfl
    rcases skipLoop_spec h B fuel c lbs w r hR hw with ⟨e, _, heq⟩ | ⟨b, c1, lbs', w1, r1, heq, g1, _⟩
    · rw [heq] at hc; cases hc
    · rw [heq] at hc
      cases hc
      exact step _ _ _ g1
  cases ph with
  | idle lb =>
    obtain ⟨lbs, hphs, _⟩ := hph
    exact idle lbs hphs
  | lent n0 =>
    rcases hph with ⟨h0, m, hphs, hm, hn0⟩ | ⟨hn0, hr, lbs, hphs⟩
    · obtain ⟨fuel', rfl⟩ : ∃ k, fuel = k + 1 := ⟨fuel - 1, by omega⟩
      have hsk : skipLoop S B (fuel' + 1) c = .ok (false, c) := by
        unfold skipLoop; rw [if_neg (by omega)]
      rw [hsk] at hc
      cases hc
      exact step _ _ _ hR
    · exact idle lbs hphs

theorem asserting_faithful {S : ByteSrc σ} {F M R} (h : Faithful S F M R) (hM : ∀ m, M m → AnyMargin m) (B fuel : Nat) :
    Faithful (asserting S B fuel) F AnyMargin (fun c ph w rem => Rel R c ph w rem ∧ w + 1 < fuel) where
  fill c ph w rem req hR := by
    rw [asserting_eq h hR.1 hR.2]
    exact (faithful h hM B fuel).fill c ph w rem req hR
  consume := (faithful h hM B fuel).consume
  nudge := (faithful h hM B fuel).nudge

theorem asserting_delivers {S : ByteSrc σ} {F M} (hM : ∀ m, M m → AnyMargin m) {B fuel : Nat} (hB : 0 < B) {src : σ} {w : Nat}
    {c : Bytes} (h : Delivers S F M src w c) (params : ClipperParams) (hstrip : params.clip.2 = 0) (filler : Byte)
    (hf : fills w c params.pad.1 params.pad.2 + 1 < fuel) :
    Delivers (asserting (paddedAsserting S B fuel) B fuel) F AnyMargin (new B src params filler)
      (fills w c params.pad.1 params.pad.2)
      (((Spec.pad params.pad.1 params.pad.2 filler c).drop params.clip.1).take params.len) := by
  have hsum : Faithful (sumSrc (ZeroStream.byteSrc B) S) F AnyMargin (SumRel (Live (ZeroStream.byteSrc B) F AnyMargin) (Live S F AnyMargin)) :=
    Live.faithful.sum Live.faithful
  have hS : Live S F AnyMargin src (.idle 1) w c := h.mono (fun _ h => h) hM
  have hZ : ∀ k, Live (ZeroStream.byteSrc B) F AnyMargin (ZeroStream.new B k filler) (.idle 1) (ZeroStream.fills k) (List.replicate k filler) :=
    fun k => (ZeroStream.delivers B hB k filler).mono (fun _ h => h.elim) (fun _ h => h)
  have hpad : ∃ w', w' ≤ fills w c params.pad.1 params.pad.2 ∧ Delivers (paddedAsserting S B fuel) F AnyMargin (pad B src params filler) w'
      (Spec.pad params.pad.1 params.pad.2 filler c) := by
    unfold pad paddedAsserting
    obtain ⟨⟨h0, t0⟩, clip, len⟩ := params
    have hz1 : ∀ k, Delivers (sumSrc (ZeroStream.byteSrc B) S) F AnyMargin (.inl (ZeroStream.new B k filler)) (ZeroStream.fills k) (List.replicate k filler) :=
      fun k => ⟨_, hsum, hZ k⟩
    have hs1 : Delivers (sumSrc (ZeroStream.byteSrc B) S) F AnyMargin (.inr src) w c := ⟨_, hsum, hS⟩
    have hcf : Faithful (CatStream.asserting (sumSrc (ZeroStream.byteSrc B) S) B fuel) F AnyMargin
        (Live (CatStream.asserting (sumSrc (ZeroStream.byteSrc B) S) B fuel) F AnyMargin) := Live.faithful
    rcases h0 with _ | h0 <;> rcases t0 with _ | t0
    · exact ⟨w, by simp [fills]; omega, by simpa [Spec.pad] using Delivers.inl hS hcf⟩
    · have := CatStream.asserting_delivers (fun _ h => h) (B := B) (fuel := fuel) hB (cs := [(w, c), (ZeroStream.fills (t0 + 1), List.replicate (t0 + 1) filler)]) (.cons hs1 (.cons (hz1 (t0 + 1)) .nil)) (by simp [CatStream.fills, fills] at hf ⊢; omega)
      refine ⟨_, ?_, by simpa [Spec.pad] using Delivers.inr this Live.faithful⟩
      simp [CatStream.fills, fills]
    · have := CatStream.asserting_delivers (fun _ h => h) (B := B) (fuel := fuel) hB (cs := [(ZeroStream.fills (h0 + 1), List.replicate (h0 + 1) filler), (w, c)]) (.cons (hz1 (h0 + 1)) (.cons hs1 .nil)) (by simp [CatStream.fills, fills] at hf ⊢; omega)
      refine ⟨_, ?_, by simpa [Spec.pad] using Delivers.inr this Live.faithful⟩
      simp [CatStream.fills, fills]; omega
    · have := CatStream.asserting_delivers (fun _ h => h) (B := B) (fuel := fuel) hB (cs := [(ZeroStream.fills (h0 + 1), List.replicate (h0 + 1) filler), (w, c), (ZeroStream.fills (t0 + 1), List.replicate (t0 + 1) filler)]) (.cons (hz1 (h0 + 1)) (.cons hs1 (.cons (hz1 (t0 + 1)) .nil))) (by simp [CatStream.fills, fills] at hf ⊢; omega)
      refine ⟨_, ?_, by simpa [Spec.pad] using Delivers.inr this Live.faithful⟩
      simp [CatStream.fills, fills]; omega
  obtain ⟨w', hw', R, hF, hR⟩ := hpad
  refine ⟨fun s ph w rem => ∃ w0 ≤ w, Rel R s ph w0 rem ∧ w0 + 1 < fuel, ?_, ⟨w', hw', ⟨hstrip, _, _, hR, rfl, 1, rfl, by omega, by omega⟩, by omega⟩⟩
  exact (asserting_faithful hF (fun _ h => h) B fuel).weaken

end ClipStream
end Nd
