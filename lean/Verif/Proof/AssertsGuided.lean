import Verif.Model.Asserts
import Verif.Proof.Guided
/-! `GuidedSlicer` in the debug build. -/
namespace Nd
open Nd.Spec

theorem SegFaithful.congr_fill {S S' : SegSrc σ} {K F R} (h : SegFaithful S K F R) (hs : S'.slices = S.slices) (hc : S'.consume = S.consume)
    (hi : ∀ s lb w rem segs, R s (.idle lb) w rem segs → S'.fill s = S.fill s) (hd : ∀ s w rem segs, R s .done w rem segs → S'.fill s = S.fill s) : SegFaithful S' K F R where
  fill s lb w rem segs hR := by
    rw [hi s lb w rem segs hR, hs]
    exact h.fill s lb w rem segs hR
  consume := by
    rw [hc]
    exact h.consume
  rest s w rem segs hR := by
    rw [hd s w rem segs hR, hs]
    exact h.rest s w rem segs hR

namespace GuidedSlicer

theorem asserting_fill {P : RecSrc τ} {Src : ByteSrc σ} {F M R L E} {Q : τ → List Rec → Prop} (h : Serves Src F M R) (hA : Ample Src R L E) (B fuel : Nat)
    (st : GuidedSlicer σ τ) (w : Nat) (rem : Bytes) (segs : List Seg) (hI : Idle Src R Q L fuel st w rem segs) :
    (asserting Src P B fuel).fill st = (segSrc Src P B fuel).fill st := by
  obtain ⟨recs, lb, hC, hR, hW⟩ := hI
  simp only [asserting, segSrc, fill]
  rcases h.fill _ _ _ _ (max B ((st.segments.getLast?.map Seg.tail).getD 0)) hR with ⟨er, hF, heq⟩ | ⟨eof, n, w', s', heq, hR', hn, hm, he', hne', hw', hw''⟩
  · rw [heq]
  obtain ⟨a1, _, _⟩ := hA.fill _ _ _ _ _ _ _ _ hR heq
  rw [heq]
  simp only
  rw [if_neg]
  rcases hW with hW | ⟨H, hH, hW⟩
  · rw [hW]
    simp
  · rw [hH] at heq ⊢
    simp only [List.getLast?_singleton, Option.map_some, Option.getD_some] at heq ⊢
    cases eof with
    | true =>
      have := (hC.good.each H (by rw [hC.all, hH]; simp)).2.2
      have := he' rfl
      omega
    | false =>
      rcases hW with hW | hW
      · have := a1 rfl; omega
      · have := hW _ _ _ heq; omega

/-- The debug build delivers the slices of the guide. -/
theorem asserting_delivers {P : RecSrc τ} {Src : ByteSrc σ} {F M L} {s : σ} {w : Nat} {content : Bytes} {t : τ} {recs : List Rec}
    (h : ServesFar Src F M L s w content) (hM : ∀ m, M m → AnyMargin m) (hg : Yields P F false t recs) (hgood : Good L content (guided recs)) (hlen : content.length < 2 ^ 64)
    (B fuel : Nat) (hfuel : recs.length < fuel) :
    SegDelivers (asserting Src P B fuel) kind F (new s t) w content (guided recs) := by
  obtain ⟨R, E, hR, hA, hFar, hs, _⟩ := h
  obtain ⟨Q, hq, hQ⟩ := hg
  refine ⟨_, (faithful hQ hR hA hFar hM B fuel).congr_fill rfl rfl (fun s lb w rem segs h => ?_) (fun s w rem segs h => ?_), rfl, recs, 1, ⟨hq, ?_, by simp [new], by simpa [new] using hlen, hfuel, hgood⟩, hs,
    Or.inl rfl⟩
  · exact asserting_fill hR hA B fuel s w rem segs h.2
  · exact asserting_fill hR hA B fuel s w rem segs h.2
  · simp [new, guided, pending]

end GuidedSlicer
end Nd
