import Verif.Proof.AssertsGuided
import Verif.Proof.Map
/-! `ExtendStream` in the debug build. -/
namespace Nd
open Nd.Spec

namespace Extend

theorem asserting_fill_eq {S : SegSrc σ} (ms : List SegmentMapper) (m : MapStream σ Unit)
    (h : ∀ eof bytes count maxc s', S.fill m.src = .ok ((eof, bytes, count, maxc), s') → asserts ms eof bytes (((S.slices s').2.take count).drop m.srcScanned) = true) :
    (asserting S ms).fill m = (MapStream.segSrc S (ops ms)).fill m := by
  simp only [asserting, MapStream.segSrc]
  cases heq : S.fill m.src with
  | error e => rfl
  | ok r =>
    obtain ⟨⟨eof, bytes, count, maxc⟩, s'⟩ := r
    have := h _ _ _ _ _ heq
    simp only
    by_cases hp : ((ops ms).strict ∧ (count < m.srcScanned ∨ (S.slices s').2.length < count)) ∨ (m.srcScanned < count ∧ (S.slices s').2.length < count)
    · simp only [if_pos hp]
    · simp only [if_neg hp]
      rw [if_pos this]

theorem asserting_faithful {S : SegSrc σ} {K K' F R} (h : SegFaithful S K F R) (hk : SegKeeps S R) {rest Inv H} (ms : List SegmentMapper)
    (hE : SegFaithful (MapStream.segSrc S (ops ms)) K' F (MapStream.Rel S R rest Inv H)) :
    SegFaithful (asserting S ms) K' F (MapStream.Rel S R rest Inv H) := by
  refine hE.congr_fill rfl rfl (fun m lb w rem out hR => asserting_fill_eq ms m ?_) (fun m w rem out hR => asserting_fill_eq ms m ?_)
  · obtain ⟨segs, sph, hs, _, _, _, _, rfl, _⟩ := hR
    intro eof bytes count maxc s' heq
    unfold asserts
    cases eof with
    | true => rfl
    | false =>
      rw [Bool.false_or, List.all_eq_true]
      intro x hx
      rcases h.fill _ _ _ _ _ hs with ⟨e, hF, heq'⟩ | ⟨eof, bytes', count', maxc', cap, w', s'', heq', hR', hl, _⟩
      · rw [heq'] at heq; cases heq
      rw [heq'] at heq
      cases heq
      rw [hl.segs_eq] at hx
      have := hk.within _ _ _ _ _ _ _ _ _ hs heq' x (List.mem_of_mem_take (List.mem_of_mem_drop hx))
      simp [this]
  · obtain ⟨segs, sph, hs, _, _, _, _, rfl, _⟩ := hR
    intro eof bytes count maxc s' heq
    rcases h.rest _ _ _ _ hs with ⟨e, hF, heq'⟩ | ⟨w', s'', heq', _⟩
    · rw [heq'] at heq; cases heq
    · rw [heq'] at heq
      cases heq
      rfl

end Extend
end Nd
