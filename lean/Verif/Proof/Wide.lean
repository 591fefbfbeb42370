import Verif.Proof.Follow
/-!
# `--width` with slices that are large compared to the blocks
-/
namespace Nd
open Spec Props

theorem ConstSlicer.WideRel.src {Src : ByteSrc σ} {R E} {ex : Bool} {D P S M esc : Nat} {st : ConstSlicer σ} {ph w rem segs} (h : WideRel Src R E ex D P S M esc st ph w rem segs) :
    ∃ ph', R st.src ph' w rem := by
  obtain ⟨_, _, _, _, _, _, h⟩ := h
  cases ph with
  | idle lb => obtain ⟨⟨_, h⟩, _⟩ := h; exact ⟨_, h⟩
  | lent eof count cap => obtain ⟨_, h, _⟩ := h; exact ⟨_, h⟩
  | done => obtain ⟨_, _, _, h⟩ := h; exact ⟨_, h⟩

/-- The second half of the pipeline. -/
theorem wide_tracked (h : Host) (p : Pipeline InoutFormat) (srcs : List Reader) (j : Job) (scheds : List (Nat → Option Nat)) {content : Bytes} {segs : List Seg}
    (hf : j.Strides h.block) {node : Node} (hn : j.slicer.Node h scheds node) {regex invert extend text : Option String} (hrn : RegexNode h j.regex regex)
    (hin : MappersNode j.invert invert) (hen : MappersNode j.extend extend) (hln : RangesNode j.lines text)
    (hs : j.Slices content segs) {d : DynByte} {F : Err → Prop} {w : Nat} {tee : Prop} (hd : Feeds d F h.block w content tee) :
    ∃ g, (∀ y rest, (h.stages p srcs).loop (node :: (optNode .regex regex ++ optNode .bridge invert ++ optNode .extend extend ++ optNode .merge j.merge ++ optNode .lines text ++ rest))
        (y, .byte d) = (h.stages p srcs).loop rest (y, .segment g)) ∧
      ∃ w' ≤ w, ∃ K : SegKind, K.exact = true ∧ K.full = true ∧
        SegTracked g.src K F (fun s rem => Kept tee (g.cache s) content rem) g.st w' content segs := by
  obtain ⟨n, r, hsl, ⟨f1, f2, f3, f4, f5⟩, hp, g1, g2, g3, g4⟩ := hf
  obtain ⟨raw, ext, k1, k2, k3⟩ := hs
  unfold Job.Extended Job.inverted Job.searched at k2
  unfold Job.picked Job.merged at k3
  rw [f1, f2, f3] at k2
  rw [f4, f5] at k3
  rw [f1] at hrn
  rw [f2] at hin
  rw [f3] at hen
  rw [f5] at hln
  rw [hsl] at k1 hn
  simp only [Slicer.Cuts] at k1 k2 k3
  subst k1 k2 k3
  cases regex with
  | some => exact hrn.elim
  | none =>
  cases invert with
  | some => exact hin.elim
  | none =>
  cases extend with
  | some => exact hen.elim
  | none =>
  cases text with
  | some => exact hln.elim
  | none =>
  cases node <;> simp only [Slicer.Node] at hn
  rename_i ps
  obtain ⟨m, fuel, k1, k2, k3⟩ := hn
  obtain ⟨⟨w', hw', R, E, hR, hA, hs0, hE, hG⟩, _, hpr⟩ := hd
  obtain ⟨h1, h2, h3, h4, h5, h6, h7, h8, h9, h10, h11⟩ := ConstSlicerParams.fromRaw_comb hp k2 content.length _ _ k3
  have hhead := h10 g1
  have ok : ConstSlicer.ParamsOk ps := ⟨by omega, by omega, h4, h7 g1, h5, h6, h8 g2⟩
  obtain ⟨st, hst, hrel⟩ := ConstSlicer.wide_new (Src := d.src) true ps ok d.st w' content hs0 hE hpr (fun _ => by omega) (by
    unfold ConstSlicer.FirstFits
    omega)
  rw [h11] at hrel
  have hgs : ∃ g, h.slicer p (.width ps) d = .ok g ∧ ∃ K : SegKind, K.exact = true ∧ K.full = true ∧
      SegTracked g.src K F (fun s rem => Kept tee (g.cache s) content rem) g.st w' content (strides content.length n (r.1.at n) (r.2.at n)) := by
    simp only [Host.slicer, attempt, hst]
    refine ⟨_, rfl, ConstSlicer.wide true ps.pitch ps.span, by simp [ConstSlicer.wide]; omega, rfl, _,
      ConstSlicer.wide_faithful hR hA (fun _ h => h) true h.block ps.pitch ps.span (ps.tail + ps.span).toNat (ConstSlicer.escape ps), fun s ph w rem segs hr => ?_, hrel⟩
    obtain ⟨_, hr⟩ := hr.src
    exact hG _ _ _ _ hr
  obtain ⟨g, hg, hk⟩ := hgs
  refine ⟨g, fun y rest => ?_, w', hw', hk⟩
  rw [f4]
  simp only [optNode, List.nil_append, Stages.loop, Stages.step]
  rw [show (h.stages p srcs).slicer (.width ps) d = h.slicer p (.width ps) d from rfl, hg]

end Nd
