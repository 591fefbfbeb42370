import Verif.Proof.Thread
/-!
# `--guide` on streams of any length
-/
namespace Nd
open Spec Props

theorem SegTracked.drains {g : DynSeg} {K F Good} (hK : K.exact = true) {w : Nat} {content : Bytes} {segs : List Seg} (hlen : content.length < 2 ^ 64)
    (h : SegTracked g.src K F Good g.st w content segs) {B : Nat} (hB : 0 < B) : Drains g F B w (slicesOf content segs) True := by
  obtain ⟨R, hR, _, hs⟩ := h
  refine ⟨fun f fuel hf => ScatterDrain.delivers hK f hB ⟨R, hR, hs⟩ hlen hf, fun _ f fuel c hf => ?_⟩
  have := ScatterDrain.scatter_eq hR hK f fuel (ScatterDrain.new g.st) c 0 w content segs hs rfl (by simpa [ScatterDrain.new] using hlen) hf
  simpa only [ScatterDrain.new, absOf_zero] using this

theorem GuidedSlicer.Rel.src {Src : ByteSrc σ} {R} {Q : τ → List Rec → Prop} {L fuel : Nat} {st : GuidedSlicer σ τ} {ph w rem segs} (h : GuidedSlicer.Rel Src R Q L fuel st ph w rem segs) :
    ∃ ph', R st.src ph' w rem := by
  cases ph with
  | idle lb => obtain ⟨_, _, _, _, h, _⟩ := h; exact ⟨_, h⟩
  | lent eof count cap => obtain ⟨_, _, _, h, _⟩ := h; exact ⟨_, h⟩
  | done => obtain ⟨_, _, _, _, h, _⟩ := h; exact ⟨_, h⟩

/-- The second half of the pipeline. -/
theorem guide_tracked (h : Host) (p : Pipeline InoutFormat) (srcs : List Reader) (j : Job) (scheds : List (Nat → Option Nat)) {content : Bytes} {segs : List Seg} (hB : 0 < h.block)
    (hf : j.Follows ((h.block - 1784) / 8) content) {node : Node} (hn : j.slicer.Node h scheds node) {regex invert extend text : Option String} (hrn : RegexNode h j.regex regex)
    (hin : MappersNode j.invert invert) (hen : MappersNode j.extend extend) (hln : RangesNode j.lines text)
    (hs : j.Slices content segs) (hlen : content.length < 2 ^ 64) :
    ∃ N, ∀ fuel, N < fuel → ∀ {d : DynByte} {w : Nat} {tee : Prop}, Feeds d (Failing scheds) h.block w content tee →
      ∃ g, (∀ y rest, ((h.withFuel fuel).stages p srcs).loop (node :: (optNode .regex regex ++ optNode .bridge invert ++ optNode .extend extend ++ optNode .merge j.merge ++ optNode .lines text ++ rest))
          (y, .byte d) = ((h.withFuel fuel).stages p srcs).loop rest (y, .segment g)) ∧
        ∃ w' ≤ w, ∃ K : SegKind, K.exact = true ∧ K.full = true ∧
          SegTracked g.src K (Failing scheds) (fun s rem => Kept tee (g.cache s) content rem) g.st w' content segs := by
  obtain ⟨hL, recs, hsl, ⟨f1, f2, f3, f4, f5⟩, hso, hr⟩ := hf
  obtain ⟨raw, ext, k1, k2, k3⟩ := hs
  unfold Job.Extended Job.inverted Job.searched at k2
  unfold Job.picked Job.merged at k3
  rw [f1, f2, f3] at k2
  rw [f4, f5] at k3
  rw [f1] at hrn
  rw [f2] at hin
  rw [f3] at hen
  rw [f5] at hln
  rw [hsl] at k1 hn
  simp only [Slicer.Cuts] at k1 k2 k3
  subst k1 k2 k3
  cases regex with
  | some => exact hrn.elim
  | none =>
  cases invert with
  | some => exact hin.elim
  | none =>
  cases extend with
  | some => exact hen.elim
  | none =>
  cases text with
  | some => exact hln.elim
  | none =>
  cases node <;> simp only [Slicer.Node] at hn
  rename_i file
  obtain ⟨text, sched, h1, h2, ⟨h3, _⟩, h6⟩ := hn
  refine ⟨text.length + recs.length, fun fuel hf d w tee hd => ?_⟩
  have hy := (file_yields h.impl h.block fuel (UInt8.ofNat p.filler) .hex text sched hB (by omega) h6 _ h3).mono (fun e he => Failing.io h2 he)
  have hop : (h.withFuel fuel).openFile p file = .ok (openText h.block (UInt8.ofNat p.filler) text sched) := by
    unfold Host.openFile Host.openReader
    rw [show (h.withFuel fuel).files file = some (text, sched) from h1]
    rfl
  obtain ⟨⟨w', hw', R, E, hR, hA, hs0, hE, hG⟩, _⟩ := hd
  obtain ⟨Q, hq, hQ⟩ := hy
  have hgood : GuidedSlicer.Good ((h.block - 1784) / 8) content (guided recs) := ⟨by simpa [guided, List.pairwise_map] using hso, by
    intro x hx
    obtain ⟨r, hr', rfl⟩ := List.mem_map.1 hx
    exact hr r hr'⟩
  have hgs : ∃ g, (h.withFuel fuel).slicer p (.guide file) d = .ok g ∧ ∃ K : SegKind, K.exact = true ∧ K.full = true ∧
      SegTracked g.src K (Failing scheds) (fun s rem => Kept tee (g.cache s) content rem) g.st w' content (guided recs) := by
    simp only [Host.slicer, hop, attempt]
    refine ⟨_, rfl, GuidedSlicer.kind, rfl, rfl, _, GuidedSlicer.faithful hQ hR hA (hA.far hL) (fun _ h => h) h.block fuel, fun s ph w rem segs hr => ?_, rfl, recs, 1,
      ⟨hq, ?_, by simp [GuidedSlicer.new], by simpa [GuidedSlicer.new] using hlen, by omega, hgood⟩, hs0, Or.inl rfl⟩
    · obtain ⟨_, hr⟩ := hr.src
      exact hG _ _ _ _ hr
    · simp [GuidedSlicer.new, guided, GuidedSlicer.pending]
  obtain ⟨g, hg, hk⟩ := hgs
  refine ⟨g, fun y rest => ?_, w', hw', hk⟩
  rw [f4]
  simp only [optNode, List.nil_append, Stages.loop, Stages.step]
  rw [show ((h.withFuel fuel).stages p srcs).slicer (.guide file) d = (h.withFuel fuel).slicer p (.guide file) d from rfl, hg]

end Nd
