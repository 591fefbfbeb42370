import Verif.Proof.RegexFlow
import Verif.Proof.ProgramRun
/-!
# `--regex` behind `--width` in a pipeline, over files of any length
-/
namespace Nd
open Spec Props

/-- Adjacent slices of a stream of any length, searched: the drains see the matches in some of the slices. -/
theorem regex_drains {σ : Type} {find : Bytes → List Seg} (hf : Searcher find) (hne : ∀ l, ∀ m ∈ find l, 0 < m.len) {Src : ByteSrc σ} {F M L} {s : σ} {w : Nat} {content : Bytes}
    (h : ServesAmply Src F M L s w content) (hM : ∀ m, M m → AnyMargin m) (cache : RegexSlicer (ConstSlicer σ) → Option TempFile) {B : Nat} (hB : 0 < B) (hlen : content.length < 2 ^ 64)
    (p : ConstSlicerParams) (fuel pitch : Nat) (m : SegmentMapper) (start stop : Int) (hp : 0 < pitch) (hpr : ConstSlicerParams.fromRaw fuel pitch m = .ok p)
    (hm : m.evaluate (0, pitch) (0, pitch) = (start, stop)) (hadj : stop - start = pitch) (hstop : 1 ≤ stop) (hL : 2 * pitch + stop.toNat + 1 ≤ L) :
    ∃ st, ConstSlicer.new s p = .ok st ∧ ∃ sub, sub.Sublist (strides content.length pitch start stop) ∧ (∀ x ∈ strides content.length pitch start stop, x.tail + pitch ≤ L → x ∈ sub) ∧
      Drains { src := RegexSlicer.segSrc find (ConstSlicer.segSrc Src), st := RegexSlicer.new st, cache := cache } F B (w + 1) (slicesOf content (searched find content sub)) True := by
  obtain ⟨R, E, hR, hA, hs, hE⟩ := h
  obtain ⟨h1, h2, h3, h4, h5, h6, h7, h8, h9, h10, h11⟩ := ConstSlicerParams.fromRaw_comb hp hpr content.length start stop hm
  have hhead := h10 hstop
  have ok : ConstSlicer.ParamsOk p := ⟨by omega, by omega, h4, h7 hstop, h5, h6, h8 (by omega)⟩
  have hesc : ConstSlicer.escape p ≤ stop := by
    unfold ConstSlicer.escape
    split <;> omega
  have hspan : p.span = p.pitch := by omega
  have hL' : ConstSlicer.Manner.any.need p.pitch p.span (ConstSlicer.escape p) ≤ L := by
    simp only [ConstSlicer.Manner.need]
    omega
  obtain ⟨st, hst, hrel⟩ := ConstSlicer.new_spec (Src := Src) .any p ok s w content hs hE hL'
  have hfa := ConstSlicer.faithful hR hA hM .any p.pitch p.span (p.tail + p.span).toNat (ConstSlicer.escape p) hL'
  rw [h11] at hrel
  have hfl : Flush (ConstSlicer.segSrc Src) (ConstSlicer.Rel Src R E L .any p.pitch p.span (p.tail + p.span).toNat (ConstSlicer.escape p)) := by
    rw [hspan]
    exact ConstSlicer.flush L .any p.pitch _ _
  refine ⟨st, hst, ?_⟩
  have heag := ConstSlicer.eager hR hA .any p.pitch p.span (p.tail + p.span).toNat (ConstSlicer.escape p) hL'
  obtain ⟨sub, hsub, hin, ht⟩ := RegexSlicer.trace hf hne hfa hfl heag rfl (by simp [ConstSlicer.kind, hspan]) w (RegexSlicer.new st) 0 content _ hrel rfl fun x hx => (strides_mem hx).1
  exact ⟨sub, hsub, fun x hx h => hin x hx (Nat.zero_le _) (by rw [h2]; exact h), Rounds.drains (g := { src := RegexSlicer.segSrc find (ConstSlicer.segSrc Src), st := RegexSlicer.new st, cache := cache }) (Trace.rounds (RegexSlicer.over hfa)) hB ht hlen⟩

/-- The pipeline of `--width --regex` over one file. -/
theorem pipeline_searched (h : Host) (scheds : List (Nat → Option Nat)) (out : String) (j : Job) (p : Pipeline InoutFormat) (f : Formatting) (hp : PipelineOf h scheds none (.scatter out) j p f)
    (files : List InFile) (contents : List Bytes) (hB : 0 < h.block) (hc : h.checks = false) (hne : files ≠ []) (hsub : ∀ f ∈ files, f.2 ∈ scheds) (hw0 : 0 < j.joint.word)
    (hdec : List.Forall₂ (fun f c => j.coding.Decodes j.filler f.1 c) files contents) (hlen : ∀ c ∈ contents, (alignTo j.joint.word j.filler c).length ≤ usizeMax)
    (htext : j.coding ≠ .binary → ∀ f ∈ files, f.1.length % j.joint.word = 0 ∧ ShortLines h.block f.1) (hpad : j.pad.1 ≤ h.block ∧ j.pad.2 ≤ h.block)
    (hlen' : j.pad.1 + (j.joint.join j.filler contents).length + j.pad.2 < usizeMax) (hlen'' : (j.stream contents).length < 2 ^ 48)
    {n : Nat} {r : RangeEnd × RangeEnd} {find : Bytes → List Seg} (hsl : j.slicer = .width n r) (hre : j.regex = some find) (hf : Searcher find) (hnz : ∀ l, ∀ m ∈ find l, 0 < m.len)
    (hst : j.invert = none ∧ j.extend = none ∧ j.merge = none ∧ j.lines = none) (hn : 0 < n) (hadj : r.2.at n - r.1.at n = n) (hhi : 1 ≤ r.2.at n)
    (hroom : 2 * n + (r.2.at n).toNat + 1 ≤ (h.block - 1784) / 8) :
    ∃ N, ∀ fuel, N < fuel →
      (∃ e, Failing scheds e ∧ p.spawnStream ((h.withFuel fuel).stages p (files.map fun f => Reader.open f.1 f.2)) = .error e) ∨
      ∃ g, p.spawnStream ((h.withFuel fuel).stages p (files.map fun f => Reader.open f.1 f.2)) = (h.withFuel fuel).scatter p (.scatter out) g ∧
        ∃ w ≤ N, ∃ sub, sub.Sublist (strides (j.stream contents).length n (r.1.at n) (r.2.at n)) ∧
          (∀ x ∈ strides (j.stream contents).length n (r.1.at n) (r.2.at n), x.tail + n ≤ (h.block - 1784) / 8 → x ∈ sub) ∧
          Drains g (Failing scheds) h.block w (slicesOf (j.stream contents) (searched find (j.stream contents) sub)) True := by
  obtain ⟨cut, patch, slicer, regex, invert, extend, lines, n1, n2, n3, n5, n6, n7, n4, hnodes⟩ := hp.nodes
  obtain ⟨w', hfl⟩ := pipeline_carries h scheds j p files contents hB hc hne hsub hp.coding hp.word hp.filler hp.patch hw0 hdec hlen htext hpad hlen' n1 n2 (by simp [optNode]) hnodes
  obtain ⟨f2, f3, f4, f5⟩ := hst
  rw [hsl] at n3
  rw [hre] at n5
  rw [f2] at n6
  rw [f3] at n7
  rw [f5] at n4
  cases regex with
  | none => exact n5.elim
  | some pattern =>
  cases invert with
  | some => exact n6.elim
  | none =>
  cases extend with
  | some => exact n7.elim
  | none =>
  cases lines with
  | some => exact n4.elim
  | none =>
  cases slicer <;> simp only [Slicer.Node] at n3
  rename_i ps
  obtain ⟨m, fu, k1, k2, k3⟩ := n3
  refine ⟨w' + 1, fun fuel hfu => ?_⟩
  rcases hfl fuel (by omega) with ⟨e, he, heq⟩ | ⟨d, hd, _, heq⟩
  · exact Or.inl ⟨e, he, heq _⟩
  · right
    obtain ⟨w, hw, ha⟩ := hd.amply
    obtain ⟨st, hnew, sub, hsub', hin, hdr⟩ := regex_drains hf hnz ha (fun _ h => h) (fun t => d.cache t.src.src) hB (by omega : (j.stream contents).length < 2 ^ 64) ps fu n m _ _ hn k2 k3 hadj hhi hroom
    refine ⟨_, ?_, w + 1, by omega, sub, hsub', hin, hdr⟩
    rw [← stagesWith_self, heq, stagesWith_self, f4]
    simp only [optNode, List.nil_append, List.cons_append, List.append_nil, Stages.loop, Stages.step]
    rw [show ((h.withFuel fuel).stages p (files.map fun f => Reader.open f.1 f.2)).slicer (.width ps) d = (h.withFuel fuel).slicer p (.width ps) d from rfl]
    simp only [Host.slicer, attempt, hnew]
    rw [show ∀ g, ((h.withFuel fuel).stages p (files.map fun f => Reader.open f.1 f.2)).manipulate (.regex pattern) g = (h.withFuel fuel).manipulate (.regex pattern) g from fun _ => rfl]
    simp only [Host.manipulate, show (h.withFuel fuel).regex pattern = .ok find from n5, attempt]
    rw [show ((h.withFuel fuel).stages p (files.map fun f => Reader.open f.1 f.2)).scatter = (h.withFuel fuel).scatter p from rfl]
    generalize (h.withFuel fuel).scatter p (.scatter out) _ = x
    cases x <;> rfl

end Nd
