import Verif.Proof.Gaps
import Verif.Proof.ProgramRun
/-!
# Slices with gaps: the pipeline
-/
namespace Nd
open Spec Props

/-- The only input, if its reads return whole blocks. -/
theorem input_paced (h : Host) (p : Pipeline InoutFormat) (j : Joint) (file : InFile) (hB : 0 < h.block) (hfmt : p.inFormat.Reads .binary) (hj : j = .cat 1 ∨ j = .alone)
    (hfull : RawStream.Full h.block file.2) {d : DynByte} (hd : h.input p [Reader.open file.1 file.2] j.node = .ok d) :
    ∃ T, Paced d.src h.block T ∧ T d.st false 0 file.1.length false := by
  unfold Host.input at hd
  simp only at hd
  rw [if_pos (show p.inFormat.isBinary = true from hfmt)] at hd
  simp only [List.map_cons, List.map_nil] at hd
  rcases hj with rfl | rfl
  · simp only [Joint.node, Host.join] at hd
    cases hd
    exact ⟨_, CatStream.paced hB (RawStream.paced hB _) _, CatStream.new_paced (RawStream.new_paced hfull)⟩
  · simp only [Joint.node, Host.join] at hd
    cases hd
    exact ⟨_, RawStream.paced hB _, RawStream.new_paced hfull⟩

/-- The pipeline of `--width` over a single file that is read in whole blocks. -/
theorem pipeline_comb (h : Host) (scheds : List (Nat → Option Nat)) (out : String) (j : Job) (p : Pipeline InoutFormat) (f : Formatting) (hp : PipelineOf h scheds none (.scatter out) j p f)
    (file : InFile) (hB : 0 < h.block) (hsub : file.2 ∈ scheds) (hbare : j.Bare) {n : Nat} {r : RangeEnd × RangeEnd} (hsl : j.slicer = .width n r)
    (hst : j.regex = none ∧ j.invert = none ∧ j.extend = none ∧ j.merge = none ∧ j.lines = none) (hn : 0 < n) (hdvd : n ∣ h.block) (hlo : 0 ≤ r.1.at n) (hhi : 1 ≤ r.2.at n)
    (hroom : r.2.at n + 2 * n + 2 ≤ h.block) (hfull : RawStream.Full h.block file.2) (hlen : file.1.length < 2 ^ 48) :
    ∃ N, ∀ fuel, N < fuel →
      (∃ e, Failing scheds e ∧ p.spawnStream ((h.withFuel fuel).stages p [Reader.open file.1 file.2]) = .error e) ∨
      ∃ g, p.spawnStream ((h.withFuel fuel).stages p [Reader.open file.1 file.2]) = (h.withFuel fuel).scatter p (.scatter out) g ∧
        ∃ w ≤ N, (∀ (f : Formatting) fuel, w < fuel → Delivers (ScatterDrain.byteSrc g.src f h.block fuel) (Failing scheds) NlMargin (ScatterDrain.through h.block g.st) w
            ((slicesOf file.1 (strides file.1.length n (r.1.at n) (r.2.at n))).flatMap f.line)) ∧
          ∀ (f : Formatting) fuel (c : ScatterContext (List Char)), w + 1 < fuel →
            (∃ e, Failing scheds e ∧ ScatterDrain.scatter g.src f fuel (ScatterDrain.new g.st) c = .error e) ∨
            ScatterDrain.scatter g.src f fuel (ScatterDrain.new g.st) c = ScatterDrain.dumpSlices f 0 (slicesOf file.1 (strides file.1.length n (r.1.at n) (r.2.at n))) c := by
  obtain ⟨cut, patch, slicer, regex, invert, extend, lines, n1, n2, n3, n5, n6, n7, n4, hnodes⟩ := hp.nodes
  obtain ⟨b1, b2, b3, b4, b5⟩ := hbare
  obtain ⟨f1, f2, f3, f4, f5⟩ := hst
  rw [b3] at n1
  rw [b5] at n2
  rw [hsl] at n3
  rw [f1] at n5
  rw [f2] at n6
  rw [f3] at n7
  rw [f5] at n4
  cases cut with
  | some => exact n1.elim
  | none =>
  cases patch with
  | some => exact n2.elim
  | none =>
  cases regex with
  | some => exact n5.elim
  | none =>
  cases invert with
  | some => exact n6.elim
  | none =>
  cases extend with
  | some => exact n7.elim
  | none =>
  cases lines with
  | some => exact n4.elim
  | none =>
  rw [f4, if_pos b4] at hnodes
  simp only [optNode, List.nil_append] at hnodes
  cases slicer <;> simp only [Slicer.Node] at n3
  rename_i ps
  obtain ⟨m, fu, k1, k2, k3⟩ := n3
  obtain ⟨h1, h2, h3, h4, h5, h6, h7, h8, h9, h10, h11⟩ := ConstSlicerParams.fromRaw_comb hn k2 file.1.length _ _ k3
  have hhead := h10 hhi
  have ok : ConstSlicer.ParamsOk ps := ⟨by omega, by omega, h4, h7 hhi, h5, h6, h8 (by omega)⟩
  have hcod := hp.coding
  rw [b1] at hcod
  have hword : j.joint.word = 1 := by rcases b2 with b2 | b2 <;> rw [b2] <;> rfl
  have hcont : j.joint.join j.filler [file.1] = file.1 := by
    rcases b2 with b2 | b2 <;> rw [b2] <;> simp [Joint.join, Spec.cat, alignTo_one]
  have hmax : (2 : Nat) ^ 48 < usizeMax := by decide
  obtain ⟨w, hin⟩ := input_carries h p j.joint .binary j.filler [file] [file.1] scheds hB (by simp) (by simpa using hsub) hcod hp.word (by rw [hword]; decide) hp.filler
    (.cons rfl .nil) (fun c hc => by
      rw [List.mem_singleton] at hc
      rw [hc, hword, alignTo_one]
      omega) (fun h => absurd rfl h)
  refine ⟨w, fun fuel hf => ?_⟩
  have hcls : j.joint.node.cls = .placeholder := by rcases b2 with b2 | b2 <;> rw [b2] <;> rfl
  have hsp : p.spawnStream ((h.withFuel fuel).stages p [Reader.open file.1 file.2]) =
      match (h.withFuel fuel).input p [Reader.open file.1 file.2] j.joint.node with
      | .error e => .error e
      | .ok s => streamOf (((h.withFuel fuel).stages p [Reader.open file.1 file.2]).loop [.width ps, .scatter out] (none, .byte s)) := by
    unfold Pipeline.spawnStream
    rw [hnodes]
    simp only
    rw [if_neg (by simp), hcls]
    simp only
    rw [show ((h.withFuel fuel).stages p [Reader.open file.1 file.2]).input j.joint.node = (h.withFuel fuel).input p [Reader.open file.1 file.2] j.joint.node from rfl]
    cases (h.withFuel fuel).input p [Reader.open file.1 file.2] j.joint.node with
    | error => rfl
    | ok s =>
      simp only
      cases ((h.withFuel fuel).stages p [Reader.open file.1 file.2]).loop [.width ps, .scatter out] (none, .byte s) with
      | error => rfl
      | ok x => cases x <;> rfl
  rw [hsp]
  rcases hin fuel (by omega) with ⟨e, he, heq⟩ | ⟨d, heq, hd⟩
  · have heq : (h.withFuel fuel).input p [Reader.open file.1 file.2] j.joint.node = .error e := heq
    exact Or.inl ⟨e, he, by rw [heq]⟩
  · have heq : (h.withFuel fuel).input p [Reader.open file.1 file.2] j.joint.node = .ok d := heq
    rw [hcont] at hd
    obtain ⟨⟨w', hw', R, E, hR, _, hs0, _⟩, _, hpr⟩ := hd.feeds
    obtain ⟨T, hT, hT0⟩ := input_paced (h.withFuel fuel) p j.joint file hB hcod b2 hfull heq
    obtain ⟨st, hnew, hdel, hwr⟩ := ConstSlicer.gap_drains hR (fun _ h => h) hB hT ps ok (by rw [h2]; exact hdvd) (by omega) (show _ ≤ ((h.block : Nat) : Int) by rw [hhead, h2]; omega) hs0 hT0 hpr
      (by omega)
    rw [h11] at hdel hwr
    right
    rw [heq]
    simp only [Stages.loop, Stages.step]
    rw [show ((h.withFuel fuel).stages p [Reader.open file.1 file.2]).slicer (.width ps) d = (h.withFuel fuel).slicer p (.width ps) d from rfl]
    simp only [Host.slicer, attempt, hnew]
    rw [show ((h.withFuel fuel).stages p [Reader.open file.1 file.2]).scatter = (h.withFuel fuel).scatter p from rfl]
    refine ⟨{ src := ConstSlicer.segSrc d.src, st := st, cache := fun t => d.cache t.src }, ?_, w', hw', hdel, hwr⟩
    cases (h.withFuel fuel).scatter p (.scatter out) { src := ConstSlicer.segSrc d.src, st := st, cache := fun t => d.cache t.src } <;> rfl

/-- The same if it prints. -/
theorem pipeline_columns (h : Host) (scheds : List (Nat → Option Nat)) (j : Job) (p : Pipeline InoutFormat) (f : Formatting) (hp : PipelineOf h scheds none (.scatter "-") j p f)
    (file : InFile) (hB : 0 < h.block) (hsub : file.2 ∈ scheds) (hbare : j.Bare) {n : Nat} {r : RangeEnd × RangeEnd} (hsl : j.slicer = .width n r)
    (hst : j.regex = none ∧ j.invert = none ∧ j.extend = none ∧ j.merge = none ∧ j.lines = none) (hn : 0 < n) (hdvd : n ∣ h.block) (hlo : 0 ≤ r.1.at n) (hhi : 1 ≤ r.2.at n)
    (hroom : r.2.at n + 2 * n + 2 ≤ h.block) (hfull : RawStream.Full h.block file.2) (hlen : file.1.length < 2 ^ 48) :
    ∃ N, ∀ fuel, N < fuel → Results (Failing scheds) (p.spawnStream ((h.withFuel fuel).stages p [Reader.open file.1 file.2])) fun d =>
      ∃ w ≤ N, Delivers d.src (Failing scheds) NlMargin d.st w ((slicesOf file.1 (strides file.1.length n (r.1.at n) (r.2.at n))).flatMap f.line) := by
  obtain ⟨N, hN⟩ := pipeline_comb h scheds "-" j p f hp file hB hsub hbare hsl hst hn hdvd hlo hhi hroom hfull hlen
  refine ⟨N, fun fuel hf => ?_⟩
  rcases hN fuel hf with ⟨e, he, heq⟩ | ⟨g, heq, w, hw, hdel, _⟩
  · exact Or.inl ⟨e, he, heq⟩
  · right
    rw [heq]
    simp only [Host.scatter, attempt, hp.out rfl]
    exact ⟨_, rfl, w, hw, hdel f fuel (by omega)⟩

end Nd
