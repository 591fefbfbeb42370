import Verif.Proof.ProgramSmall
import Verif.Proof.Stroll
import Verif.Proof.Wide
/-!
# The whole program
-/
namespace Nd
open Spec Props

/-! ## The whole pipeline -/

/-- The formatter of a way of printing. -/
def _root_.Nd.Spec.Printing.Formats : Printing → Formatting → Prop
  | .binary, f => f.style = .binary
  | .text .hex, f => f.style = .hhh
  | .text .dec, f => f.style = .ddh

/-- The pipeline of a job that ends in `drain`, behind a tee if there is a command `back` for `--patch-back`. -/
structure PipelineOf (h : Host) (scheds : List (Nat → Option Nat)) (back : Option String) (drain : Node) (j : Job) (p : Pipeline InoutFormat) (f : Formatting) : Prop where
  coding : p.inFormat.Reads j.coding
  word : p.wordSize = j.joint.word
  filler : UInt8.ofNat p.filler = j.filler
  patch : p.patchFormat.fields = .ok (.hex, .hex)
  out : back = none → p.outFormat.formatting = .ok f
  fed : p.patchFormat.formatting = .ok ⟨.hhh, j.slicer.columns⟩
  nodes : ∃ cut patch slicer regex invert extend lines, RangesNode j.cut cut ∧ PatchFile h scheds j.patch patch ∧ j.slicer.Node h scheds slicer ∧ RegexNode h j.regex regex ∧
    MappersNode j.invert invert ∧ MappersNode j.extend extend ∧ RangesNode j.lines lines ∧
    p.nodes = j.joint.node :: (optNode .cut cut ++ (if j.pad = (0, 0) then [] else [.clipper { pad := j.pad, clip := (0, 0), len := usizeMax }]) ++ optNode .patch patch ++
      (optNode (fun _ => .tee) back ++ (slicer :: (optNode .regex regex ++ optNode .bridge invert ++ optNode .extend extend ++ optNode .merge j.merge ++ optNode .lines lines ++ [drain]))))

/-- What the loop over the nodes has to end in. -/
def streamOf : Except Err (NodeInstance DynByte DynSeg) → Except Err DynByte
  | .error e => .error e
  | .ok (.byte s) => .ok s
  | .ok (.segment _) => .error .panic

theorem stagesWith_self (h : Host) (p : Pipeline InoutFormat) (srcs : List Reader) : h.stagesWith (h.patchBack p) p srcs = h.stages p srcs := rfl

/-- Before the last node it does not matter how the `PatchDrain` is constructed. -/
theorem loop_with (h : Host) (p : Pipeline InoutFormat) (srcs : List Reader) (back : Node → DynSeg → Except Err DynByte) :
    ∀ (ns : List Node) (y : Option Unit) (x : NodeInstance DynByte DynSeg), (∀ n ∈ ns, n ≠ .tee ∧ ∀ c, n ≠ .patchBack c) → ∀ rest,
      (∀ e, (h.stages p srcs).loop ns (y, x) = .error e → (h.stagesWith back p srcs).loop (ns ++ rest) (y, x) = .error e) ∧
      ∀ x', (h.stages p srcs).loop ns (y, x) = .ok x' → (h.stagesWith back p srcs).loop (ns ++ rest) (y, x) = (h.stagesWith back p srcs).loop rest (y, x')
  | [], _, _, _, _ => ⟨(fun _ h => by cases h), fun _ h => by cases h; rfl⟩
  | n :: ns, y, x, hns, rest => by
    have h1 : (h.stagesWith back p srcs).step n (y, x) = (h.stages p srcs).step n (y, x) := by
      have := (hns n (by simp)).2
      cases n <;> cases x <;> first | rfl | exact absurd rfl (this _)
    have h2 : ∀ st, (h.stages p srcs).step n (y, x) = .ok st → st.1 = y := by
      intro st hst
      have h3 := hns n (by simp)
      cases n <;> cases x <;> simp only [Stages.step] at hst <;>
        first
        | exact absurd rfl h3.1
        | exact absurd rfl (h3.2 _)
        | (cases hst <;> rfl)
        | (split at hst <;> cases hst; rfl)
    have h4 : ∀ (T : Stages DynByte DynSeg Unit) ns, T.loop (n :: ns) (y, x) = match T.step n (y, x) with | .error e => .error e | .ok st => T.loop ns st := fun T _ => by rw [Stages.loop]; cases T.step n (y, x) <;> rfl
    rw [List.cons_append, h4, h4, h1]
    cases hst : (h.stages p srcs).step n (y, x) with
    | error e => exact ⟨fun _ h => h, (fun _ h => by cases h)⟩
    | ok st =>
      obtain ⟨y', x'⟩ := st
      have : y' = y := h2 _ hst
      subst this
      exact loop_with h p srcs back ns y' x' (fun m hm => hns m (by simp [hm])) rest

/-- The input, read as bytes, is not changed in front of the slicer. -/
def _root_.Nd.Spec.Job.Bare (j : Job) : Prop := j.coding = .binary ∧ (j.joint = .cat 1 ∨ j.joint = .alone) ∧ j.cut = none ∧ j.pad = (0, 0) ∧ j.patch = none

/-- The stream of bytes in front of the tee and the slicer. -/
theorem pipeline_carries (h : Host) (scheds : List (Nat → Option Nat)) (j : Job) (p : Pipeline InoutFormat)
    (files : List InFile) (contents : List Bytes) (hB : 0 < h.block) (hc : h.checks = false) (hne : files ≠ []) (hsub : ∀ f ∈ files, f.2 ∈ scheds)
    (hcod : p.inFormat.Reads j.coding) (hword : p.wordSize = j.joint.word) (hfil : UInt8.ofNat p.filler = j.filler) (hpat : p.patchFormat.fields = .ok (.hex, .hex)) (hw0 : 0 < j.joint.word)
    (hdec : List.Forall₂ (fun f c => j.coding.Decodes j.filler f.1 c) files contents) (hlen : ∀ c ∈ contents, (alignTo j.joint.word j.filler c).length ≤ usizeMax)
    (htext : j.coding ≠ .binary → ∀ f ∈ files, f.1.length % j.joint.word = 0 ∧ ShortLines h.block f.1) (hpad : j.pad.1 ≤ h.block ∧ j.pad.2 ≤ h.block)
    (hlen' : j.pad.1 + (j.joint.join j.filler contents).length + j.pad.2 < usizeMax) {cut patch : Option String} (n1 : RangesNode j.cut cut) (n2 : PatchFile h scheds j.patch patch)
    {rest : List Node} (hr : rest ≠ []) (hn : p.nodes = j.joint.node :: (optNode .cut cut ++ (if j.pad = (0, 0) then [] else [.clipper { pad := j.pad, clip := (0, 0), len := usizeMax }]) ++
      optNode .patch patch ++ rest)) :
    ∃ w, ∀ fuel, w < fuel →
      (∃ e, Failing scheds e ∧ ∀ back, p.spawnStream ((h.withFuel fuel).stagesWith back p (files.map fun f => Reader.open f.1 f.2)) = .error e) ∨
      ∃ d : DynByte, Carries d.src d.st (Failing scheds) h.block w (j.stream contents) ∧ (∀ file, files = [file] → j.Bare → ∀ H, (∀ i k, file.2 i = some k → H ≤ min (max 1 k) h.block) →
        Swells d (Failing scheds) H w (j.stream contents) False) ∧ ∀ back, p.spawnStream ((h.withFuel fuel).stagesWith back p (files.map fun f => Reader.open f.1 f.2)) =
        streamOf (((h.withFuel fuel).stagesWith back p (files.map fun f => Reader.open f.1 f.2)).loop rest (none, .byte d)) := by
  obtain ⟨w, hin⟩ := input_carries h p j.joint j.coding j.filler files contents scheds hB hne hsub hcod hword hw0 hfil hdec hlen htext
  obtain ⟨w', hfl⟩ := filters_carry h p (files.map fun f => Reader.open f.1 f.2) j scheds hB hc hfil hpat n1 n2 hpad w (j.joint.join j.filler contents) hlen'
  refine ⟨w + w' + CatStream.fills (files.map fun f => (f.1.length, f.1)), fun fuel hf => ?_⟩
  have hcls : j.joint.node.cls = .placeholder := by cases j.joint <;> rfl
  have hsp : ∀ {ns}, p.nodes = j.joint.node :: ns → ns ≠ [] → ∀ T : Stages DynByte DynSeg Unit, p.spawnStream T =
      match T.input j.joint.node with | .error e => .error e | .ok s => streamOf (T.loop ns (none, .byte s)) := by
    intro ns h1 h2 T
    unfold Pipeline.spawnStream
    rw [h1]
    simp only
    rw [if_neg h2, hcls]
    simp only
    cases T.input j.joint.node with
    | error => rfl
    | ok s =>
      simp only
      cases T.loop ns (none, .byte s) with
      | error => rfl
      | ok x => cases x <;> rfl
  simp only [hsp hn (by simp [hr])]
  rcases hin fuel (by omega) with ⟨e, he, heq⟩ | ⟨d, heq, hd⟩
  · refine Or.inl ⟨e, he, fun back => ?_⟩
    rw [show ((h.withFuel fuel).stagesWith back p (files.map fun f => Reader.open f.1 f.2)).input j.joint.node = .error e from heq]
  · have := hfl fuel (by omega) d hd [] (fun x => (∃ e, Failing scheds e ∧ x = .error e) ∨ ∃ d' : DynByte, Carries d'.src d'.st (Failing scheds) h.block w' (j.stream contents) ∧
        x = .ok (.byte d'))
      (fun e he => Or.inl ⟨e, he, rfl⟩) (fun d' hd' => Or.inr ⟨d', hd', rfl⟩)
    rw [List.append_nil] at this
    have hw := fun back => loop_with (h.withFuel fuel) p (files.map fun f => Reader.open f.1 f.2) back _ none (.byte d) (show ∀ n ∈ optNode .cut cut ++
        (if j.pad = (0, 0) then [] else [.clipper { pad := j.pad, clip := (0, 0), len := usizeMax }]) ++ optNode .patch patch, n ≠ .tee ∧ ∀ c, n ≠ .patchBack c from by
      intro n hn
      rw [List.mem_append, List.mem_append] at hn
      rcases hn with (hn | hn) | hn
      · cases cut <;> simp [optNode] at hn
        rw [hn]
        simp
      · split at hn <;> simp at hn
        rw [hn]
        simp
      · cases patch <;> simp [optNode] at hn
        rw [hn]
        simp) rest
    rcases this with ⟨e, he, heq'⟩ | ⟨d', hd', heq'⟩
    · refine Or.inl ⟨e, he, fun back => ?_⟩
      rw [show ((h.withFuel fuel).stagesWith back p (files.map fun f => Reader.open f.1 f.2)).input j.joint.node = .ok d from heq]
      simp only
      rw [(hw back).1 e heq']
      rfl
    · refine Or.inr ⟨d', hd'.le (by omega), fun file hfile hbare H hH => ?_, fun back => ?_⟩
      · obtain ⟨b1, b2, b3, b4, b5⟩ := hbare
        subst hfile
        have hcut : cut = none := by
          rw [b3] at n1
          cases cut with
          | none => rfl
          | some => exact n1.elim
        have hpatch : patch = none := by
          rw [b5] at n2
          cases patch with
          | none => rfl
          | some => exact n2.elim
        subst hcut hpatch
        rw [if_pos b4] at heq'
        cases heq'
        rw [b1] at hcod hdec
        have := input_swells h p j.joint file scheds hB (hsub _ (by simp)) hcod b2 hword hH fuel (by simp only [List.map_cons, List.map_nil] at hf; omega) heq
        have hc : j.stream contents = file.1 := by
          cases hdec with
          | cons h1 h2 =>
            cases h2
            have h1 : _ = file.1 := h1
            subst h1
            unfold Job.stream Job.filtered
            rw [b3, b4, b5]
            rcases b2 with b2 | b2 <;> rw [b2] <;> simp [Joint.join, Spec.cat, Spec.pad, alignTo_one]
        rw [hc]
        exact this.le (by simp only [List.map_cons, List.map_nil]; omega)
      rw [show ((h.withFuel fuel).stagesWith back p (files.map fun f => Reader.open f.1 f.2)).input j.joint.node = .ok d from heq]
      simp only
      rw [(hw back).2 _ heq']

/-- The stream of slices that reaches the drain. -/
theorem pipeline_drains (h : Host) (scheds : List (Nat → Option Nat)) (file : String) (j : Job) (p : Pipeline InoutFormat) (f : Formatting) (hp : PipelineOf h scheds none (.scatter file) j p f)
    (files : List InFile) (contents : List Bytes) (hB : 0 < h.block) (hc : h.checks = false) (hne : files ≠ []) (hsub : ∀ f ∈ files, f.2 ∈ scheds) (hw0 : 0 < j.joint.word)
    (hdec : List.Forall₂ (fun f c => j.coding.Decodes j.filler f.1 c) files contents) (hlen : ∀ c ∈ contents, (alignTo j.joint.word j.filler c).length ≤ usizeMax)
    (htext : j.coding ≠ .binary → ∀ f ∈ files, f.1.length % j.joint.word = 0 ∧ ShortLines h.block f.1) (hpad : j.pad.1 ≤ h.block ∧ j.pad.2 ≤ h.block)
    (hlen' : j.pad.1 + (j.joint.join j.filler contents).length + j.pad.2 < usizeMax) (hlen'' : (j.stream contents).length < 2 ^ 48)
    (hfit : j.Suits h.block (files.map Prod.snd) (j.stream contents) ∨ ((j.stream contents).length < h.block ∧ j.Orderly (j.stream contents))) {segs : List Seg} (hs : j.Slices (j.stream contents) segs) :
    ∃ N, ∀ fuel, N < fuel →
      (∃ e, Failing scheds e ∧ p.spawnStream ((h.withFuel fuel).stages p (files.map fun f => Reader.open f.1 f.2)) = .error e) ∨
      ∃ g, p.spawnStream ((h.withFuel fuel).stages p (files.map fun f => Reader.open f.1 f.2)) = (h.withFuel fuel).scatter p (.scatter file) g ∧
        ∃ w ≤ N, Drains g (Failing scheds) h.block w (slicesOf (j.stream contents) segs) (j.Suits h.block (files.map Prod.snd) (j.stream contents) ∨ j.Pours (j.stream contents) segs) := by
  obtain ⟨cut, patch, slicer, regex, invert, extend, lines, n1, n2, n3, n5, n6, n7, n4, hn⟩ := hp.nodes
  obtain ⟨w', hfl⟩ := pipeline_carries h scheds j p files contents hB hc hne hsub hp.coding hp.word hp.filler hp.patch hw0 hdec hlen htext hpad hlen' n1 n2 (by simp [optNode]) hn
  have hsl : ∃ N, ∀ fuel, N < fuel → ∀ d' : DynByte, Carries d'.src d'.st (Failing scheds) h.block w' (j.stream contents) →
      (∀ file, files = [file] → j.Bare → ∀ H, (∀ i k, file.2 i = some k → H ≤ min (max 1 k) h.block) → Swells d' (Failing scheds) H w' (j.stream contents) False) →
      ∃ g, (∀ rest, ((h.withFuel fuel).stages p (files.map fun f => Reader.open f.1 f.2)).loop (slicer :: (optNode .regex regex ++ optNode .bridge invert ++ optNode .extend extend ++
          optNode .merge j.merge ++ optNode .lines lines ++ rest)) (none, .byte d') = ((h.withFuel fuel).stages p (files.map fun f => Reader.open f.1 f.2)).loop rest (none, .segment g)) ∧
        ∃ w'' ≤ w' + 2, Drains g (Failing scheds) h.block w'' (slicesOf (j.stream contents) segs) (j.Suits h.block (files.map Prod.snd) (j.stream contents) ∨ j.Pours (j.stream contents) segs) := by
    by_cases hfit' : j.Suits h.block (files.map Prod.snd) (j.stream contents)
    · rcases id hfit' with hfits | hguide | hwalk | hwide
      rotate_left
      · obtain ⟨N, hN⟩ := guide_tracked h p (files.map fun f => Reader.open f.1 f.2) j scheds hB hguide n3 n5 n6 n7 n4 hs (by omega)
        refine ⟨N, fun fuel hf d' hd' hsw => ?_⟩
        obtain ⟨g, h1, w'', hw'', K, hK, _, ht⟩ := hN fuel hf hd'.feeds
        have h2 := ht.drains hK (by omega) hB
        exact ⟨g, h1 none, w'', by omega, h2.prints, fun _ => h2.writes trivial⟩
      · obtain ⟨es, H, sched, q1, q2, q3, ⟨q4, q5⟩, q6, q7⟩ := hwalk
        refine ⟨(j.stream contents).length, fun fuel hf d' hd' hsw => ?_⟩
        obtain ⟨file, hfile, rfl⟩ : ∃ file, files = [file] ∧ file.2 = sched := by
          match files, q6 with
          | [file], h => exact ⟨file, rfl, by simpa using h⟩
        obtain ⟨g, h1, w'', hw'', K, hK, _, ht⟩ := walk_tracked h p (files.map fun f => Reader.open f.1 f.2) j scheds q1 q2 q4 q5 n3 n5 n6 n7 n4 hs fuel hf (hsw file hfile q3 H q7)
        have h2 := ht.drains hK (by omega) hB
        exact ⟨g, h1 none, w'', by omega, h2.prints, fun _ => h2.writes trivial⟩
      · refine ⟨0, fun fuel hf d' hd' hsw => ?_⟩
        obtain ⟨g, h1, w'', hw'', K, hK, _, ht⟩ := wide_tracked (h.withFuel fuel) p (files.map fun f => Reader.open f.1 f.2) j scheds hwide n3 n5 n6 n7 n4 hs hd'.feeds
        have h2 := ht.drains hK (by omega) hB
        exact ⟨g, h1 none, w'', by omega, h2.prints, fun _ => h2.writes trivial⟩
      refine ⟨w', fun fuel hf d' hd' hsw => ?_⟩
      obtain ⟨g, h1, w'', hw'', h2⟩ := slicing_drains (h.withFuel fuel) p (files.map fun f => Reader.open f.1 f.2) j hB hfits n3 n5 n6 n7 n4 hc hs (by unfold usizeMax; omega) hd'
      exact ⟨g, h1, w'', hw'', h2.prints, fun _ => h2.writes trivial⟩
    · obtain ⟨hshort, ho⟩ := hfit.resolve_left hfit'
      obtain ⟨N, hN⟩ := small_drains h p (files.map fun f => Reader.open f.1 f.2) j scheds hB hc ho n3 n5 n6 n7 n4 hs hshort hlen''
      refine ⟨N, fun fuel hf d' hd' hsw => ?_⟩
      obtain ⟨g, h1, h2, _⟩ := hN fuel hf hd'.feeds
      exact ⟨g, h1 none, 0, Nat.zero_le _, h2.prints, fun hp => h2.writes (hp.resolve_left hfit')⟩
  obtain ⟨N, hsl⟩ := hsl
  refine ⟨w' + N + 2, fun fuel hf => ?_⟩
  rcases hfl fuel (by omega) with h | ⟨d', hd', hsw, heq⟩
  · obtain ⟨e, he, h⟩ := h
    exact Or.inl ⟨e, he, h _⟩
  · right
    obtain ⟨g, h1, w'', hw'', h2⟩ := hsl fuel (by omega) d' hd' hsw
    refine ⟨g, ?_, w'', by omega, h2⟩
    rw [← stagesWith_self, heq, stagesWith_self]
    simp only [optNode, List.nil_append] at h1 ⊢
    rw [h1]
    simp only [Stages.loop, Stages.step]
    rw [show ((h.withFuel fuel).stages p (files.map fun f => Reader.open f.1 f.2)).scatter (.scatter file) g = (h.withFuel fuel).scatter p (.scatter file) g from rfl]
    cases (h.withFuel fuel).scatter p (.scatter file) g <;> rfl

/-- The stream of slices that reaches the slicing thread of `--patch-back`. -/
theorem pipeline_threads (h : Host) (scheds : List (Nat → Option Nat)) (command : String) (j : Job) (p : Pipeline InoutFormat) (f : Formatting)
    (hp : PipelineOf h scheds (some command) (.patchBack command) j p f)
    (files : List InFile) (contents : List Bytes) (hB : 0 < h.block) (hc : h.checks = false) (hne : files ≠ []) (hsub : ∀ f ∈ files, f.2 ∈ scheds) (hw0 : 0 < j.joint.word)
    (hdec : List.Forall₂ (fun f c => j.coding.Decodes j.filler f.1 c) files contents) (hlen : ∀ c ∈ contents, (alignTo j.joint.word j.filler c).length ≤ usizeMax)
    (htext : j.coding ≠ .binary → ∀ f ∈ files, f.1.length % j.joint.word = 0 ∧ ShortLines h.block f.1) (hpad : j.pad.1 ≤ h.block ∧ j.pad.2 ≤ h.block)
    (hlen' : j.pad.1 + (j.joint.join j.filler contents).length + j.pad.2 < usizeMax) (hlen'' : (j.stream contents).length < 2 ^ 48)
    (hfit : j.Suits h.block (files.map Prod.snd) (j.stream contents) ∨ ((j.stream contents).length < h.block ∧ j.Orderly (j.stream contents))) {segs : List Seg} (hs : j.Slices (j.stream contents) segs)
    (hns : ∀ rs, j.slicer ≠ .slice rs) (hl : j.lines = none) (hpo : j.Suits h.block (files.map Prod.snd) (j.stream contents) ∨ j.Pours (j.stream contents) segs) :
    ∃ N, ∀ fuel, N < fuel →
      (∃ e, Failing scheds e ∧ ∀ back, p.spawnStream ((h.withFuel fuel).stagesWith back p (files.map fun f => Reader.open f.1 f.2)) = .error e) ∨
      ∃ g, (∀ back, p.spawnStream ((h.withFuel fuel).stagesWith back p (files.map fun f => Reader.open f.1 f.2)) = back (.patchBack command) g) ∧
        ∃ w ≤ N, Threads g (Failing scheds) h.block w (j.stream contents) (slicesOf (j.stream contents) segs) := by
  obtain ⟨cut, patch, slicer, regex, invert, extend, lines, n1, n2, n3, n5, n6, n7, n4, hn⟩ := hp.nodes
  obtain ⟨w', hfl⟩ := pipeline_carries h scheds j p files contents hB hc hne hsub hp.coding hp.word hp.filler hp.patch hw0 hdec hlen htext hpad hlen' n1 n2 (by simp [optNode]) hn
  have hsl : ∃ N, ∀ fuel, N < fuel → ∀ d' : DynByte, Feeds d' (Failing scheds) h.block w' (j.stream contents) True →
      (∀ file, files = [file] → j.Bare → ∀ H, (∀ i k, file.2 i = some k → H ≤ min (max 1 k) h.block) → Swells d' (Failing scheds) H w' (j.stream contents) True) →
      ∃ g, (∀ y rest, ((h.withFuel fuel).stages p (files.map fun f => Reader.open f.1 f.2)).loop (slicer :: (optNode .regex regex ++ optNode .bridge invert ++ optNode .extend extend ++
          optNode .merge j.merge ++ optNode .lines lines ++ rest)) (y, .byte d') = ((h.withFuel fuel).stages p (files.map fun f => Reader.open f.1 f.2)).loop rest (y, .segment g)) ∧
        ∃ w'' ≤ w', Threads g (Failing scheds) h.block w'' (j.stream contents) (slicesOf (j.stream contents) segs) := by
    by_cases hfit' : j.Suits h.block (files.map Prod.snd) (j.stream contents)
    · rcases id hfit' with hfits | hguide | hwalk | hwide
      rotate_left
      · obtain ⟨N, hN⟩ := guide_tracked h p (files.map fun f => Reader.open f.1 f.2) j scheds hB hguide n3 n5 n6 n7 n4 hs (by omega)
        refine ⟨N, fun fuel hf d' hd' hsw => ?_⟩
        obtain ⟨g, h1, w'', hw'', K, hK, hfull, ht⟩ := hN fuel hf hd'
        exact ⟨g, h1, w'', hw'', ht.threads hK hfull (by omega) _⟩
      · obtain ⟨es, H, sched, q1, q2, q3, ⟨q4, q5⟩, q6, q7⟩ := hwalk
        refine ⟨(j.stream contents).length, fun fuel hf d' hd' hsw => ?_⟩
        obtain ⟨file, hfile, rfl⟩ : ∃ file, files = [file] ∧ file.2 = sched := by
          match files, q6 with
          | [file], h => exact ⟨file, rfl, by simpa using h⟩
        obtain ⟨g, h1, w'', hw'', K, hK, hfull, ht⟩ := walk_tracked h p (files.map fun f => Reader.open f.1 f.2) j scheds q1 q2 q4 q5 n3 n5 n6 n7 n4 hs fuel hf (hsw file hfile q3 H q7)
        exact ⟨g, h1, w'', hw'', ht.threads hK hfull (by omega) _⟩
      · refine ⟨0, fun fuel hf d' hd' hsw => ?_⟩
        obtain ⟨g, h1, w'', hw'', K, hK, hfull, ht⟩ := wide_tracked (h.withFuel fuel) p (files.map fun f => Reader.open f.1 f.2) j scheds hwide n3 n5 n6 n7 n4 hs hd'
        exact ⟨g, h1, w'', hw'', ht.threads hK hfull (by omega) _⟩
      refine ⟨w', fun fuel hf d' hd' hsw => ?_⟩
      rw [hl] at n4
      cases lines with
      | some => exact n4.elim
      | none =>
        obtain ⟨g, h1, h2⟩ := slicing_threads (h.withFuel fuel) p (files.map fun f => Reader.open f.1 f.2) j hfits hns hl n3 n5 n6 n7 hs (by unfold usizeMax; omega) hd'
        refine ⟨g, fun y rest => ?_, h2⟩
        simpa [optNode] using h1 y rest
    · obtain ⟨hshort, ho⟩ := hfit.resolve_left hfit'
      obtain ⟨N, hN⟩ := small_drains h p (files.map fun f => Reader.open f.1 f.2) j scheds hB hc ho n3 n5 n6 n7 n4 hs hshort hlen''
      refine ⟨N, fun fuel hf d' hd' hsw => ?_⟩
      obtain ⟨g, h1, _, h2⟩ := hN fuel hf hd'
      exact ⟨g, h1, 0, Nat.zero_le _, h2 trivial (hpo.resolve_left hfit') hns⟩
  obtain ⟨N, hsl⟩ := hsl
  refine ⟨w' + N, fun fuel hf => ?_⟩
  rcases hfl fuel (by omega) with h | ⟨d', hd', hsw, heq⟩
  · exact Or.inl h
  · right
    obtain ⟨g, h1, w'', hw'', h2⟩ := hsl fuel (by omega) d'.tee hd'.tee fun file hf hb H hH => (hsw file hf hb H hH).tee
    refine ⟨g, fun back => ?_, w'', by omega, h2⟩
    rw [heq back]
    have hw := loop_with (h.withFuel fuel) p (files.map fun f => Reader.open f.1 f.2) back (slicer :: (optNode .regex regex ++ optNode .bridge invert ++ optNode .extend extend ++ optNode .merge j.merge ++ optNode .lines lines))
        (some ()) (.byte d'.tee) (by
      intro n hn
      simp only [List.mem_cons, List.mem_append] at hn
      rcases hn with rfl | (((hn | hn) | hn) | hn) | hn
      · cases hsl : j.slicer <;> rw [hsl] at n3 <;> cases n <;> simp only [Slicer.Node] at n3 <;> simp
      · cases regex <;> simp [optNode] at hn
        rw [hn]
        simp
      · cases invert <;> simp [optNode] at hn
        rw [hn]
        simp
      · cases extend <;> simp [optNode] at hn
        rw [hn]
        simp
      · cases hm : j.merge <;> rw [hm] at hn <;> simp [optNode] at hn
        rw [hn]
        simp
      · cases lines <;> simp [optNode] at hn
        rw [hn]
        simp) [.patchBack command]
    have h1 := h1 (some ()) []
    rw [List.append_nil] at h1
    have hw := hw.2 _ h1
    have hstep : ((h.withFuel fuel).stagesWith back p (files.map fun f => Reader.open f.1 f.2)).step .tee (none, .byte d') = .ok (some (), .byte d'.tee) := rfl
    simp only [optNode, List.cons_append, List.nil_append, Stages.loop] at hw ⊢
    rw [hstep]
    simp only
    rw [hw]
    simp only [Stages.step]
    rw [show ((h.withFuel fuel).stagesWith back p (files.map fun f => Reader.open f.1 f.2)).patchBack (.patchBack command) () g = back (.patchBack command) g from rfl]
    cases back (.patchBack command) g <;> rfl

/-- What `--patch-back` prints once the whole stream is in the temporary file, wherever its position is: the stream, patched with what the command has printed. -/
theorem patching_delivers (h : Host) (command : String) (hB : 0 < h.block) {text content : Bytes} {t : TempFile} (ht : t.data = content)
    (hlen : content.length ≤ usizeMax) {out : InFile} (hout : h.commands command text = out) {recs : List Rec} (hr : Records .hex out.1 recs)
    (hl : ShortLines h.block out.1) (ho : Ordered 0 recs) (hok : (∀ i, out.2 i ≠ none) ∧ ∀ i, h.tempSched i ≠ none) (fuel : Nat)
    (hf : content.length + recs.length + out.1.length + 4 < fuel) :
    ∃ d, (h.withFuel fuel).patching (.hex, .hex) command text none t = .ok d ∧ Delivers d.src (fun _ => False) NlMargin d.st (content.length + 1) (splice 0 content recs) := by
  have hy := (file_yields h.impl h.block fuel 0 .hex _ out.2 hB (by omega) hl _ hr.1).mono (F' := fun _ => False) (fun e he => by
    obtain ⟨_, s, hs, i, hi⟩ := he
    rw [List.mem_singleton.1 hs] at hi
    exact hok.1 i hi)
  have ht' := (TeeReader.delivers h.block hB fuel h.tempSched t (by rw [ht]; omega)).mono (F' := fun _ => False) (fun e he => by
    obtain ⟨_, i, hi⟩ := he
    exact hok.2 i hi) (fun _ h => h)
  rw [ht] at ht'
  obtain ⟨s, hs⟩ : ∃ s, PatchStream.new (fileParser h.impl h.block fuel .hex .hex) h.block (TeeReader.new h.block t h.tempSched) (openText h.block 0 out.1 out.2) = .ok s := by
    rcases TextStream.fill_holds (f := Feeder.new (openText h.block 0 out.1 out.2)) hy with ⟨e, he, _⟩ | ⟨_, f', heq, _⟩
    · exact he.elim
    · exact ⟨_, by unfold PatchStream.new; rw [heq]⟩
  have hd := PatchStream.delivers hB ht' hlen hy (C07_ordered_ok _ _ _ ho) (fun r hr' => by
    have := hr.2 r hr'
    unfold usizeMax
    omega) hs (fuel := fuel) (by omega)
  refine ⟨{ src := PatchDrain.byteSrc (PatchStream.byteSrc (TeeReader.byteSrc h.block fuel) (fileParser h.impl h.block fuel .hex .hex) h.block fuel), st := PatchDrain.new s none }, ?_, PatchDrain.delivers hd⟩
  simp only [Host.patching, attempt]
  rw [show (h.withFuel fuel).commands command text = out from hout]
  rw [show PatchStream.new ((h.withFuel fuel).parser (.hex, .hex)) (h.withFuel fuel).block (TeeReader.new (h.withFuel fuel).block t (h.withFuel fuel).tempSched)
    (RawStream.new (h.withFuel fuel).block (Reader.open out.1 out.2) 1 0) = .ok s from hs]
  rfl

/-- What `--patch-back` prints if the thread ends: the temporary file, patched with what the command has printed. -/
theorem back_delivers (h : Host) (p : Pipeline InoutFormat) (f : Formatting) (hfed : p.patchFormat.formatting = .ok f) (hfields : p.patchFormat.fields = .ok (.hex, .hex))
    (command : String) (hB : 0 < h.block) {g : DynSeg} {F : Err → Prop} {w : Nat} {content : Bytes} {xs : List (Nat × Bytes)} (hg : Threads g F h.block w content xs) (hF : ∀ e, ¬ F e)
    (hlen : content.length ≤ usizeMax) {out : InFile} (hout : h.commands command (xs.flatMap f.line) = out) {recs : List Rec} (hr : Records .hex out.1 recs)
    (hl : ShortLines h.block out.1) (ho : Ordered 0 recs) (hok : (∀ i, out.2 i ≠ none) ∧ ∀ i, h.tempSched i ≠ none) (fuel : Nat)
    (hf : w + 2 + content.length + recs.length + out.1.length + 4 < fuel) :
    ∃ d, (h.withFuel fuel).patchBack p (.patchBack command) g = .ok d ∧ Delivers d.src (fun _ => False) NlMargin d.st (content.length + 1) (splice 0 content recs) := by
  rcases hg f fuel (by omega) with ⟨e, he, _⟩ | ⟨h1, h2, t, h3, h4⟩
  · exact absurd he (hF e)
  obtain ⟨d, hd1, hd2⟩ := patching_delivers h command hB h4 hlen hout hr hl ho hok fuel (by omega)
  refine ⟨d, ?_, hd2⟩
  simp only [Host.patchBack, attempt, hfed, hfields]
  rw [show (h.withFuel fuel).block = h.block from rfl, show (h.withFuel fuel).fuel = fuel from rfl, h1, h3, h2]
  exact hd1

/-- The same for every interleaving of the threads. -/
theorem backs_deliver (h : Host) (p : Pipeline InoutFormat) (f : Formatting) (hfed : p.patchFormat.formatting = .ok f) (hfields : p.patchFormat.fields = .ok (.hex, .hex))
    (command : String) (hB : 0 < h.block) {g : DynSeg} {F : Err → Prop} {w : Nat} {content : Bytes} {xs : List (Nat × Bytes)} (hg : Threads g F h.block w content xs) (hF : ∀ e, ¬ F e)
    (hlen : content.length ≤ usizeMax) {out : InFile} (hout : h.commands command (xs.flatMap f.line) = out) {recs : List Rec} (hr : Records .hex out.1 recs)
    (hl : ShortLines h.block out.1) (ho : Ordered 0 recs) (hok : (∀ i, out.2 i ≠ none) ∧ ∀ i, h.tempSched i ≠ none) (fuel : Nat)
    (hf : content.length + recs.length + out.1.length + 4 < fuel) {r : Except Err DynByte} (hb : (h.withFuel fuel).Backs p command g r) :
    ∃ d, r = .ok d ∧ Delivers d.src (fun _ => False) NlMargin d.st (content.length + 1) (splice 0 content recs) := by
  cases hb with
  | format e he => rw [hfed] at he; cases he
  | fields e he => rw [hfields] at he; cases he
  | starts f' fields wd fate cache h1 h2 h3 h4 h5 h6 =>
    rw [hfed] at h1
    rw [hfields] at h2
    cases h1
    cases h2
    obtain ⟨n, _, hn⟩ := World.Reachable.settled (out := fun t => ((h.withFuel fuel).commands command t).1) (fun t => ⟨rfl, rfl⟩) (fun s => (g.cache s).map TempFile.data) (fun s s' h => h) h3
    obtain ⟨hs, hfa, hwr, hda⟩ := hn h4
    have hfa : wd.a.fate = (Nat.repeat (fun a => a.round g.src f h.block) n (Slicing.new g.st)).fate := hfa
    have hsl : Nat.repeat (fun a => a.round g.src f h.block) n (Slicing.new g.st) = Host.slicing g.src f h.block (n + (w + 3)) (Slicing.new g.st) := by
      rw [slicing_repeat]
      have : ∀ m, Nat.repeat (fun a => a.round g.src f h.block) (n + m) (Slicing.new g.st) = Nat.repeat (fun a => a.round g.src f h.block) n (Slicing.new g.st) := by
        intro m
        induction m with
        | zero => rfl
        | succ m ih =>
          show (Nat.repeat (fun a => a.round g.src f h.block) (n + m) (Slicing.new g.st)).round g.src f h.block = _
          rw [ih]
          exact Slicing.round_same (by rw [← hfa]; exact hs)
      exact (this _).symm
    have hwr : wd.a.written = (Nat.repeat (fun a => a.round g.src f h.block) n (Slicing.new g.st)).written := hwr
    have hda : (g.cache wd.a.st).map TempFile.data = (g.cache (Nat.repeat (fun a => a.round g.src f h.block) n (Slicing.new g.st)).st).map TempFile.data := hda
    rw [hsl] at hfa hwr hda
    rcases hg f (n + (w + 3)) (by omega) with ⟨e, he, _⟩ | ⟨g1, g2, t, g3, g4⟩
    · exact absurd he (hF e)
    rw [g1, h5] at hfa
    rw [g2] at hwr
    rw [g3, h6] at hda
    cases hfa
    simp only [Option.map_some, Option.some.injEq] at hda
    rw [hwr]
    exact patching_delivers h command hB (hda.trans g4) hlen hout hr hl ho hok fuel hf

/-- The thread does end, so that some interleaving is possible. -/
theorem backs_exist (h : Host) (p : Pipeline InoutFormat) (f : Formatting) (hfed : p.patchFormat.formatting = .ok f) {fields : Field × Field} (hfields : p.patchFormat.fields = .ok fields)
    (command : String) {g : DynSeg} {F : Err → Prop} {w : Nat} {content : Bytes} {xs : List (Nat × Bytes)} (hg : Threads g F h.block w content xs) (hF : ∀ e, ¬ F e) :
    ∃ r, h.Backs p command g r := by
  have hreach : ∀ n, World.Reachable g.src f h.block (h.command command) (fun s s' => (g.cache s').map TempFile.data = (g.cache s).map TempFile.data) g.st
      { a := Nat.repeat (fun a => a.round g.src f h.block) n (Slicing.new g.st), started := false } := by
    intro n
    induction n with
    | zero => exact .init
    | succ n ih => exact .step _ _ ih (.slice _)
  rcases hg f (w + 3) (by omega) with ⟨e, he, _⟩ | ⟨g1, g2, t, g3, g4⟩
  · exact absurd he (hF e)
  rw [slicing_repeat] at g1 g3
  refine ⟨_, .starts f fields _ none t hfed hfields (.step _ _ (hreach (w + 3)) (.start _ ?_)) rfl g1 g3⟩
  simp only
  rw [g1]
  simp [Host.command]

theorem pipeline_delivers (h : Host) (scheds : List (Nat → Option Nat)) (j : Job) (p : Pipeline InoutFormat) (f : Formatting) (hp : PipelineOf h scheds none (.scatter "-") j p f)
    (files : List InFile) (contents : List Bytes) (hB : 0 < h.block) (hc : h.checks = false) (hne : files ≠ []) (hsub : ∀ f ∈ files, f.2 ∈ scheds) (hw0 : 0 < j.joint.word)
    (hdec : List.Forall₂ (fun f c => j.coding.Decodes j.filler f.1 c) files contents) (hlen : ∀ c ∈ contents, (alignTo j.joint.word j.filler c).length ≤ usizeMax)
    (htext : j.coding ≠ .binary → ∀ f ∈ files, f.1.length % j.joint.word = 0 ∧ ShortLines h.block f.1) (hpad : j.pad.1 ≤ h.block ∧ j.pad.2 ≤ h.block)
    (hlen' : j.pad.1 + (j.joint.join j.filler contents).length + j.pad.2 < usizeMax) (hlen'' : (j.stream contents).length < 2 ^ 48)
    (hfit : j.Suits h.block (files.map Prod.snd) (j.stream contents) ∨ ((j.stream contents).length < h.block ∧ j.Orderly (j.stream contents))) {segs : List Seg} (hs : j.Slices (j.stream contents) segs) :
    ∃ N, ∀ fuel, N < fuel → Results (Failing scheds) (p.spawnStream ((h.withFuel fuel).stages p (files.map fun f => Reader.open f.1 f.2))) fun d =>
      ∃ w ≤ N, Delivers d.src (Failing scheds) NlMargin d.st w ((slicesOf (j.stream contents) segs).flatMap f.line) := by
  obtain ⟨N, hN⟩ := pipeline_drains h scheds "-" j p f hp files contents hB hc hne hsub hw0 hdec hlen htext hpad hlen' hlen'' hfit hs
  refine ⟨N, fun fuel hf => ?_⟩
  rcases hN fuel hf with h1 | ⟨g, h1, w, hw, h2⟩
  · exact Or.inl h1
  · right
    simp only [Host.scatter, attempt, hp.out rfl] at h1
    rw [if_pos (by decide)] at h1
    exact ⟨_, h1, w, hw, h2.prints f fuel (by omega)⟩

/-! ## The text -/

theorem prints {pr : Printing} {f : Formatting} (hf : pr.Formats f) {content : Bytes} {segs : List Seg} (hin : ∀ x ∈ segs, x.tail ≤ content.length) (hlen : content.length < 2 ^ 48) :
    pr.Prints content segs ((slicesOf content segs).flatMap f.line) ∧
      (pr ≠ .binary → ∀ l ∈ lines ((slicesOf content segs).flatMap f.line), ∃ x ∈ segs, l.length ≤ 47 + 4 * max x.len f.minWidth) := by
  have text : ∀ fl : Field, f.style ≠ .binary → f.style.field = fl → Records fl ((slicesOf content segs).flatMap f.line) (segs.map fun x => { offset := x.pos, span := x.len, data := x.bytes content }) ∧
      ∀ l ∈ lines ((slicesOf content segs).flatMap f.line), ∃ x ∈ segs, l.length ≤ 47 + 4 * max x.len f.minWidth := by
    intro fl h1 h2
    have hb : ∀ s ∈ segs, s.pos + s.len ≤ content.length := hin
    obtain ⟨out, ht, hread, hll⟩ := Format.segments_spec f.style h1 0 f.minWidth content segs (fun s hs => by
      have := hb s hs
      refine ⟨this, ?_⟩
      unfold Format.Fits
      split <;> omega)
    have hl := Format.segments_line f 0 content segs (fun s hs => by
      have := hb s hs
      omega)
    rw [ht] at hl
    simp only [Nat.zero_add, Except.ok.injEq] at hl
    have hm : segs.map (Format.recOf f.style 0 content) = segs.map fun x => { offset := x.pos, span := x.len, data := x.bytes content } := by
      refine List.map_congr_left fun s hs => ?_
      have := hb s hs
      have := Format.recOf_offset f.style content s (by omega)
      simp only [Format.recOf] at this ⊢
      rw [this]
    rw [show (slicesOf content segs).flatMap f.line = out from hl.symm]
    refine ⟨⟨?_, ?_⟩, hll⟩
    · rw [← hm, ← h2]
      exact hread
    · intro r hr
      obtain ⟨s, hs, rfl⟩ := List.mem_map.1 hr
      have := hb s hs
      simp only
      omega
  cases pr with
  | binary =>
    simp only [Printing.Formats] at hf
    refine ⟨?_, fun h => absurd rfl h⟩
    simp only [Printing.Prints, slicesOf]
    rw [List.flatMap_map, List.flatMap_def]
    congr 1
    exact List.map_congr_left fun x _ => by simp [Formatting.line, hf]
  | text fl =>
    cases fl with
    | hex =>
      simp only [Printing.Formats] at hf
      exact (text .hex (by rw [hf]; decide) (by rw [hf]; rfl)).imp id fun h _ => h
    | dec =>
      simp only [Printing.Formats] at hf
      exact (text .dec (by rw [hf]; decide) (by rw [hf]; rfl)).imp id fun h _ => h

end Nd
