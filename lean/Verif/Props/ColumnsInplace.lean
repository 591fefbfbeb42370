import Verif.Props.Columns
import Verif.Props.ProgramInplace
/-!
# C40, slices with gaps over files of any length
-/
namespace Nd.Props
open Nd Nd.Spec

theorem inplace_columns (h : Host) (a : Args) (j : Job) (disk : Disk) (sched : String → Nat → Option Nat) (split : Bytes → List Bytes) (n : Nat) (start stop : Int)
    (hsplit : ∀ b, (split b).flatten = b) (ha : Asks a j) (hj : ColumnJob h.block j n start stop) (ho : a.patch = none ∧ a.regex = none ∧ a.walk = none ∧ a.guide = none)
    (hcount : ¬ a.countStdin + a.countStdinOfOptions > 1) : ∀ inputs : List String,
    (∀ f ∈ inputs, (∃ old, disk f = some old ∧ old.length < 2 ^ 48) ∧ ∀ i, ∃ k, sched f i = some k ∧ h.block ≤ k) →
    ∃ N, ∀ fuel, N < fuel → ∀ f ∈ inputs, ∃ p, (h.withFuel fuel).prepare a = .ok p ∧
      ∃ old new, disk f = some old ∧ newContent (inplaceRun (h.withFuel fuel) split sched p) disk f = some new ∧ j.printing.Prints old (strides old.length n start stop) new
  | [], _ => ⟨0, fun _ _ _ h => by simp at h⟩
  | f :: rest, hroom => by
    obtain ⟨N, hN⟩ := inplace_columns h a j disk sched split n start stop hsplit ha hj ho hcount rest fun g hg => hroom g (by simp [hg])
    obtain ⟨⟨old, h1, h2⟩, h3⟩ := hroom f (by simp)
    obtain ⟨text, M, p, g1, g2⟩ := column_runs h a j old (sched f) n start stop ha hj ho hcount h3 h2
    refine ⟨N + M, fun fuel hf g hg => ?_⟩
    rcases List.mem_cons.1 hg with rfl | hg
    · obtain ⟨g4, d, g5, g6⟩ := g2 fuel (by omega)
      refine ⟨p, g4, old, text, h1, ?_, g1⟩
      unfold newContent inplaceRun
      rw [h1]
      simp only
      rw [g5]
      simp only
      rw [show consumeStream d.src (h.withFuel fuel).block (h.withFuel fuel).fuel d.st = (text, none) from g6]
      simp [hsplit]
    · exact hN fuel (by omega) g hg

/-- **C40** for `nd --inplace --width N,S..E`, where `N` divides the block and the reads are never short, for files of any length: after any number of operations on the disk every input holds
what it held before or its slices, and no file other than the inputs and their temporary files has changed; the program succeeds, every input holds its slices, and no temporary file is left.
Missing: see `C29_columns_partial`. -/
theorem C40_columns_partial (h : Host) (a : Args) (j : Job) (disk : Disk) (sched : String → Nat → Option Nat) (rest : String → Bytes × (Nat → Option Nat)) (split : Bytes → List Bytes)
    (n : Nat) (start stop : Int) (hsplit : ∀ b, (split b).flatten = b) (ha : Asks a j) (hj : ColumnJob h.block j n start stop) (_hi : a.inplace = true) (_hj : j.joint = .alone)
    (ho : a.patch = none ∧ a.regex = none ∧ a.walk = none ∧ a.guide = none) (hne : a.inputs ≠ []) (hsep : Separate a.inputs) (hstd : ∀ f ∈ a.inputs, f ≠ "-" ∧ f ≠ "/dev/stdin")
    (hroom : ∀ f ∈ a.inputs, (∃ old, disk f = some old ∧ old.length < 2 ^ 48) ∧ ∀ i, ∃ k, sched f i = some k ∧ h.block ≤ k) :
    ∃ N, ∀ fuel, N < fuel →
      (∀ k, (∀ f ∈ a.inputs, applyAll disk (((h.withFuel fuel).runInplace split sched rest a disk).1.take k) f = disk f ∨
          ∃ old new, disk f = some old ∧ applyAll disk (((h.withFuel fuel).runInplace split sched rest a disk).1.take k) f = some new ∧
            j.printing.Prints old (strides old.length n start stop) new) ∧
        ∀ g, g ∉ a.inputs → (∀ f ∈ a.inputs, g ≠ tmpName f) → applyAll disk (((h.withFuel fuel).runInplace split sched rest a disk).1.take k) g = disk g) ∧
      ((h.withFuel fuel).runInplace split sched rest a disk).2 = true ∧
        ∀ f ∈ a.inputs, (∃ old new, disk f = some old ∧ applyAll disk ((h.withFuel fuel).runInplace split sched rest a disk).1 f = some new ∧
            j.printing.Prints old (strides old.length n start stop) new) ∧
          applyAll disk ((h.withFuel fuel).runInplace split sched rest a disk).1 (tmpName f) = none := by
  obtain ⟨h0, hcount⟩ := inplace_stdin hstd (by simp [ho.1, ho.2.2.2])
  obtain ⟨N, hN⟩ := inplace_columns h a j disk sched split n start stop hsplit ha hj ho hcount a.inputs hroom
  refine ⟨N, fun fuel hf => ?_⟩
  obtain ⟨h1, h2⟩ := inplace_files (h.withFuel fuel) (fun _ => (h.withFuel fuel).patchBack) a disk sched rest split (fun old new => j.printing.Prints old (strides old.length n start stop) new)
    False hne hsep h0 (.none ho.1 ho.2.2.2) fun f hf' => by
      obtain ⟨p, hp, h⟩ := hN fuel hf f hf'
      exact ⟨p, hp, Or.inl h⟩
  exact ⟨h1, h2 id⟩

/-- `nd --inplace --width 8,1..2 FILE` -/
def columnInplace : Args := { inputs := ["FILE"], inplace := true, width := some "8,1..2" }

theorem columnInplace_asks : Asks columnInplace { joint := .alone, slicer := .width 8 (⟨false, 1⟩, ⟨false, 2⟩), printing := .binary } :=
  ⟨⟨.none, .inplace, .none, .alone, .none, .none, .width (.range (t := ['8']) (u := "1..2".toList) (digit_numeral '8' (by decide))
    (.mk (digit_side .first '1' (by decide)) (digit_side .last '2' (by decide)))), .none, .none, .none, .none⟩, Or.inl rfl, rfl⟩

open Conformance in
/-- A file of any length is replaced by the second of every eight of its bytes. -/
example (content : Bytes) (hl : content.length < 2 ^ 48) :
    ∃ N, ∀ fuel, N < fuel → applyAll (fun n => if n = "FILE" then some content else none)
      (((host none).withFuel fuel).runInplace (fun b => [b]) (fun _ _ => some (2 ^ 21)) (fun _ => ([], fun _ => some 1)) columnInplace (fun n => if n = "FILE" then some content else none)).1 "FILE" =
        some ((strides content.length 8 1 2).map fun x => x.bytes content).flatten := by
  obtain ⟨N, hN⟩ := C40_columns_partial (host none) columnInplace { joint := .alone, slicer := .width 8 (⟨false, 1⟩, ⟨false, 2⟩), printing := .binary }
    (fun n => if n = "FILE" then some content else none) (fun _ _ => some (2 ^ 21)) (fun _ => ([], fun _ => some 1)) (fun b => [b]) 8 1 2 (by simp) columnInplace_asks
    ⟨rfl, Or.inr rfl, rfl, rfl, rfl, ⟨_, rfl, rfl, rfl⟩, ⟨rfl, rfl, rfl, rfl, rfl⟩, by decide, show 8 ∣ 2 ^ 21 by decide, by decide, by decide, show (2 : Int) + 2 * 8 + 2 ≤ (2 ^ 21 : Nat) by decide⟩
    rfl rfl ⟨rfl, rfl, rfl, rfl⟩ (by simp [columnInplace]) (by unfold Separate columnInplace; decide) (by simp [columnInplace]) (by
      intro f hf
      rw [List.mem_singleton.1 hf]
      exact ⟨⟨content, rfl, hl⟩, fun _ => ⟨_, rfl, show 2 ^ 21 ≤ 2 ^ 21 from Nat.le_refl _⟩⟩)
  refine ⟨N, fun fuel hf => ?_⟩
  obtain ⟨_, _, h⟩ := hN fuel hf
  obtain ⟨⟨old, new, h1, h2, h3⟩, _⟩ := h "FILE" (by simp [columnInplace])
  have hold : content = old := Option.some.inj h1
  subst hold
  rw [h2, show new = _ from h3]

end Nd.Props
