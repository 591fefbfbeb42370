import Verif.Props.Program
import Verif.Conformance.Host
/-!
# C45: what is printed does not depend on how the input arrives
-/
namespace Nd.Props
open Nd Nd.Spec

/-- A call whose reads may fail prints its slices line by line, or the beginning of that. -/
theorem run_lines (h : Host) (a : Args) (j : Job) (files : List InFile) (contents : List Bytes) (scheds : List (Nat → Option Nat))
    (ha : Asks a j) (hs : Surroundings h a j files contents scheds) (segs : List Seg) (hsegs : j.Slices (j.stream contents) segs) :
    ∃ f N, OutputFormat a j.slicer.columns f ∧ ∀ fuel, N < fuel → (h.withFuel fuel).run a = ((slicesOf (j.stream contents) segs).flatMap f.line, none) ∨
      ∃ e out, Failing scheds e ∧ (h.withFuel fuel).run a = (out, some e) ∧ out <+: (slicesOf (j.stream contents) segs).flatMap f.line := by
  obtain ⟨f, N, p, h1, _, _, h3⟩ := job_runs_as h a j files contents scheds ha hs.toRoom hs.some_input hs.one_stdin segs hsegs
  refine ⟨f, N, h1, fun fuel hfu => ?_⟩
  obtain ⟨hprep, hres⟩ := h3 fuel hfu
  unfold Host.run
  rw [hs.stream_eq hprep]
  rcases hres with ⟨e, he, heq⟩ | ⟨d, heq, hd⟩
  · rw [heq]
    exact Or.inr ⟨e, [], he, rfl, List.nil_prefix⟩
  · rw [heq]
    exact hd

/-- **C45**: two calls on two machines print the same if their options, maybe spelled differently, ask for the same, and their inputs contain the same, whatever the blocks and the reads are.
If reads fail on the first one, it prints the beginning of that.

Partial: the conditions of `Surroundings` on both (`C45_blocks_counterexample`, `C45_reads_counterexample`), and the output format spelled equally (`C38_columns_counterexample`). -/
theorem C45_same_partial (h h' : Host) (a a' : Args) (j : Job) (files files' : List InFile) (contents : List Bytes) (scheds scheds' : List (Nat → Option Nat))
    (ha : Asks a j) (ha' : Asks a' j) (ho : a.outFormat = a'.outFormat) (hs : Surroundings h a j files contents scheds) (hs' : Surroundings h' a' j files' contents scheds')
    (hok' : ∀ s ∈ scheds', ∀ i, s i ≠ none) (hw : ∀ es, j.slicer = .walk es → ∃ raw, Walks (Lengths es) 0 (j.stream contents) raw) :
    ∃ text N, ∀ fuel fuel', N < fuel → N < fuel' → (h'.withFuel fuel').run a' = (text, none) ∧
      ((h.withFuel fuel).run a = (text, none) ∨ ∃ e out, Failing scheds e ∧ (h.withFuel fuel).run a = (out, some e) ∧ out <+: text) := by
  obtain ⟨segs, hsegs⟩ := C37_slices_exist j (j.stream contents) hw
  obtain ⟨f, N, hf, h1⟩ := run_lines h a j files contents scheds ha hs segs hsegs
  obtain ⟨f', N', hf', h2⟩ := run_lines h' a' j files' contents scheds' ha' hs' segs hsegs
  cases hf.unique hf' ho (hs.inplace.trans hs'.inplace.symm)
  refine ⟨_, max N N', fun fuel fuel' hfu hfu' => ⟨?_, h1 fuel (by omega)⟩⟩
  rcases h2 fuel' (by omega) with h | ⟨e, out, ⟨_, s, hsm, i, hi⟩, _⟩
  · exact h
  · exact absurd hi (hok' s hsm i)

/-- **C45**: two calls whose reads succeed print the same. -/
theorem C45_equal_partial (h h' : Host) (a a' : Args) (j : Job) (files files' : List InFile) (contents : List Bytes) (scheds scheds' : List (Nat → Option Nat))
    (ha : Asks a j) (ha' : Asks a' j) (ho : a.outFormat = a'.outFormat) (hs : Surroundings h a j files contents scheds) (hs' : Surroundings h' a' j files' contents scheds')
    (hok : ∀ s ∈ scheds, ∀ i, s i ≠ none) (hok' : ∀ s ∈ scheds', ∀ i, s i ≠ none) (hw : ∀ es, j.slicer = .walk es → ∃ raw, Walks (Lengths es) 0 (j.stream contents) raw) :
    ∃ N, ∀ fuel fuel', N < fuel → N < fuel' → (h.withFuel fuel).run a = (h'.withFuel fuel').run a' := by
  obtain ⟨text, N, hN⟩ := C45_same_partial h h' a a' j files files' contents scheds scheds' ha ha' ho hs hs' hok' hw
  refine ⟨N, fun fuel fuel' hf hf' => ?_⟩
  obtain ⟨h1, h2⟩ := hN fuel fuel' hf hf'
  rw [h1]
  rcases h2 with h | ⟨e, out, ⟨_, s, hsm, i, hi⟩, _⟩
  · exact h
  · exact absurd hi (hok s hsm i)

/-- A file of 600 bytes that arrives in pieces of the sizes `s`, with blocks of `B` bytes. -/
def arriving (B : Nat) (s : Nat → Option Nat) : Host := { Conformance.host none with block := B, files := fun _ => some ((List.range 600).map UInt8.ofNat, s) }

/-- **Counterexample** (see `C29_wide_clipped_counterexample`, `C29_full_reads_counterexample`): `nd --width 4,0..1` prints all 150 slices of a file that is read in whole blocks, and 149 of
them, without an error, if two of three reads are one byte short. -/
theorem C45_reads_counterexample :
    (arriving 64 fun _ => some 64).run { inputs := ["FILE"], width := some "4,0..1", outFormat := some "b" } = ((List.range 150).map fun i => UInt8.ofNat (4 * i), none) ∧
    ((arriving 64 fun i => some (if i % 3 = 0 then 64 else 63)).run { inputs := ["FILE"], width := some "4,0..1", outFormat := some "b" }).1.length = 149 ∧
    ((arriving 64 fun i => some (if i % 3 = 0 then 64 else 63)).run { inputs := ["FILE"], width := some "4,0..1", outFormat := some "b" }).2 = none := by
  decide +kernel

/-- **Counterexample**: `nd --width 3,0..1` prints 193 slices with blocks of 64 bytes, and all 200 slices with blocks of 1024 bytes. -/
theorem C45_blocks_counterexample :
    ((arriving 64 fun _ => some 1024).run { inputs := ["FILE"], width := some "3,0..1", outFormat := some "b" }).1.length = 193 ∧
    ((arriving 64 fun _ => some 1024).run { inputs := ["FILE"], width := some "3,0..1", outFormat := some "b" }).2 = none ∧
    (arriving 1024 fun _ => some 1024).run { inputs := ["FILE"], width := some "3,0..1", outFormat := some "b" } = ((List.range 200).map fun i => UInt8.ofNat (3 * i), none) := by
  decide +kernel

/-! ## Examples -/

open Conformance

/-- Two files of any length, with blocks of `B` bytes. -/
def twoFiles (B : Nat) (c d : Bytes) (s t : Nat → Option Nat) : Host := { host none with block := B, files := fun n => if n = "hello.txt" then some (c, s) else some (d, t) }

theorem alignTo_length_le (n : Nat) (hn : 0 < n) (b : Byte) (c : Bytes) : (alignTo n b c).length ≤ c.length + n := by
  have := Nat.mod_lt (n - c.length % n) hn
  simp only [alignTo, List.length_append, List.length_replicate]
  omega

theorem keep_length_le {α : Type} (P : Nat → Bool) : ∀ (i : Nat) (l : List α), (keep P i l).length ≤ l.length
  | _, [] => Nat.le_refl _
  | i, b :: l => by
    have := keep_length_le P (i + 1) l
    simp only [keep]
    split <;> simp only [List.length_cons] <;> omega

/-- The same as `sampleArgs`, spelled differently. -/
def respelledArgs : Args := { sampleArgs with cut := some "1..,", width := some "3,..", lines := some "1..3,", output := some "-" }

theorem respelled_asks : Asks respelledArgs sampleJob where
  inFormat := .none
  outFormat := .b
  filler := .some (digit_numeral '7' (by decide)) (by decide)
  joint := .cat (digit_numeral '8' (by decide)) (by decide)
  cut := .some ⟨["1..".toList], by simp, .cons (.mk (digit_side .first '1' (by decide)) .empty) .nil, Or.inr (by decide)⟩
  pad := .some (.two (digit_numeral '1' (by decide)) (digit_numeral '2' (by decide)))
  slicer := .width (.range (digit_numeral '3' (by decide)) (.mk (l := []) .empty .empty))
  merge := .none
  lines := .some ⟨["1..3".toList], by simp, .cons (.mk (digit_side .first '1' (by decide)) (digit_side .last '3' (by decide))) .nil, Or.inr (by decide)⟩
  output := Or.inr rfl
  invert := .none
  extend := .none
  patchBack := rfl

theorem two_files (B : Nat) (hB : 2048 ≤ B) (a : Args) (ha : a = sampleArgs ∨ a = respelledArgs) (c d : Bytes) (s t : Nat → Option Nat) (hc : c.length < 2 ^ 40) (hd : d.length < 2 ^ 40) :
    Surroundings (twoFiles B c d s t) a sampleJob [(c, s), (d, t)] [c, d] [s, t] := by
  have h1 := alignTo_length_le 8 (by decide) 7 c
  have h2 := alignTo_length_le 8 (by decide) 7 d
  have hi : inputsOf a = ["hello.txt", "world.txt"] ∧ a.inplace = false ∧ a.patch = none ∧ a.guide = none ∧ a.walk = none ∧ a.regex = none := by rcases ha with rfl | rfl <;> decide
  obtain ⟨i1, i2, i3, i4, i5, i6⟩ := hi
  refine { release := rfl, inplace := i2, block := show 0 < B by omega, opened := by rw [i1]; exact .cons rfl (.cons rfl .nil), stdin := by rw [i1, i3, i4]; decide, listed := by simp,
           patch := by rw [i3]; trivial, decodes := .cons rfl (.cons rfl .nil), text := fun h => absurd rfl h, pad := ⟨show 1 ≤ B by omega, show 2 ≤ B by omega⟩, aligned := ?_, joined := ?_, stream := ?_,
           slicer := ⟨by simp [i5], by simp [sampleJob]⟩, regex := by rw [i6]; trivial, fits := Or.inl (Or.inl ?_) }
  · simp only [sampleJob, Joint.word, List.mem_cons, List.not_mem_nil, or_false, forall_eq_or_imp, forall_eq]
    omega
  · rw [show sampleJob.joint.join sampleJob.filler [c, d] = alignTo 8 7 c ++ (alignTo 8 7 d ++ []) from rfl, show sampleJob.pad = (1, 2) from rfl]
    simp only [List.length_append, List.length_nil]
    omega
  · rw [show sampleJob.stream [c, d] = Spec.pad 1 2 7 (Spec.cut [(⟨false, 1⟩, ⟨true, 0⟩)] (alignTo 8 7 c ++ (alignTo 8 7 d ++ []))) from rfl]
    have h3 : (Spec.cut [(⟨false, 1⟩, ⟨true, 0⟩)] (alignTo 8 7 c ++ (alignTo 8 7 d ++ []))).length ≤ (alignTo 8 7 c ++ (alignTo 8 7 d ++ [])).length := keep_length_le _ _ _
    simp only [List.length_append, List.length_nil] at h3
    simp only [Spec.pad, List.length_append, List.length_replicate]
    omega
  · simp [Job.Fits, Job.Near, sampleJob, RangeEnd.at, twoFiles]
    omega

/-- The call of `sampleArgs` with blocks of 2^21 bytes, and its other spelling with blocks of 2 KiB. -/
example (c d : Bytes) (hc : c.length < 2 ^ 40) (hd : d.length < 2 ^ 40) (s t s' t' : Nat → Option Nat) (hs : ∀ i, s i ≠ none ∧ t i ≠ none) (hs' : ∀ i, s' i ≠ none ∧ t' i ≠ none) :
    ∃ N, ∀ fuel fuel', N < fuel → N < fuel' → ((twoFiles (2 ^ 21) c d s t).withFuel fuel).run sampleArgs = ((twoFiles 2048 c d s' t').withFuel fuel').run respelledArgs :=
  C45_equal_partial _ _ _ _ _ _ _ _ _ _ sample_asks respelled_asks rfl (two_files (2 ^ 21) (by decide) _ (Or.inl rfl) c d s t hc hd) (two_files 2048 (by decide) _ (Or.inr rfl) c d s' t' hc hd)
    (by simp only [List.mem_cons, List.not_mem_nil, or_false, forall_eq_or_imp, forall_eq]; exact ⟨fun i => (hs i).1, fun i => (hs i).2⟩)
    (by simp only [List.mem_cons, List.not_mem_nil, or_false, forall_eq_or_imp, forall_eq]; exact ⟨fun i => (hs' i).1, fun i => (hs' i).2⟩) (by simp [sampleJob])

end Nd.Props
