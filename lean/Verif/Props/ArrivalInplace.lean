import Verif.Props.Arrival
import Verif.Props.ProgramInplace
/-!
# C45 with `--inplace`: what the files hold afterwards does not depend on how they are read
-/
namespace Nd.Props
open Nd Nd.Spec

/-- The lines that a file is replaced by, in the format that the options name; `content` says what a file denotes. -/
def Becomes (a : Args) (j : Job) (content : Bytes → Bytes) (old new : Bytes) : Prop :=
  ∃ f segs, OutputFormat a j.slicer.columns f ∧ j.Slices (j.stream [content old]) segs ∧ new = (slicesOf (j.stream [content old]) segs).flatMap f.line

theorem Becomes.unique {a a' : Args} {j : Job} {content : Bytes → Bytes} {old new new' : Bytes} (h : Becomes a j content old new) (h' : Becomes a' j content old new')
    (ho : a.outFormat = a'.outFormat) (hi : a.inplace = a'.inplace) : new = new' := by
  obtain ⟨f, segs, h1, h2, rfl⟩ := h
  obtain ⟨f', segs', h1', h2', rfl⟩ := h'
  rw [h1.unique h1' ho hi, C37_slices_unique h2 h2']

theorem inplace_runs_as (h : Host) (a : Args) (j : Job) (disk : Disk) (sched : String → Nat → Option Nat) (scheds : List (Nat → Option Nat)) (split : Bytes → List Bytes) (content : Bytes → Bytes)
    (hsplit : ∀ b, (split b).flatten = b) (ha : Asks a j) (hcount : ¬ a.countStdin + a.countStdinOfOptions > 1) : ∀ inputs : List String,
    (∀ f ∈ inputs, ∃ old segs, disk f = some old ∧ Room h a j [(old, sched f)] [content old] scheds ∧ j.Slices (j.stream [content old]) segs) →
    ∃ N, ∀ fuel, N < fuel → ∀ f ∈ inputs, ∃ p, (h.withFuel fuel).prepare a = .ok p ∧
      ((∃ old new, disk f = some old ∧ newContent (inplaceRun (h.withFuel fuel) split sched p) disk f = some new ∧ Becomes a j content old new) ∨
        (newContent (inplaceRun (h.withFuel fuel) split sched p) disk f = none ∧ ∃ e, Failing scheds e))
  | [], _ => ⟨0, fun _ _ _ h => by simp at h⟩
  | f :: rest, hroom => by
    obtain ⟨N, hN⟩ := inplace_runs_as h a j disk sched scheds split content hsplit ha hcount rest fun g hg => hroom g (by simp [hg])
    obtain ⟨old, segs, h1, h2, h3⟩ := hroom f (by simp)
    obtain ⟨fm, M, p, g1, _, _, g3⟩ := job_runs_as h a j [(old, sched f)] [content old] scheds ha h2 (by simp) hcount segs h3
    refine ⟨N + M, fun fuel hf g hg => ?_⟩
    rcases List.mem_cons.1 hg with rfl | hg
    · obtain ⟨g4, g5⟩ := g3 fuel (by omega)
      refine ⟨p, g4, ?_⟩
      unfold newContent inplaceRun
      rw [h1]
      simp only
      rcases g5 with ⟨e, he, heq⟩ | ⟨d, heq, hd | ⟨e, out, he, hd, _⟩⟩
      · rw [show [Reader.open old (sched g)] = [(old, sched g)].map fun f : InFile => Reader.open f.1 f.2 from rfl, heq]
        exact Or.inr ⟨rfl, e, he⟩
      · rw [show [Reader.open old (sched g)] = [(old, sched g)].map fun f : InFile => Reader.open f.1 f.2 from rfl, heq]
        simp only
        rw [show consumeStream d.src (h.withFuel fuel).block (h.withFuel fuel).fuel d.st = (_, none) from hd]
        exact Or.inl ⟨old, _, rfl, by simp [hsplit], fm, segs, g1, h3, rfl⟩
      · rw [show [Reader.open old (sched g)] = [(old, sched g)].map fun f : InFile => Reader.open f.1 f.2 from rfl, heq]
        simp only
        rw [show consumeStream d.src (h.withFuel fuel).block (h.withFuel fuel).fuel d.st = (out, some e) from hd]
        exact Or.inr ⟨rfl, e, he⟩
    · exact hN fuel (by omega) g hg

/-- What one machine makes of the disk. -/
theorem inplace_disk (h : Host) (a : Args) (j : Job) (disk : Disk) (sched : String → Nat → Option Nat) (rest : String → Bytes × (Nat → Option Nat)) (scheds : List (Nat → Option Nat))
    (split : Bytes → List Bytes) (content : Bytes → Bytes) (hsplit : ∀ b, (split b).flatten = b) (ha : Asks a j) (hne : a.inputs ≠ []) (hsep : Separate a.inputs)
    (hstd : ∀ f ∈ a.inputs, f ≠ "-" ∧ f ≠ "/dev/stdin") (hstd' : ((a.patch.toList ++ a.guide.toList).filter fun x => x = "-" ∨ x = "/dev/stdin").length ≤ 1) (hap : Apart h a disk sched)
    (hroom : ∀ f ∈ a.inputs, ∃ old segs, disk f = some old ∧ Room h a j [(old, sched f)] [content old] scheds ∧ j.Slices (j.stream [content old]) segs)
    (hok : ∀ s ∈ scheds, ∀ i, s i ≠ none) :
    ∃ N, ∀ fuel, N < fuel → ((h.withFuel fuel).runInplace split sched rest a disk).2 = true ∧
      (∀ n, n ∉ a.inputs → (∀ f ∈ a.inputs, n ≠ tmpName f) → applyAll disk ((h.withFuel fuel).runInplace split sched rest a disk).1 n = disk n) ∧
      ∀ f ∈ a.inputs, (∃ old new, disk f = some old ∧ applyAll disk ((h.withFuel fuel).runInplace split sched rest a disk).1 f = some new ∧ Becomes a j content old new) ∧
        applyAll disk ((h.withFuel fuel).runInplace split sched rest a disk).1 (tmpName f) = none := by
  obtain ⟨h0, hcount⟩ := inplace_stdin hstd hstd'
  obtain ⟨N, hN⟩ := inplace_runs_as h a j disk sched scheds split content hsplit ha hcount a.inputs hroom
  refine ⟨N, fun fuel hf => ?_⟩
  obtain ⟨h1, h2⟩ := inplace_files (h.withFuel fuel) (fun _ => (h.withFuel fuel).patchBack) a disk sched rest split (Becomes a j content) (∃ e, Failing scheds e) hne hsep h0
    ⟨hap.found, hap.kept, hap.once⟩ (hN fuel hf)
  obtain ⟨h3, h4⟩ := h2 (by
    rintro ⟨e, _, s, hs, i, hsi⟩
    exact hok s hs i hsi)
  refine ⟨h3, fun n hn hn' => ?_, h4⟩
  have := (h1 ((h.withFuel fuel).runInplaceWith (fun _ => (h.withFuel fuel).patchBack) split sched rest a disk).1.length).2 n hn hn'
  rw [List.take_length] at this
  exact this

/-- **C45** with `--inplace`: two machines with different blocks, reads and writes, which are asked for the same and whose reads succeed, turn the same disk into the same disk. -/
theorem C45_inplace_partial (h h' : Host) (a a' : Args) (j : Job) (disk : Disk) (sched sched' : String → Nat → Option Nat) (rest rest' : String → Bytes × (Nat → Option Nat))
    (scheds scheds' : List (Nat → Option Nat)) (split split' : Bytes → List Bytes) (content : Bytes → Bytes)
    (hsplit : ∀ b, (split b).flatten = b) (hsplit' : ∀ b, (split' b).flatten = b) (ha : Asks a j) (ha' : Asks a' j) (hi : a.inplace = true) (hi' : a'.inplace = true)
    (ho : a.outFormat = a'.outFormat) (hin : a.inputs = a'.inputs) (hne : a.inputs ≠ []) (hsep : Separate a.inputs) (hstd : ∀ f ∈ a.inputs, f ≠ "-" ∧ f ≠ "/dev/stdin")
    (hone : ((a.patch.toList ++ a.guide.toList).filter fun x => x = "-" ∨ x = "/dev/stdin").length ≤ 1)
    (hone' : ((a'.patch.toList ++ a'.guide.toList).filter fun x => x = "-" ∨ x = "/dev/stdin").length ≤ 1) (hap : Apart h a disk sched) (hap' : Apart h' a' disk sched')
    (hroom : ∀ f ∈ a.inputs, ∃ old, disk f = some old ∧ Room h a j [(old, sched f)] [content old] scheds ∧ Room h' a' j [(old, sched' f)] [content old] scheds' ∧
      ∀ es, j.slicer = .walk es → ∃ raw, Walks (Lengths es) 0 (j.stream [content old]) raw)
    (hok : ∀ s ∈ scheds, ∀ i, s i ≠ none) (hok' : ∀ s ∈ scheds', ∀ i, s i ≠ none) :
    ∃ N, ∀ fuel fuel', N < fuel → N < fuel' → ((h.withFuel fuel).runInplace split sched rest a disk).2 = true ∧ ((h'.withFuel fuel').runInplace split' sched' rest' a' disk).2 = true ∧
      applyAll disk ((h.withFuel fuel).runInplace split sched rest a disk).1 = applyAll disk ((h'.withFuel fuel').runInplace split' sched' rest' a' disk).1 := by
  obtain ⟨N, hN⟩ := inplace_disk h a j disk sched rest scheds split content hsplit ha hne hsep hstd hone hap (fun f hf => by
    obtain ⟨old, h1, h2, _, h4⟩ := hroom f hf
    obtain ⟨segs, hs⟩ := C37_slices_exist j (j.stream [content old]) h4
    exact ⟨old, segs, h1, h2, hs⟩) hok
  obtain ⟨N', hN'⟩ := inplace_disk h' a' j disk sched' rest' scheds' split' content hsplit' ha' (hin ▸ hne) (hin ▸ hsep) (hin ▸ hstd) hone' hap' (fun f hf => by
    obtain ⟨old, h1, _, h2, h4⟩ := hroom f (hin ▸ hf)
    obtain ⟨segs, hs⟩ := C37_slices_exist j (j.stream [content old]) h4
    exact ⟨old, segs, h1, h2, hs⟩) hok'
  refine ⟨max N N', fun fuel fuel' hf hf' => ?_⟩
  obtain ⟨h1, h2, h3⟩ := hN fuel (by omega)
  obtain ⟨h1', h2', h3'⟩ := hN' fuel' (by omega)
  refine ⟨h1, h1', funext fun n => ?_⟩
  by_cases hn : n ∈ a.inputs
  · obtain ⟨⟨old, new, g1, g2, g3⟩, _⟩ := h3 n hn
    obtain ⟨⟨old', new', g1', g2', g3'⟩, _⟩ := h3' n (hin ▸ hn)
    rw [g1] at g1'
    cases g1'
    rw [g2, g2', g3.unique g3' ho (hi.trans hi'.symm)]
  · by_cases ht : ∃ f ∈ a.inputs, n = tmpName f
    · obtain ⟨f, hf, rfl⟩ := ht
      rw [(h3 f hf).2, (h3' f (hin ▸ hf)).2]
    · have ht' : ∀ f ∈ a.inputs, n ≠ tmpName f := fun f hf he => ht ⟨f, hf, he⟩
      rw [h2 n hn ht', h2' n (hin ▸ hn) (hin ▸ ht')]

/-! ## Example -/

/-- The host of the examples with blocks of `B` bytes. -/
def blocksOf (B : Nat) : Host := { Conformance.host none with block := B }

theorem inplace_room_of (B : Nat) (hB : 4096 ≤ B) (old : Bytes) (s : Nat → Option Nat) (hl : old.length < 2 ^ 47) : Room (blocksOf B) inplaceArgs inplaceJob [(old, s)] [old] [s] := by
  have hst : inplaceJob.stream [old] = Spec.cut [(⟨false, 1⟩, ⟨true, 0⟩)] old := by simp [Job.stream, Job.filtered, inplaceJob, Joint.join, Spec.pad]
  have hcut : (Spec.cut [(⟨false, 1⟩, ⟨true, 0⟩)] old).length ≤ old.length := by
    exact keep_length_le _ _ _
  refine { release := rfl, block := show 0 < B by omega, listed := by simp, patch := trivial, decodes := .cons rfl .nil, text := fun h => absurd rfl h, pad := ⟨Nat.zero_le _, Nat.zero_le _⟩,
           aligned := ?_, joined := ?_, stream := ?_, slicer := ⟨by simp [inplaceArgs], by simp [inplaceJob]⟩, regex := trivial, fits := Or.inl (Or.inl ?_) }
  · simp [inplaceJob, Joint.word, alignTo_one]
    omega
  · simp [inplaceJob, Joint.join]
    omega
  · rw [hst]
    omega
  · simp [Job.Fits, Job.Near, inplaceJob, RangeEnd.at, blocksOf]
    omega

open Conformance in
/-- `nd --inplace --cut 1.. world.txt hello.txt`, with blocks of 2 MiB and reads of three bytes, and with blocks of 4 KiB and reads of one byte and a write per byte. -/
example : ∃ N, ∀ fuel fuel', N < fuel → N < fuel' →
    (((blocksOf (2 ^ 21)).withFuel fuel).runInplace (fun b => [b]) (fun _ _ => some 3) (fun _ => ([], fun _ => some 1)) inplaceArgs content).2 = true ∧
    (((blocksOf 4096).withFuel fuel').runInplace (fun b => b.map fun x => [x]) (fun _ _ => some 1) (fun _ => ([], fun _ => some 1)) inplaceArgs content).2 = true ∧
    applyAll content (((blocksOf (2 ^ 21)).withFuel fuel).runInplace (fun b => [b]) (fun _ _ => some 3) (fun _ => ([], fun _ => some 1)) inplaceArgs content).1 =
      applyAll content (((blocksOf 4096).withFuel fuel').runInplace (fun b => b.map fun x => [x]) (fun _ _ => some 1) (fun _ => ([], fun _ => some 1)) inplaceArgs content).1 := by
  refine C45_inplace_partial (blocksOf (2 ^ 21)) (blocksOf 4096) inplaceArgs inplaceArgs inplaceJob content _ _ _ _ [fun _ => some 3] [fun _ => some 1] _ _ id (by simp) ?_ inplace_asks inplace_asks rfl rfl rfl rfl
    (by decide) (by unfold Separate; decide) (by decide) (by decide) (by decide) (.none rfl rfl) (.none rfl rfl) ?_ (by simp) (by simp)
  · intro b
    induction b with
    | nil => rfl
    | cons x b ih => simpa using ih
  · intro f hf
    simp only [inplaceArgs, List.mem_cons, List.not_mem_nil, or_false] at hf
    rcases hf with rfl | rfl
    · exact ⟨bytes! "world\n", rfl, inplace_room_of _ (by decide) _ _ (by decide), inplace_room_of _ (by decide) _ _ (by decide), by simp [inplaceJob]⟩
    · exact ⟨bytes! "Hello\n", rfl, inplace_room_of _ (by decide) _ _ (by decide), inplace_room_of _ (by decide) _ _ (by decide), by simp [inplaceJob]⟩

end Nd.Props
