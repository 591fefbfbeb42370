import Verif.Conformance.Host
import Verif.Props.Inplace
import Verif.Props.Pipeline
import Verif.Props.Program
/-!
# C40: with `--inplace` every file is replaced by what its options ask for
-/
namespace Nd.Props
open Nd Nd.Spec

/-- What the job asks a file that holds `old` to be replaced by. -/
def Replaces (j : Job) (old new : Bytes) : Prop :=
  ∃ content segs, j.coding.Decodes j.filler old content ∧ j.Slices (j.stream [content]) segs ∧ j.printing.Prints (j.stream [content]) segs new

/-- One file of the in-place mode, if the files that the options name are as they were at the beginning. -/
def inplaceRunWith (h : Host) (back : String → Pipeline InoutFormat → Node → DynSeg → Except Err DynByte) (split : Bytes → List Bytes) (sched : String → Nat → Option Nat)
    (p : Pipeline InoutFormat) (f : String) (old : Bytes) : List Bytes × Option Err :=
  match p.spawnStream (h.stagesWith (back f p) p [Reader.open old (sched f)]) with
  | .error e => ([], some e)
  | .ok s => (split (consumeStream s.src h.block h.fuel s.st).1, (consumeStream s.src h.block h.fuel s.st).2)

/-- One file of the in-place mode on the disk `σ`. -/
def inplaceStep (h : Host) (back : String → Pipeline InoutFormat → Node → DynSeg → Except Err DynByte) (split : Bytes → List Bytes) (sched : String → Nat → Option Nat)
    (rest : String → Bytes × (Nat → Option Nat)) (a : Args) (p : Pipeline InoutFormat) (σ : Disk) (f : String) (old : Bytes) : List Bytes × Option Err :=
  inplaceRunWith (h.during sched (if (inplaceOrder a.inputs).head? = some f then none else some (rest f)) σ) back split sched p f old

/-- `inplaceRunWith` for the interleaving in which the command prints at the end only. -/
def inplaceRun (h : Host) (split : Bytes → List Bytes) (sched : String → Nat → Option Nat) (p : Pipeline InoutFormat) (f : String) (old : Bytes) : List Bytes × Option Err :=
  match p.spawnStream (h.stages p [Reader.open old (sched f)]) with
  | .error e => ([], some e)
  | .ok s => (split (consumeStream s.src h.block h.fuel s.st).1, (consumeStream s.src h.block h.fuel s.st).2)

/-- The files that `--patch` and `--guide` name are on the disk and are neither inputs nor temporary files; the standard input is given for one of them only if there is a single input. -/
structure Apart (h : Host) (a : Args) (disk : Disk) (sched : String → Nat → Option Nat) : Prop where
  found : ∀ n ∈ a.patch.toList ++ a.guide.toList, n ≠ "-" → n ≠ "/dev/stdin" → h.files n = (disk n).map fun c => (c, sched n)
  kept : ∀ n ∈ a.patch.toList ++ a.guide.toList, n ∉ a.inputs ∧ ∀ f ∈ a.inputs, n ≠ tmpName f
  once : ∀ n ∈ a.patch.toList ++ a.guide.toList, n = "-" ∨ n = "/dev/stdin" → ∀ f ∈ a.inputs, ∀ g ∈ a.inputs, f = g

theorem Apart.none {h : Host} {a : Args} {disk : Disk} {sched : String → Nat → Option Nat} (h1 : a.patch = none) (h2 : a.guide = none) : Apart h a disk sched := by
  constructor <;> simp [h1, h2]

/-! ## The streams do not depend on other files -/

theorem loop_congr {T T' : Stages β γ κ} : ∀ (l : List Node) (st : Option κ × NodeInstance β γ), (∀ n ∈ l, ∀ st, T.step n st = T'.step n st) → T.loop l st = T'.loop l st
  | [], _, _ => rfl
  | n :: l, st, h => by
    rw [Stages.loop, Stages.loop, h n (by simp)]
    cases T'.step n st with
    | error e => rfl
    | ok st' => exact loop_congr l st' fun m hm => h m (by simp [hm])

theorem opt_ok {parse : List Char → Except Err α} {o : Option String} {r : Option α} (h : Args.opt parse o = .ok r) : ∀ x, r = some x → ∃ s, o = some s ∧ parse s.toList = .ok x := by
  rintro x rfl
  cases o with
  | none => cases h
  | some s =>
    refine ⟨s, rfl, ?_⟩
    rw [Args.opt] at h
    cases hp : parse s.toList with
    | error e => rw [hp] at h; cases h
    | ok y => rw [hp] at h; cases h; rfl

theorem pair_le {s : List Char} {x y : Nat} (h : Args.parseUsizePair s = .ok (x, y)) : x ≤ usizeMax := by
  unfold Args.parseUsizePair at h
  cases hd : Args.parseDelimited s with
  | error e => rw [hd] at h; cases h
  | ok vals =>
    rw [hd] at h
    simp only [bind, Except.bind] at h
    split at h
    · cases h
    · split at h
      · cases h
        have := Int64.toInt_lt ((vals.getD 0 none).getD 0)
        unfold usizeMax
        omega
      · cases h

theorem parse_keeps {fuel : Nat} {a : Args} {m : PipelineArgs InoutFormat} (h : a.parse fuel = .ok m) :
    m.patch = a.patch ∧ m.guide = a.guide ∧ ∀ x y, m.pad = some (x, y) → x ≤ usizeMax := by
  unfold Args.parse at h
  simp only [bind, Except.bind] at h
  split at h
  · cases h
  split at h
  · cases h
  split at h
  · cases h
  split at h
  · cases h
  split at h
  · cases h
  split at h
  · cases h
  rename_i hpad
  split at h
  · cases h
  split at h
  · cases h
  cases h
  refine ⟨rfl, rfl, fun x y hxy => ?_⟩
  obtain ⟨s, _, hs⟩ := opt_ok hpad (x, y) hxy
  exact pair_le hs

/-- The nodes of the pipeline that open a file open one that is named by `--patch` or `--guide`. -/
theorem prepare_names {h : Host} {a : Args} {p : Pipeline InoutFormat} (hp : h.prepare a = .ok p) :
    (∀ f, .patch f ∈ p.nodes → f ∈ a.patch.toList ++ a.guide.toList) ∧ ∀ f, .guide f ∈ p.nodes → f ∈ a.patch.toList ++ a.guide.toList := by
  unfold Host.prepare at hp
  split at hp
  · cases hp
  rename_i m hm
  split at hp
  · cases hp
  obtain ⟨k1, k2, k3⟩ := parse_keeps hm
  obtain ⟨_, hn, _⟩ := C32_order _ m k3 p hp
  refine ⟨fun f hf => ?_, fun f hf => ?_⟩
  · have : m.patch = some f := (hn _).1 hf
    simp [← k1, this]
  · have : m.guide = some f := (hn _).1 hf
    simp [← k2, this]

/-- The streams are the same for two hosts that differ in files that the options do not name. -/
theorem spawn_congr {h : Host} {a : Args} {p : Pipeline InoutFormat} (hp : h.prepare a = .ok p) (files : String → Option InFile)
    (hsame : ∀ n ∈ a.patch.toList ++ a.guide.toList, files n = h.files n) (back : Node → DynSeg → Except Err DynByte) (sources : List Reader) :
    p.spawnStream (({ h with files := files } : Host).stagesWith back p sources) = p.spawnStream (h.stagesWith back p sources) := by
  obtain ⟨n1, n2⟩ := prepare_names hp
  have hopen : ∀ n ∈ a.patch.toList ++ a.guide.toList, ({ h with files := files } : Host).openFile p n = h.openFile p n := by
    intro n hn
    unfold Host.openFile Host.openReader
    rw [show ({ h with files := files } : Host).files n = h.files n from hsame n hn]
  have hloop : ∀ st, ∀ l, (∀ n ∈ l, n ∈ p.nodes) → (({ h with files := files } : Host).stagesWith back p sources).loop l st = (h.stagesWith back p sources).loop l st := by
    intro st l hl
    refine loop_congr l st fun n hn st => ?_
    have hn' := hl n hn
    obtain ⟨c, st⟩ := st
    cases n <;> try rfl
    · rename_i f
      cases st with
      | segment s => rfl
      | byte s =>
        simp only [Stages.step]
        rw [show (({ h with files := files } : Host).stagesWith back p sources).filter (.patch f) s = (h.stagesWith back p sources).filter (.patch f) s from by
          show Host.filter _ p (.patch f) s = Host.filter _ p (.patch f) s
          simp only [Host.filter]
          rw [hopen f (n1 f hn')]
          rfl]
    · rename_i f
      cases st with
      | segment s => rfl
      | byte s =>
        simp only [Stages.step]
        rw [show (({ h with files := files } : Host).stagesWith back p sources).slicer (.guide f) s = (h.stagesWith back p sources).slicer (.guide f) s from by
          show Host.slicer _ p (.guide f) s = Host.slicer _ p (.guide f) s
          simp only [Host.slicer]
          rw [hopen f (n2 f hn')]
          rfl]
  unfold Pipeline.spawnStream
  cases hnodes : p.nodes with
  | nil => rfl
  | cons first ns =>
    simp only
    have hl := fun st => hloop st ns fun n hn => by rw [hnodes]; simp [hn]
    simp only [hl]
    rfl

/-- The files, all of which can be processed. -/
theorem inplace_runs (h : Host) (a : Args) (j : Job) (disk : Disk) (sched : String → Nat → Option Nat) (scheds : List (Nat → Option Nat)) (split : Bytes → List Bytes)
    (hsplit : ∀ b, (split b).flatten = b) (ha : Asks a j) (hcount : ¬ a.countStdin + a.countStdinOfOptions > 1) : ∀ inputs : List String,
    (∀ f ∈ inputs, ∃ old content segs, disk f = some old ∧ Room h a j [(old, sched f)] [content] scheds ∧ j.Slices (j.stream [content]) segs) →
    ∃ N, ∀ fuel, N < fuel → ∀ f ∈ inputs, ∃ p, (h.withFuel fuel).prepare a = .ok p ∧
      ((∃ old new, disk f = some old ∧ newContent (inplaceRun (h.withFuel fuel) split sched p) disk f = some new ∧ Replaces j old new) ∨
        (newContent (inplaceRun (h.withFuel fuel) split sched p) disk f = none ∧ ∃ e, Failing scheds e))
  | [], _ => ⟨0, fun _ _ _ h => by simp at h⟩
  | f :: rest, hroom => by
    obtain ⟨N, hN⟩ := inplace_runs h a j disk sched scheds split hsplit ha hcount rest fun g hg => hroom g (by simp [hg])
    obtain ⟨old, content, segs, h1, h2, h3⟩ := hroom f (by simp)
    obtain ⟨text, M, p, g1, _, g3⟩ := job_runs h a j [(old, sched f)] [content] scheds ha h2 (by simp) hcount segs h3
    refine ⟨N + M, fun fuel hf g hg => ?_⟩
    rcases List.mem_cons.1 hg with rfl | hg
    · obtain ⟨g4, g5⟩ := g3 fuel (by omega)
      refine ⟨p, g4, ?_⟩
      unfold newContent inplaceRun
      rw [h1]
      simp only
      rcases g5 with ⟨e, he, heq⟩ | ⟨d, heq, hd | ⟨e, out, he, hd, _⟩⟩
      · rw [show [Reader.open old (sched g)] = [(old, sched g)].map fun f : InFile => Reader.open f.1 f.2 from rfl, heq]
        exact Or.inr ⟨rfl, e, he⟩
      · rw [show [Reader.open old (sched g)] = [(old, sched g)].map fun f : InFile => Reader.open f.1 f.2 from rfl, heq]
        simp only
        rw [show consumeStream d.src (h.withFuel fuel).block (h.withFuel fuel).fuel d.st = (text, none) from hd]
        refine Or.inl ⟨old, text, rfl, by simp [hsplit], content, segs, ?_, h3, g1⟩
        cases h2.decodes with
        | cons h _ => exact h
      · rw [show [Reader.open old (sched g)] = [(old, sched g)].map fun f : InFile => Reader.open f.1 f.2 from rfl, heq]
        simp only
        rw [show consumeStream d.src (h.withFuel fuel).block (h.withFuel fuel).fuel d.st = (out, some e) from hd]
        exact Or.inr ⟨rfl, e, he⟩
    · exact hN fuel (by omega) g hg

/-- The files after a run in which every input is to be replaced by something that `Rep` allows. -/
theorem inplace_ops (run : Disk → String → Bytes → List Bytes × Option Err) (inputs : List String) (disk : Disk) (Rep : Bytes → Bytes → Prop) (Bad : Prop) (hsep : Separate inputs)
    (hcon : ∀ f ∈ inputs, (∃ old new, disk f = some old ∧ newContent (here run (inplaceOrder inputs) disk) disk f = some new ∧ Rep old new) ∨ (newContent (here run (inplaceOrder inputs) disk) disk f = none ∧ Bad)) :
    (∀ k, (∀ f ∈ inputs, applyAll disk ((inplaceOps run (inplaceOrder inputs) disk).1.take k) f = disk f ∨
        ∃ old new, disk f = some old ∧ applyAll disk ((inplaceOps run (inplaceOrder inputs) disk).1.take k) f = some new ∧ Rep old new) ∧
      ∀ n, n ∉ inputs → (∀ f ∈ inputs, n ≠ tmpName f) → applyAll disk ((inplaceOps run (inplaceOrder inputs) disk).1.take k) n = disk n) ∧
    (¬ Bad → (inplaceOps run (inplaceOrder inputs) disk).2 = true ∧
      ∀ f ∈ inputs, (∃ old new, disk f = some old ∧ applyAll disk (inplaceOps run (inplaceOrder inputs) disk).1 f = some new ∧ Rep old new) ∧
        applyAll disk (inplaceOps run (inplaceOrder inputs) disk).1 (tmpName f) = none) := by
  refine ⟨fun k => ⟨fun f hf' => ?_, fun n h1 h2 => ?_⟩, fun hok => ?_⟩
  · rcases C09_old_or_new_partial run inputs disk hsep k f hf' with h | ⟨h1, h2⟩
    · exact Or.inl h
    · rcases hcon f hf' with ⟨old, new, g1, g2, g3⟩ | ⟨g1, _⟩
      · exact Or.inr ⟨old, new, g1, by rw [h2, g2], g3⟩
      · exact absurd g1 h1
  · obtain ⟨i, hint⟩ := C09_crash_partial run inputs disk hsep k
    have hmem := (inplaceOrder_spec inputs).2
    exact hint.other n (fun h => h1 ((hmem n).1 h)) fun f hf' => h2 f ((hmem f).1 hf')
  · obtain ⟨_, h2, h3⟩ := C09_end_partial run inputs disk hsep
    have hall : ∀ f ∈ inputs, ∃ old new, disk f = some old ∧ newContent (here run (inplaceOrder inputs) disk) disk f = some new ∧ Rep old new := by
      intro f hf'
      rcases hcon f hf' with h | ⟨_, hbad⟩
      · exact h
      · exact absurd hbad hok
    have htrue := h2.2 fun f hf' => by
      obtain ⟨_, _, _, h, _⟩ := hall f hf'
      rw [h]
      simp
    refine ⟨htrue, fun f hf' => ?_⟩
    obtain ⟨g1, g2⟩ := h3 htrue f hf'
    obtain ⟨old, new, k1, k2, k3⟩ := hall f hf'
    exact ⟨⟨old, new, k1, by rw [g1, k2], k3⟩, g2⟩

/-- `inplace_ops` for the program. -/
theorem inplace_files (h : Host) (back : String → Pipeline InoutFormat → Node → DynSeg → Except Err DynByte) (a : Args) (disk : Disk) (sched : String → Nat → Option Nat)
    (rest : String → Bytes × (Nat → Option Nat)) (split : Bytes → List Bytes) (Rep : Bytes → Bytes → Prop) (Bad : Prop)
    (hne : a.inputs ≠ []) (hsep : Separate a.inputs) (h0 : a.countStdin = 0) (hap : Apart h a disk sched)
    (hN : ∀ f ∈ a.inputs, ∃ p, h.prepare a = .ok p ∧
      ((∃ old new, disk f = some old ∧ newContent (inplaceRunWith h back split sched p) disk f = some new ∧ Rep old new) ∨
        (newContent (inplaceRunWith h back split sched p) disk f = none ∧ Bad))) :
    (∀ k, (∀ f ∈ a.inputs, applyAll disk ((h.runInplaceWith back split sched rest a disk).1.take k) f = disk f ∨
        ∃ old new, disk f = some old ∧ applyAll disk ((h.runInplaceWith back split sched rest a disk).1.take k) f = some new ∧ Rep old new) ∧
      ∀ n, n ∉ a.inputs → (∀ f ∈ a.inputs, n ≠ tmpName f) → applyAll disk ((h.runInplaceWith back split sched rest a disk).1.take k) n = disk n) ∧
    (¬ Bad → (h.runInplaceWith back split sched rest a disk).2 = true ∧
      ∀ f ∈ a.inputs, (∃ old new, disk f = some old ∧ applyAll disk (h.runInplaceWith back split sched rest a disk).1 f = some new ∧ Rep old new) ∧
        applyAll disk (h.runInplaceWith back split sched rest a disk).1 (tmpName f) = none) := by
  obtain ⟨p, hp⟩ : ∃ p, h.prepare a = .ok p := by
    cases hin : a.inputs with
    | nil => exact absurd hin hne
    | cons f _ =>
      obtain ⟨p, hp, _⟩ := hN f (by rw [hin]; simp)
      exact ⟨p, hp⟩
  have hrun : h.runInplaceWith back split sched rest a disk = inplaceOps (inplaceStep h back split sched rest a p) (inplaceOrder a.inputs) disk := by
    unfold Host.runInplaceWith
    rw [hp]
    simp only
    rw [if_neg (by omega)]
    rfl
  rw [hrun]
  refine inplace_ops _ a.inputs disk Rep Bad hsep fun f hf => ?_
  obtain ⟨p', hp', hcon⟩ := hN f hf
  rw [hp] at hp'
  cases hp'
  have hmem := (inplaceOrder_spec a.inputs).2
  have hsame : ∀ run : Disk → String → Bytes → List Bytes × Option Err, ∀ n ∈ a.patch.toList ++ a.guide.toList,
      (h.during sched (if (inplaceOrder a.inputs).head? = some f then none else some (rest f)) (turn run (inplaceOrder a.inputs) disk f)).files n = h.files n := by
    intro run n hn
    show (if Args.isStdin n = true then _ else _) = _
    by_cases hs : n = "-" ∨ n = "/dev/stdin"
    · rw [if_pos (by simpa [Args.isStdin] using hs)]
      have hhead : (inplaceOrder a.inputs).head? = some f := by
        cases ho : inplaceOrder a.inputs with
        | nil =>
          have := (hmem f).2 hf
          rw [ho] at this
          simp at this
        | cons g l => rw [List.head?_cons, hap.once n hn hs g ((hmem g).1 (by rw [ho]; simp)) f hf]
      rw [if_pos hhead]
    · rw [if_neg (by simpa [Args.isStdin] using hs)]
      rw [not_or] at hs
      obtain ⟨k1, k2⟩ := hap.kept n hn
      rw [C09_turn run a.inputs disk hsep f hf n (Or.inr k1) k2, hap.found n hn hs.1 hs.2]
  suffices heq : newContent (here (inplaceStep h back split sched rest a p) (inplaceOrder a.inputs) disk) disk f = newContent (inplaceRunWith h back split sched p) disk f by
    rw [heq]
    exact hcon
  unfold newContent
  cases disk f with
  | none => rfl
  | some old =>
    have := spawn_congr hp _ (hsame (inplaceStep h back split sched rest a p)) (back f p) [Reader.open old (sched f)]
    simp only
    suffices heq : here (inplaceStep h back split sched rest a p) (inplaceOrder a.inputs) disk f old = inplaceRunWith h back split sched p f old by rw [heq]
    unfold here inplaceStep inplaceRunWith
    rw [← this]
    rfl

theorem inplace_stdin {a : Args} (hstd : ∀ f ∈ a.inputs, f ≠ "-" ∧ f ≠ "/dev/stdin") (hstd' : ((a.patch.toList ++ a.guide.toList).filter fun x => x = "-" ∨ x = "/dev/stdin").length ≤ 1) :
    a.countStdin = 0 ∧ ¬ a.countStdin + a.countStdinOfOptions > 1 := by
  have h0 : a.countStdin = 0 := by
    unfold Args.countStdin
    rw [List.countP_eq_zero]
    intro f hf
    have := hstd f hf
    simp [Args.isStdin, this.1, this.2]
  refine ⟨h0, ?_⟩
  rw [h0]
  unfold Args.countStdinOfOptions
  rw [countP_stdin]
  omega

/-- **C40**: after any number of operations on the disk every input holds what it held before or what its options ask for, and no file other than the inputs and their
temporary files has changed; if all files can be read the program succeeds, every input holds what its options ask for, and no temporary file is left. -/
theorem C40_inplace_partial (h : Host) (a : Args) (j : Job) (disk : Disk) (sched : String → Nat → Option Nat) (rest : String → Bytes × (Nat → Option Nat)) (scheds : List (Nat → Option Nat)) (split : Bytes → List Bytes)
    (hsplit : ∀ b, (split b).flatten = b) (ha : Asks a j) (_hi : a.inplace = true) (hne : a.inputs ≠ []) (hsep : Separate a.inputs)
    (hstd : ∀ f ∈ a.inputs, f ≠ "-" ∧ f ≠ "/dev/stdin") (hstd' : ((a.patch.toList ++ a.guide.toList).filter fun x => x = "-" ∨ x = "/dev/stdin").length ≤ 1)
    (hap : Apart h a disk sched)
    (hroom : ∀ f ∈ a.inputs, ∃ old content segs, disk f = some old ∧ Room h a j [(old, sched f)] [content] scheds ∧ j.Slices (j.stream [content]) segs) :
    ∃ N, ∀ fuel, N < fuel →
      (∀ k, (∀ f ∈ a.inputs, applyAll disk (((h.withFuel fuel).runInplace split sched rest a disk).1.take k) f = disk f ∨
          ∃ old new, disk f = some old ∧ applyAll disk (((h.withFuel fuel).runInplace split sched rest a disk).1.take k) f = some new ∧ Replaces j old new) ∧
        ∀ n, n ∉ a.inputs → (∀ f ∈ a.inputs, n ≠ tmpName f) → applyAll disk (((h.withFuel fuel).runInplace split sched rest a disk).1.take k) n = disk n) ∧
      ((∀ s ∈ scheds, ∀ i, s i ≠ none) → ((h.withFuel fuel).runInplace split sched rest a disk).2 = true ∧
        ∀ f ∈ a.inputs, (∃ old new, disk f = some old ∧ applyAll disk ((h.withFuel fuel).runInplace split sched rest a disk).1 f = some new ∧ Replaces j old new) ∧
          applyAll disk ((h.withFuel fuel).runInplace split sched rest a disk).1 (tmpName f) = none) := by
  obtain ⟨h0, hcount⟩ := inplace_stdin hstd hstd'
  obtain ⟨N, hN⟩ := inplace_runs h a j disk sched scheds split hsplit ha hcount a.inputs hroom
  refine ⟨N, fun fuel hf => ?_⟩
  obtain ⟨h1, h2⟩ := inplace_files (h.withFuel fuel) (fun _ => (h.withFuel fuel).patchBack) a disk sched rest split (Replaces j) (∃ e, Failing scheds e) hne hsep h0
    ⟨hap.found, hap.kept, hap.once⟩ (hN fuel hf)
  refine ⟨h1, fun hok => h2 ?_⟩
  rintro ⟨e, _, s, hs, i, hsi⟩
  exact hok s hs i hsi

/-! ## Example -/

/-- `nd --inplace --cut 1.. world.txt hello.txt` -/
def inplaceArgs : Args := { inputs := ["world.txt", "hello.txt"], inplace := true, cut := some "1.." }

def inplaceJob : Job := { joint := .alone, cut := some [(⟨false, 1⟩, ⟨true, 0⟩)], printing := .binary }

theorem inplace_asks : Asks inplaceArgs inplaceJob :=
  ⟨⟨.none, .inplace, .none, .alone, .some ⟨["1..".toList], by simp, .cons (.mk (digit_side .first '1' (by decide)) .empty) .nil, Or.inl (by decide)⟩, .none, .none, .none, .none, .none, .none⟩,
    Or.inl rfl, rfl⟩

open Conformance in
theorem inplace_room (old : Bytes) (hl : old.length < 2 ^ 47) : Room (host none) inplaceArgs inplaceJob [(old, fun _ => some 3)] [old] [fun _ => some 3] := by
  have hst : inplaceJob.stream [old] = Spec.cut [(⟨false, 1⟩, ⟨true, 0⟩)] old := by simp [Job.stream, Job.filtered, inplaceJob, Joint.join, Spec.pad]
  have hcut : (Spec.cut [(⟨false, 1⟩, ⟨true, 0⟩)] old).length ≤ old.length := by
    exact keep_length_le _ _ _
  refine { release := rfl, block := by decide, listed := by simp, patch := trivial, decodes := .cons rfl .nil, text := fun h => absurd rfl h, pad := by decide,
           aligned := ?_, joined := ?_, stream := ?_, slicer := ⟨by simp [inplaceArgs], by simp [inplaceJob]⟩, regex := trivial, fits := Or.inl (Or.inl ?_) }
  · simp [inplaceJob, Joint.word, alignTo_one]
    omega
  · simp [inplaceJob, Joint.join]
    omega
  · rw [hst]
    omega
  · simp [Job.Fits, Job.Near, inplaceJob, RangeEnd.at, host]

open Conformance in
/-- Both files lose their first byte. -/
example : ∃ N, ∀ fuel, N < fuel → (((host none).withFuel fuel).runInplace (fun b => [b]) (fun _ _ => some 3) (fun _ => ([], fun _ => some 1)) inplaceArgs content).2 = true ∧
    applyAll content (((host none).withFuel fuel).runInplace (fun b => [b]) (fun _ _ => some 3) (fun _ => ([], fun _ => some 1)) inplaceArgs content).1 "hello.txt" = some (bytes! "ello\n") ∧
    applyAll content (((host none).withFuel fuel).runInplace (fun b => [b]) (fun _ _ => some 3) (fun _ => ([], fun _ => some 1)) inplaceArgs content).1 "world.txt" = some (bytes! "orld\n") := by
  have slices : ∀ old, inplaceJob.Slices (inplaceJob.stream [old]) (strides (inplaceJob.stream [old]).length 16 0 16) := fun old =>
    ⟨_, _, rfl, rfl, by simp [Job.picked, Job.merged, Job.inverted, Job.searched, inplaceJob, RangeEnd.at]⟩
  obtain ⟨N, hN⟩ := C40_inplace_partial (host none) inplaceArgs inplaceJob content (fun _ _ => some 3) (fun _ => ([], fun _ => some 1)) [fun _ => some 3] (fun b => [b]) (by simp) inplace_asks rfl (by decide)
    (by unfold Separate; decide) (by decide) (by decide) (.none rfl rfl) (by
      intro f hf
      simp only [inplaceArgs, List.mem_cons, List.not_mem_nil, or_false] at hf
      rcases hf with rfl | rfl
      · exact ⟨bytes! "world\n", bytes! "world\n", _, rfl, inplace_room _ (by decide), slices _⟩
      · exact ⟨bytes! "Hello\n", bytes! "Hello\n", _, rfl, inplace_room _ (by decide), slices _⟩)
  have new : ∀ old new, Replaces inplaceJob old new → new = Spec.cut [(⟨false, 1⟩, ⟨true, 0⟩)] old := by
    rintro old new ⟨c, segs, h1, h2, h3⟩
    rw [show c = old from h1] at h2 h3
    rw [C37_slices_unique h2 (slices old)] at h3
    have ht : Format.Tiles (inplaceJob.stream [old]).length 0 (strides (inplaceJob.stream [old]).length 16 0 16) := tiles_strides _ 16 (by decide)
    rw [show new = _ from h3, tiles_flatten _ _ 0 ht, List.drop_zero]
    simp [Job.stream, Job.filtered, inplaceJob, Joint.join, Spec.pad]
  refine ⟨N, fun fuel hf => ?_⟩
  obtain ⟨_, h2⟩ := hN fuel hf
  obtain ⟨h3, h4⟩ := h2 (by simp)
  refine ⟨h3, ?_, ?_⟩
  · obtain ⟨⟨old, n, g1, g2, g3⟩, _⟩ := h4 "hello.txt" (by decide)
    rw [g2, new old n g3]
    cases g1
    decide
  · obtain ⟨⟨old, n, g1, g2, g3⟩, _⟩ := h4 "world.txt" (by decide)
    rw [g2, new old n g3]
    cases g1
    decide

/-! ## The files of the options -/

/-- `nd --inplace --patch a b c`, where `a` is not an input. -/
example : Apart { Conformance.host none with files := fun n => if n = "a" then some ([48], fun _ => some 1) else none } { inputs := ["b", "c"], inplace := true, patch := some "a" }
    (fun n => if n = "a" then some [48] else none) (fun _ _ => some 1) := by
  constructor
  · simp
  · simp [tmpName]
  · simp

open Conformance in
/-- **Counterexample**: `nd --inplace --patch - a b` with a single patch on the standard input.  The standard input is read to its end for `a`, and `b` is not patched.  The program
succeeds. -/
theorem C40_stdin_counterexample :
    let disk : Disk := fun n => if n = "a" ∨ n = "b" then some (bytes! "jello\n") else none
    let r := (host (some (bytes! "000000000000 0001 | 48\n"))).runInplace (fun b => [b]) (fun _ _ => some (2 ^ 21)) (fun _ => ([], fun _ => some 1))
      { inputs := ["a", "b"], inplace := true, patch := some "-" } disk
    r.2 = true ∧ applyAll disk r.1 "a" = some (bytes! "Hello\n") ∧ applyAll disk r.1 "b" = some (bytes! "jello\n") := by
  decide +kernel

/-- A file with a patch that applies to the file itself, and another file. -/
def selfPatch : Disk := fun n => if n = "a" then some (bytes! "000000000014 0002 | 37 39\n") else if n = "b" then some (bytes! "--------------------00 00-\n") else none

open Conformance in
/-- **Counterexample**: `nd --inplace --patch a a b` patches `b` with what `a` holds after it has been patched, which is not what `nd --patch a b` prints. -/
theorem C40_patch_input_counterexample :
    let h : Host := { host none with files := fun n => (selfPatch n).map fun c => (c, fun _ => some (2 ^ 21)) }
    let r := h.runInplace (fun b => [b]) (fun _ _ => some (2 ^ 21)) (fun _ => ([], fun _ => some 1)) { inputs := ["a", "b"], inplace := true, patch := some "a" } selfPatch
    h.run { inputs := ["b"], patch := some "a", outFormat := some "b" } = (bytes! "--------------------79 00-\n", none) ∧
    r.2 = true ∧ applyAll selfPatch r.1 "a" = some (bytes! "000000000014 0002 | 79 39\n") ∧ applyAll selfPatch r.1 "b" = some (bytes! "--------------------y9 00-\n") := by
  decide +kernel

end Nd.Props
