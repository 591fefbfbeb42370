import Verif.Conformance.Host
import Verif.Props.ProgramInplace
import Verif.Props.ProgramSmall
/-!
# C42: what a call with `--patch-back` prints
-/
namespace Nd.Props
open Nd Nd.Spec

/-- The command prints the records `recs` if it is given `text`, and its output and the temporary file can be read. -/
structure Answers (h : Host) (command : String) (text : Bytes) (recs : List Rec) : Prop where
  records : Records .hex (h.commands command text).1 recs
  short : ShortLines h.block (h.commands command text).1
  ordered : Ordered 0 recs
  read : ∀ i, (h.commands command text).2 i ≠ none
  temp : ∀ i, h.tempSched i ≠ none

/-- The drain of a call with `--patch-back`. -/
theorem back_drain {a : Args} {command : String} (ho : a.output = none) (hpb : a.patchBack = some command) (m : PipelineArgs InoutFormat) (h1 : m.output = a.output)
    (h2 : m.patchBack = a.patchBack) : m.drain = .ok (false, .patchBack command) := by
  unfold PipelineArgs.drain
  rw [h1, h2, hpb, ho]

/-- What the pipeline of a call with `--patch-back` prints for the inputs `files`, however the threads are interleaved, and in the order of `Host.patchBack`. -/
theorem job_backs_as (h : Host) (a : Args) (j : Job) (files : List InFile) (contents : List Bytes) (scheds : List (Nat → Option Nat)) (command : String)
    (ha : AsksBody a j) (hpb : a.patchBack = some command) (ho : a.output = none) (hs : Room h a j files contents scheds) (hne : files ≠ []) (hcount : ¬ a.countStdin + a.countStdinOfOptions > 1)
    (hok : ∀ s ∈ scheds, ∀ i, s i ≠ none) (hns : ∀ rs, j.slicer ≠ .slice rs) (hl : j.lines = none) (segs : List Seg) (hsegs : j.Slices (j.stream contents) segs)
    (hpo : j.Suits h.block (files.map Prod.snd) (j.stream contents) ∨ j.Pours (j.stream contents) segs) :
    (Printing.text .hex).Prints (j.stream contents) segs ((slicesOf (j.stream contents) segs).flatMap (Formatting.line ⟨.hhh, j.slicer.columns⟩)) ∧ (∀ l ∈ lines ((slicesOf (j.stream contents) segs).flatMap (Formatting.line ⟨.hhh, j.slicer.columns⟩)), ∃ x ∈ segs, l.length ≤ 47 + 4 * max x.len j.slicer.columns) ∧
      ∀ recs, Answers h command ((slicesOf (j.stream contents) segs).flatMap (Formatting.line ⟨.hhh, j.slicer.columns⟩)) recs → ∃ N p, ∀ fuel, N < fuel → (h.withFuel fuel).prepare a = .ok p ∧
        ∃ g, (∀ back, p.spawnStream ((h.withFuel fuel).stagesWith back p (files.map fun f => Reader.open f.1 f.2)) = back (.patchBack command) g) ∧ (∃ r, (h.withFuel fuel).Backs p command g r) ∧
          ∀ r, (h.withFuel fuel).Backs p command g r ∨ r = (h.withFuel fuel).patchBack p (.patchBack command) g →
            ∃ d, r = .ok d ∧ consumeStream d.src h.block fuel d.st = (splice 0 (j.stream contents) recs, none) := by
  have hblock : j.pad.1 ≤ usizeMax := by
    have := hs.joined
    unfold usizeMax
    omega
  obtain ⟨hw0, m, p, f, hm, hfa, hp, _⟩ := asks_pipeline ha (back_drain ho hpb) (fun h => by rw [hpb] at h; cases h) hs.patch hblock hs.slicer hs.regex hs.proper
  rw [hpb] at hp
  have hmax : (2 : Nat) ^ 48 < usizeMax := by decide
  have hfail : ∀ e, ¬ Failing scheds e := fun e ⟨_, s, hs, i, hi⟩ => hok s hs i hi
  obtain ⟨N, hN⟩ := pipeline_threads h scheds command j p f hp files contents hs.block hs.release hne hs.listed hw0 hs.decodes (fun c hc => by
    have := hs.aligned c hc
    omega) hs.text hs.pad (by have := hs.joined; omega) hs.stream hs.fits hsegs hns hl hpo
  obtain ⟨hpr, hll⟩ := prints (pr := .text .hex) (f := ⟨.hhh, j.slicer.columns⟩) rfl (slices_inside hsegs (hs.fits.imp id And.right)) hs.stream
  refine ⟨hpr, hll (by simp), fun recs hans => ?_⟩
  refine ⟨N + 7 + (j.stream contents).length + recs.length + (h.commands command ((slicesOf (j.stream contents) segs).flatMap (Formatting.line ⟨.hhh, j.slicer.columns⟩))).1.length, p,
    fun fuel hfu => ⟨?_, ?_⟩⟩
  · unfold Host.prepare
    rw [show a.parse (h.withFuel fuel).fuel = .ok m from hm fuel (by omega)]
    simp only
    rw [if_neg hcount, hfa]
  · rcases hN fuel (by omega) with ⟨e, he, _⟩ | ⟨g, heq, w, hw, hg⟩
    · exact absurd he (hfail e)
    · refine ⟨g, heq, backs_exist (h.withFuel fuel) p _ hp.fed hp.patch command hg hfail, fun r hr => ?_⟩
      obtain ⟨d, h1, h2⟩ : ∃ d, r = .ok d ∧ Delivers d.src (fun _ => False) NlMargin d.st ((j.stream contents).length + 1) (splice 0 (j.stream contents) recs) := by
        rcases hr with hr | rfl
        · exact backs_deliver h p _ hp.fed hp.patch command hs.block hg hfail (by have := hs.stream; omega) rfl hans.records hans.short hans.ordered ⟨hans.read, hans.temp⟩ fuel (by omega) hr
        · exact back_delivers h p _ hp.fed hp.patch command hs.block hg hfail (by have := hs.stream; omega) rfl hans.records hans.short hans.ordered ⟨hans.read, hans.temp⟩ fuel (by omega)
      refine ⟨d, h1, ?_⟩
      rcases C08_copy_exact h.block fuel d.st _ _ h2 (by omega) with h | ⟨e, _, he, _⟩
      · exact h
      · exact he.elim

theorem job_backs_with (h : Host) (a : Args) (j : Job) (files : List InFile) (contents : List Bytes) (scheds : List (Nat → Option Nat)) (command : String)
    (ha : AsksBody a j) (hpb : a.patchBack = some command) (ho : a.output = none) (hs : Room h a j files contents scheds) (hne : files ≠ []) (hcount : ¬ a.countStdin + a.countStdinOfOptions > 1)
    (hok : ∀ s ∈ scheds, ∀ i, s i ≠ none) (hns : ∀ rs, j.slicer ≠ .slice rs) (hl : j.lines = none) (segs : List Seg) (hsegs : j.Slices (j.stream contents) segs)
    (hpo : j.Suits h.block (files.map Prod.snd) (j.stream contents) ∨ j.Pours (j.stream contents) segs) :
    ∃ text, (Printing.text .hex).Prints (j.stream contents) segs text ∧ (∀ l ∈ lines text, ∃ x ∈ segs, l.length ≤ 47 + 4 * max x.len j.slicer.columns) ∧
      ∀ recs, Answers h command text recs → ∃ N p, ∀ fuel, N < fuel → (h.withFuel fuel).prepare a = .ok p ∧
        ∃ g, (∀ back, p.spawnStream ((h.withFuel fuel).stagesWith back p (files.map fun f => Reader.open f.1 f.2)) = back (.patchBack command) g) ∧ (∃ r, (h.withFuel fuel).Backs p command g r) ∧
          ∀ r, (h.withFuel fuel).Backs p command g r ∨ r = (h.withFuel fuel).patchBack p (.patchBack command) g →
            ∃ d, r = .ok d ∧ consumeStream d.src h.block fuel d.st = (splice 0 (j.stream contents) recs, none) := ⟨_, job_backs_as h a j files contents scheds command ha hpb ho hs hne hcount hok hns hl segs hsegs hpo⟩

/-- What the pipeline of a call with `--patch-back` prints for the inputs `files`. -/
theorem job_backs (h : Host) (a : Args) (j : Job) (files : List InFile) (contents : List Bytes) (scheds : List (Nat → Option Nat)) (command : String)
    (ha : AsksBody a j) (hpb : a.patchBack = some command) (ho : a.output = none) (hs : Room h a j files contents scheds) (hne : files ≠ []) (hcount : ¬ a.countStdin + a.countStdinOfOptions > 1)
    (hok : ∀ s ∈ scheds, ∀ i, s i ≠ none) (hns : ∀ rs, j.slicer ≠ .slice rs) (hl : j.lines = none) (segs : List Seg) (hsegs : j.Slices (j.stream contents) segs)
    (hpo : j.Suits h.block (files.map Prod.snd) (j.stream contents) ∨ j.Pours (j.stream contents) segs) :
    ∃ text, (Printing.text .hex).Prints (j.stream contents) segs text ∧ (∀ l ∈ lines text, ∃ x ∈ segs, l.length ≤ 47 + 4 * max x.len j.slicer.columns) ∧
      ∀ recs, Answers h command text recs → ∃ N p, ∀ fuel, N < fuel → (h.withFuel fuel).prepare a = .ok p ∧
        ∃ d, p.spawnStream ((h.withFuel fuel).stages p (files.map fun f => Reader.open f.1 f.2)) = .ok d ∧
          consumeStream d.src h.block fuel d.st = (splice 0 (j.stream contents) recs, none) := by
  obtain ⟨text, h1, h2, h3⟩ := job_backs_with h a j files contents scheds command ha hpb ho hs hne hcount hok hns hl segs hsegs hpo
  refine ⟨text, h1, h2, fun recs hr => ?_⟩
  obtain ⟨N, p, h4⟩ := h3 recs hr
  refine ⟨N, p, fun fuel hf => ?_⟩
  obtain ⟨h5, g, h6, _, h7⟩ := h4 fuel hf
  obtain ⟨d, h8, h9⟩ := h7 _ (Or.inr rfl)
  exact ⟨h5, d, by rw [← stagesWith_self, h6, h8], h9⟩

/-- **C42**: with `--patch-back` the command is given the slices in text, and what is printed is the stream, patched with the records that the command prints.

Partial: the conditions of `Surroundings`, all reads succeed (`C42_failure_counterexample`), the command prints nothing before it has read all (`C31_race_counterexample`,
`C31_ahead_counterexample`), and neither `--slice` nor `--lines` (`C42_slice_counterexample`, `C42_lines_counterexample`). -/
theorem C42_run_partial (h : Host) (a : Args) (j : Job) (files : List InFile) (contents : List Bytes) (scheds : List (Nat → Option Nat)) (command : String)
    (ha : AsksBody a j) (hpb : a.patchBack = some command) (ho : a.output = none) (hs : Surroundings h a j files contents scheds)
    (hok : ∀ s ∈ scheds, ∀ i, s i ≠ none) (hns : ∀ rs, j.slicer ≠ .slice rs) (hl : j.lines = none) (segs : List Seg) (hsegs : j.Slices (j.stream contents) segs)
    (hpo : j.Suits h.block (files.map Prod.snd) (j.stream contents) ∨ j.Pours (j.stream contents) segs) :
    ∃ text, (Printing.text .hex).Prints (j.stream contents) segs text ∧ (∀ l ∈ lines text, ∃ x ∈ segs, l.length ≤ 47 + 4 * max x.len j.slicer.columns) ∧
      ∀ recs, Answers h command text recs → ∃ N, ∀ fuel, N < fuel → (h.withFuel fuel).run a = (splice 0 (j.stream contents) recs, none) := by
  obtain ⟨text, h1, h2, h3⟩ := job_backs h a j files contents scheds command ha hpb ho hs.toRoom hs.some_input hs.one_stdin hok hns hl segs hsegs hpo
  refine ⟨text, h1, h2, fun recs hr => ?_⟩
  obtain ⟨N, p, h4⟩ := h3 recs hr
  refine ⟨N, fun fuel hf => ?_⟩
  obtain ⟨h5, d, h6, h7⟩ := h4 fuel hf
  unfold Host.run
  rw [hs.stream_eq h5, h6]
  exact h7

/-- **C42**: however the two threads are interleaved.  The same is printed, and some interleaving is always possible.

Partial: as `C42_run_partial`. -/
theorem C42_threads_partial (h : Host) (a : Args) (j : Job) (files : List InFile) (contents : List Bytes) (scheds : List (Nat → Option Nat)) (command : String)
    (ha : AsksBody a j) (hpb : a.patchBack = some command) (ho : a.output = none) (hs : Surroundings h a j files contents scheds)
    (hok : ∀ s ∈ scheds, ∀ i, s i ≠ none) (hns : ∀ rs, j.slicer ≠ .slice rs) (hl : j.lines = none) (segs : List Seg) (hsegs : j.Slices (j.stream contents) segs)
    (hpo : j.Suits h.block (files.map Prod.snd) (j.stream contents) ∨ j.Pours (j.stream contents) segs) :
    ∃ text, (Printing.text .hex).Prints (j.stream contents) segs text ∧ (∀ l ∈ lines text, ∃ x ∈ segs, l.length ≤ 47 + 4 * max x.len j.slicer.columns) ∧
      ∀ recs, Answers h command text recs → ∃ N, ∀ fuel, N < fuel →
        (∀ back, (h.withFuel fuel).Interleaved back → (h.withFuel fuel).runWith back a = (splice 0 (j.stream contents) recs, none)) ∧
        ∃ p g, (h.withFuel fuel).prepare a = .ok p ∧ (∃ r, (h.withFuel fuel).Backs p command g r) ∧
          ∀ back, p.spawnStream ((h.withFuel fuel).stagesWith back p (files.map fun f => Reader.open f.1 f.2)) = back (.patchBack command) g := by
  obtain ⟨text, h1, h2, h3⟩ := job_backs_with h a j files contents scheds command ha hpb ho hs.toRoom hs.some_input hs.one_stdin hok hns hl segs hsegs hpo
  refine ⟨text, h1, h2, fun recs hr => ?_⟩
  obtain ⟨N, p, h4⟩ := h3 recs hr
  refine ⟨N, fun fuel hf => ?_⟩
  obtain ⟨h5, g, h6, h7, h8⟩ := h4 fuel hf
  refine ⟨fun back hb => ?_, p, g, h5, h7, h6⟩
  obtain ⟨d, h9, h10⟩ := h8 _ (Or.inl (hb p command g h7))
  unfold Host.runWith
  rw [h5]
  simp only [attempt]
  rw [show (if a.inputs = [] then ["-"] else a.inputs).mapM (h.withFuel fuel).openReader = .ok (files.map fun f => Reader.open f.1 f.2) from mapM_open (h := h.withFuel fuel) hs.opened]
  simp only
  rw [h6, h9]
  exact h10

/-- Records that repeat what is in the stream change nothing. -/
theorem splice_self (content : Bytes) : ∀ (segs : List Seg) (p : Nat), (∀ x ∈ segs, x.tail ≤ content.length) →
    Ordered p (segs.map fun x => { offset := x.pos, span := x.len, data := x.bytes content }) →
    splice p (content.drop p) (segs.map fun x => { offset := x.pos, span := x.len, data := x.bytes content }) = content.drop p
  | [], _, _, _ => rfl
  | x :: segs, p, hin, ho => by
    simp only [List.map_cons, Ordered] at ho
    simp only [List.map_cons, splice]
    have hx := hin x (by simp)
    simp only [Seg.tail] at hx
    split
    · have ih := splice_self content segs (x.pos + x.len) (fun y hy => hin y (by simp [hy])) ho.2
      have h1 : (content.drop p).drop (x.pos - p + x.len) = content.drop (x.pos + x.len) := by rw [List.drop_drop]; congr 1; omega
      have h2 : x.bytes content = (content.drop x.pos).take x.len := rfl
      have h3 : (content.drop p).drop (x.pos - p) = content.drop x.pos := by rw [List.drop_drop]; congr 1; omega
      rw [h1, ih, h2, ← List.drop_drop, List.take_append_drop, ← h3, List.take_append_drop]
    · rfl

/-- A command that prints what it is given changes nothing, if the slices do not overlap, however the threads are interleaved.

Partial: as `C42_run_partial`. -/
theorem C42_unchanged_partial (h : Host) (a : Args) (j : Job) (files : List InFile) (contents : List Bytes) (scheds : List (Nat → Option Nat)) (command : String)
    (ha : AsksBody a j) (hpb : a.patchBack = some command) (ho : a.output = none) (hs : Surroundings h a j files contents scheds)
    (hok : ∀ s ∈ scheds, ∀ i, s i ≠ none) (hns : ∀ rs, j.slicer ≠ .slice rs) (hl : j.lines = none) (segs : List Seg) (hsegs : j.Slices (j.stream contents) segs)
    (hpo : j.Suits h.block (files.map Prod.snd) (j.stream contents) ∨ j.Pours (j.stream contents) segs)
    (hcmd : ∀ text, (h.commands command text).1 = text ∧ ∀ i, (h.commands command text).2 i ≠ none) (htemp : ∀ i, h.tempSched i ≠ none)
    (hdis : segs.Pairwise fun x y => x.tail ≤ y.pos) (hshort : ∀ x ∈ segs, 47 + 4 * max x.len j.slicer.columns < (h.block - 1777) / 8) :
    ∃ N, ∀ fuel, N < fuel → (h.withFuel fuel).run a = (j.stream contents, none) ∧
      ∀ back, (h.withFuel fuel).Interleaved back → (h.withFuel fuel).runWith back a = (j.stream contents, none) := by
  obtain ⟨text, h1, h2, h3⟩ := C42_run_partial h a j files contents scheds command ha hpb ho hs hok hns hl segs hsegs hpo
  obtain ⟨text', h1', h2', h3'⟩ := C42_threads_partial h a j files contents scheds command ha hpb ho hs hok hns hl segs hsegs hpo
  have hord : Ordered 0 (segs.map fun x => ({ offset := x.pos, span := x.len, data := x.bytes (j.stream contents) } : Rec)) := by
    have : ∀ (segs : List Seg) (p : Nat), (∀ x ∈ segs, p ≤ x.pos) → segs.Pairwise (fun x y => x.tail ≤ y.pos) →
        Ordered p (segs.map fun x => ({ offset := x.pos, span := x.len, data := x.bytes (j.stream contents) } : Rec)) := by
      intro segs
      induction segs with
      | nil => intros; trivial
      | cons x segs ih =>
        intro p hp hd
        rw [List.pairwise_cons] at hd
        exact ⟨hp x (by simp), ih _ hd.1 hd.2⟩
    exact this segs 0 (by simp) hdis
  have hans : ∀ text, (Printing.text .hex).Prints (j.stream contents) segs text → (∀ l ∈ lines text, ∃ x ∈ segs, l.length ≤ 47 + 4 * max x.len j.slicer.columns) →
      Answers h command text (segs.map fun x => { offset := x.pos, span := x.len, data := x.bytes (j.stream contents) }) := by
    intro text h1 h2
    obtain ⟨hc1, hc2⟩ := hcmd text
    refine ⟨by rw [hc1]; exact h1, ?_, hord, hc2, htemp⟩
    rw [hc1]
    intro l hl'
    obtain ⟨x, hx, hle⟩ := h2 l hl'
    have := hshort x hx
    omega
  obtain ⟨N, hN⟩ := h3 _ (hans text h1 h2)
  obtain ⟨N', hN'⟩ := h3' _ (hans text' h1' h2')
  have := splice_self (j.stream contents) segs 0 (slices_inside hsegs (hs.fits.imp id And.right)) hord
  rw [List.drop_zero] at this
  refine ⟨max N N', fun fuel hf => ⟨?_, fun back hback => ?_⟩⟩
  · rw [hN fuel (by omega), this]
  · rw [(hN' fuel (by omega)).1 back hback, this]

/-! ## `--inplace` -/

/-- What `--patch-back` replaces a file that holds `old` by. -/
def BackReplaces (h : Host) (command : String) (j : Job) (old new : Bytes) : Prop :=
  ∃ content segs text recs, j.coding.Decodes j.filler old content ∧ j.Slices (j.stream [content]) segs ∧ (Printing.text .hex).Prints (j.stream [content]) segs text ∧
    Records .hex (h.commands command text).1 recs ∧ Ordered 0 recs ∧ new = splice 0 (j.stream [content]) recs

/-- What `nd --inplace --patch-back COMMAND` needs of a file that holds `old`. -/
structure BackReady (h : Host) (a : Args) (j : Job) (sched : Nat → Option Nat) (scheds : List (Nat → Option Nat)) (command : String) (old content : Bytes) (segs : List Seg) : Prop where
  room : Room h a j [(old, sched)] [content] scheds
  slices : j.Slices (j.stream [content]) segs
  pours : j.Suits h.block [sched] (j.stream [content]) ∨ j.Pours (j.stream [content]) segs
  answers : ∀ text, (Printing.text .hex).Prints (j.stream [content]) segs text → (∀ l ∈ lines text, ∃ x ∈ segs, l.length ≤ 47 + 4 * max x.len j.slicer.columns) →
    ∃ recs, Answers h command text recs

theorem inplace_backs (h : Host) (a : Args) (j : Job) (disk : Disk) (sched : String → Nat → Option Nat) (scheds : List (Nat → Option Nat)) (split : Bytes → List Bytes) (command : String)
    (hsplit : ∀ b, (split b).flatten = b) (ha : AsksBody a j) (hpb : a.patchBack = some command) (ho : a.output = none) (hcount : ¬ a.countStdin + a.countStdinOfOptions > 1)
    (hok : ∀ s ∈ scheds, ∀ i, s i ≠ none) (hns : ∀ rs, j.slicer ≠ .slice rs) (hl : j.lines = none) : ∀ inputs : List String,
    (∀ f ∈ inputs, ∃ old content segs, disk f = some old ∧ BackReady h a j (sched f) scheds command old content segs) →
    ∃ N, ∀ fuel, N < fuel → ∀ f ∈ inputs, ∃ p, (h.withFuel fuel).prepare a = .ok p ∧
      ∃ old new, disk f = some old ∧ newContent (inplaceRun (h.withFuel fuel) split sched p) disk f = some new ∧ BackReplaces h command j old new
  | [], _ => ⟨0, fun _ _ _ h => by simp at h⟩
  | f :: rest, hroom => by
    obtain ⟨N, hN⟩ := inplace_backs h a j disk sched scheds split command hsplit ha hpb ho hcount hok hns hl rest fun g hg => hroom g (by simp [hg])
    obtain ⟨old, content, segs, h1, h2⟩ := hroom f (by simp)
    obtain ⟨text, g1, g2, g3⟩ := job_backs h a j [(old, sched f)] [content] scheds command ha hpb ho h2.room (by simp) hcount hok hns hl segs h2.slices h2.pours
    obtain ⟨recs, hr⟩ := h2.answers text g1 g2
    obtain ⟨M, p, g4⟩ := g3 recs hr
    refine ⟨N + M, fun fuel hf g hg => ?_⟩
    rcases List.mem_cons.1 hg with rfl | hg
    · obtain ⟨g5, d, g6, g7⟩ := g4 fuel (by omega)
      refine ⟨p, g5, old, splice 0 (j.stream [content]) recs, h1, ?_, content, segs, text, recs, ?_, h2.slices, g1, hr.records, hr.ordered, rfl⟩
      · unfold newContent inplaceRun
        rw [h1]
        simp only
        rw [show [Reader.open old (sched g)] = [(old, sched g)].map fun f : InFile => Reader.open f.1 f.2 from rfl, g6]
        simp only
        rw [show consumeStream d.src (h.withFuel fuel).block (h.withFuel fuel).fuel d.st = _ from g7]
        simp [hsplit]
      · cases h2.room.decodes with
        | cons h _ => exact h
    · exact hN fuel (by omega) g hg

/-- **C42** with `--inplace`: after any number of operations on the disk every input holds what it held before or the patched stream, and no file other than the inputs and their temporary
files has changed; the program succeeds, every input holds the patched stream, and no temporary file is left.

Partial: as `C42_run_partial`. -/
theorem C42_inplace_partial (h : Host) (a : Args) (j : Job) (disk : Disk) (sched : String → Nat → Option Nat) (rest : String → Bytes × (Nat → Option Nat)) (scheds : List (Nat → Option Nat)) (split : Bytes → List Bytes) (command : String)
    (hsplit : ∀ b, (split b).flatten = b) (ha : AsksBody a j) (hpb : a.patchBack = some command) (ho : a.output = none) (_hi : a.inplace = true) (hne : a.inputs ≠ []) (hsep : Separate a.inputs)
    (hstd : ∀ f ∈ a.inputs, f ≠ "-" ∧ f ≠ "/dev/stdin") (hstd' : ((a.patch.toList ++ a.guide.toList).filter fun x => x = "-" ∨ x = "/dev/stdin").length ≤ 1)
    (hap : Apart h a disk sched) (hok : ∀ s ∈ scheds, ∀ i, s i ≠ none) (hns : ∀ rs, j.slicer ≠ .slice rs) (hl : j.lines = none)
    (hroom : ∀ f ∈ a.inputs, ∃ old content segs, disk f = some old ∧ BackReady h a j (sched f) scheds command old content segs) :
    ∃ N, ∀ fuel, N < fuel →
      (∀ k, (∀ f ∈ a.inputs, applyAll disk (((h.withFuel fuel).runInplace split sched rest a disk).1.take k) f = disk f ∨
          ∃ old new, disk f = some old ∧ applyAll disk (((h.withFuel fuel).runInplace split sched rest a disk).1.take k) f = some new ∧ BackReplaces h command j old new) ∧
        ∀ n, n ∉ a.inputs → (∀ f ∈ a.inputs, n ≠ tmpName f) → applyAll disk (((h.withFuel fuel).runInplace split sched rest a disk).1.take k) n = disk n) ∧
      ((h.withFuel fuel).runInplace split sched rest a disk).2 = true ∧
        ∀ f ∈ a.inputs, (∃ old new, disk f = some old ∧ applyAll disk ((h.withFuel fuel).runInplace split sched rest a disk).1 f = some new ∧ BackReplaces h command j old new) ∧
          applyAll disk ((h.withFuel fuel).runInplace split sched rest a disk).1 (tmpName f) = none := by
  obtain ⟨h0, hcount⟩ := inplace_stdin hstd hstd'
  obtain ⟨N, hN⟩ := inplace_backs h a j disk sched scheds split command hsplit ha hpb ho hcount hok hns hl a.inputs hroom
  refine ⟨N, fun fuel hf => ?_⟩
  obtain ⟨h1, h2⟩ := inplace_files (h.withFuel fuel) (fun _ => (h.withFuel fuel).patchBack) a disk sched rest split (BackReplaces h command j) False hne hsep h0
      ⟨hap.found, hap.kept, hap.once⟩ fun f hf' => by
    obtain ⟨p, hp, h⟩ := hN fuel hf f hf'
    exact ⟨p, hp, Or.inl h⟩
  exact ⟨h1, h2 id⟩

theorem inplace_backs_with (h : Host) (a : Args) (j : Job) (disk : Disk) (sched : String → Nat → Option Nat) (scheds : List (Nat → Option Nat)) (split : Bytes → List Bytes) (command : String)
    (hsplit : ∀ b, (split b).flatten = b) (ha : AsksBody a j) (hpb : a.patchBack = some command) (ho : a.output = none) (hcount : ¬ a.countStdin + a.countStdinOfOptions > 1)
    (hok : ∀ s ∈ scheds, ∀ i, s i ≠ none) (hns : ∀ rs, j.slicer ≠ .slice rs) (hl : j.lines = none) : ∀ inputs : List String,
    (∀ f ∈ inputs, ∃ old content segs, disk f = some old ∧ BackReady h a j (sched f) scheds command old content segs) →
    ∃ N, ∀ fuel, N < fuel → ∀ f ∈ inputs, ∃ p, (h.withFuel fuel).prepare a = .ok p ∧
      ∃ old new, disk f = some old ∧ BackReplaces h command j old new ∧
        (∀ back, (h.withFuel fuel).Interleaved (back f) → newContent (inplaceRunWith (h.withFuel fuel) back split sched p) disk f = some new) ∧
        ∃ g, (∃ r, (h.withFuel fuel).Backs p command g r) ∧ ∀ back, p.spawnStream ((h.withFuel fuel).stagesWith back p [Reader.open old (sched f)]) = back (.patchBack command) g
  | [], _ => ⟨0, fun _ _ _ h => by simp at h⟩
  | f :: rest, hroom => by
    obtain ⟨N, hN⟩ := inplace_backs_with h a j disk sched scheds split command hsplit ha hpb ho hcount hok hns hl rest fun g hg => hroom g (by simp [hg])
    obtain ⟨old, content, segs, h1, h2⟩ := hroom f (by simp)
    obtain ⟨text, g1, g2, g3⟩ := job_backs_with h a j [(old, sched f)] [content] scheds command ha hpb ho h2.room (by simp) hcount hok hns hl segs h2.slices h2.pours
    obtain ⟨recs, hr⟩ := h2.answers text g1 g2
    obtain ⟨M, p, g4⟩ := g3 recs hr
    refine ⟨N + M, fun fuel hf g hg => ?_⟩
    rcases List.mem_cons.1 hg with rfl | hg
    · obtain ⟨g5, s, g6, g7, g8⟩ := g4 fuel (by omega)
      refine ⟨p, g5, old, splice 0 (j.stream [content]) recs, h1, ⟨content, segs, text, recs, ?_, h2.slices, g1, hr.records, hr.ordered, rfl⟩, fun back hb => ?_, s, g7, g6⟩
      · cases h2.room.decodes with
        | cons h _ => exact h
      · obtain ⟨d, g9, g10⟩ := g8 _ (Or.inl (hb p command s g7))
        unfold newContent inplaceRunWith
        rw [h1]
        simp only
        rw [show [Reader.open old (sched g)] = [(old, sched g)].map fun f : InFile => Reader.open f.1 f.2 from rfl, g6, g9]
        simp only
        rw [show consumeStream d.src (h.withFuel fuel).block (h.withFuel fuel).fuel d.st = _ from g10]
        simp [hsplit]
    · exact hN fuel (by omega) g hg

/-- **C42** with `--inplace`, however the threads are interleaved, for each of the inputs anew.  Some interleaving is always possible.

Partial: as `C42_run_partial`. -/
theorem C42_inplace_threads_partial (h : Host) (a : Args) (j : Job) (disk : Disk) (sched : String → Nat → Option Nat) (rest : String → Bytes × (Nat → Option Nat)) (scheds : List (Nat → Option Nat)) (split : Bytes → List Bytes) (command : String)
    (hsplit : ∀ b, (split b).flatten = b) (ha : AsksBody a j) (hpb : a.patchBack = some command) (ho : a.output = none) (_hi : a.inplace = true) (hne : a.inputs ≠ []) (hsep : Separate a.inputs)
    (hstd : ∀ f ∈ a.inputs, f ≠ "-" ∧ f ≠ "/dev/stdin") (hstd' : ((a.patch.toList ++ a.guide.toList).filter fun x => x = "-" ∨ x = "/dev/stdin").length ≤ 1)
    (hap : Apart h a disk sched) (hok : ∀ s ∈ scheds, ∀ i, s i ≠ none) (hns : ∀ rs, j.slicer ≠ .slice rs) (hl : j.lines = none)
    (hroom : ∀ f ∈ a.inputs, ∃ old content segs, disk f = some old ∧ BackReady h a j (sched f) scheds command old content segs) :
    ∃ N, ∀ fuel, N < fuel →
      (∀ back, (∀ f, (h.withFuel fuel).Interleaved (back f)) →
        (∀ k, (∀ f ∈ a.inputs, applyAll disk (((h.withFuel fuel).runInplaceWith back split sched rest a disk).1.take k) f = disk f ∨
            ∃ old new, disk f = some old ∧ applyAll disk (((h.withFuel fuel).runInplaceWith back split sched rest a disk).1.take k) f = some new ∧ BackReplaces h command j old new) ∧
          ∀ n, n ∉ a.inputs → (∀ f ∈ a.inputs, n ≠ tmpName f) → applyAll disk (((h.withFuel fuel).runInplaceWith back split sched rest a disk).1.take k) n = disk n) ∧
        ((h.withFuel fuel).runInplaceWith back split sched rest a disk).2 = true ∧
          ∀ f ∈ a.inputs, (∃ old new, disk f = some old ∧ applyAll disk ((h.withFuel fuel).runInplaceWith back split sched rest a disk).1 f = some new ∧ BackReplaces h command j old new) ∧
            applyAll disk ((h.withFuel fuel).runInplaceWith back split sched rest a disk).1 (tmpName f) = none) ∧
      ∀ f ∈ a.inputs, ∃ p old g, disk f = some old ∧ (h.withFuel fuel).prepare a = .ok p ∧ (∃ r, (h.withFuel fuel).Backs p command g r) ∧
        ∀ back, p.spawnStream ((h.withFuel fuel).stagesWith back p [Reader.open old (sched f)]) = back (.patchBack command) g := by
  obtain ⟨h0, hcount⟩ := inplace_stdin hstd hstd'
  obtain ⟨N, hN⟩ := inplace_backs_with h a j disk sched scheds split command hsplit ha hpb ho hcount hok hns hl a.inputs hroom
  refine ⟨N, fun fuel hf => ⟨fun back hback => ?_, fun f hf' => ?_⟩⟩
  · obtain ⟨h1, h2⟩ := inplace_files (h.withFuel fuel) back a disk sched rest split (BackReplaces h command j) False hne hsep h0 ⟨hap.found, hap.kept, hap.once⟩ fun f hf' => by
      obtain ⟨p, hp, old, new, g1, g2, g3, _⟩ := hN fuel hf f hf'
      exact ⟨p, hp, Or.inl ⟨old, new, g1, g3 back (hback f), g2⟩⟩
    exact ⟨h1, h2 id⟩
  · obtain ⟨p, hp, old, _, g1, _, _, g, g2, g3⟩ := hN fuel hf f hf'
    exact ⟨p, old, g, g1, hp, g2, g3⟩

/-! ## What does not come back -/

open Conformance in
/-- **Counterexample**: `nd --slice 0..3 --patch-back cat quick.txt` prints the first three bytes only: the slicing thread ends at the end of the last slice, and the temporary file
with it.  With `--inplace` the rest of the file is lost. -/
theorem C42_slice_counterexample :
    (host none).run { inputs := ["quick.txt"], slice := some "0..3", patchBack := some "cat" } = (bytes! "The", none) ∧
    applyAll Conformance.content ((host none).runInplace (fun b => [b]) (fun _ _ => some (2 ^ 21)) (fun _ => ([], fun _ => some 1)) { inputs := ["quick.txt"], inplace := true, slice := some "0..3", patchBack := some "cat" }
      Conformance.content).1 "quick.txt" = some (bytes! "The") := by
  constructor <;> decide +kernel

open Conformance in
/-- **Counterexample**: `nd --width 4 --lines 1..3 --patch-back cat quick.txt` prints the first 12 bytes only. -/
theorem C42_lines_counterexample :
    (host none).run { inputs := ["quick.txt"], width := some "4", lines := some "1..3", patchBack := some "cat" } = (bytes! "The quick br", none) := by
  decide +kernel

open Conformance in
/-- **Counterexample**: reading a file of 24 bytes fails after 16 bytes (the block size is 16).  `nd --width 4 --patch-back true` prints 12 bytes and succeeds, and with `--inplace`
it replaces the file by its first 12 bytes.  If already the first read fails, the program panics. -/
theorem C42_failure_counterexample :
    ({ host none with block := 16, files := fun _ => some ((List.range 24).map UInt8.ofNat, fun i => if i < 1 then some 16 else none) } : Host).run
      { inputs := ["data"], width := some "4", patchBack := some "true" } = ((List.range 12).map UInt8.ofNat, none) ∧
    applyAll (fun n => if n = "data" then some ((List.range 24).map UInt8.ofNat) else none)
      (({ host none with block := 16 } : Host).runInplace (fun b => [b]) (fun _ i => if i < 1 then some 16 else none) (fun _ => ([], fun _ => some 1))
        { inputs := ["data"], inplace := true, width := some "4", patchBack := some "true" } (fun n => if n = "data" then some ((List.range 24).map UInt8.ofNat) else none)).1 "data" =
      some ((List.range 12).map UInt8.ofNat) ∧
    ({ host none with block := 16, files := fun _ => some ((List.range 24).map UInt8.ofNat, fun _ => none) } : Host).run
      { inputs := ["data"], width := some "4", patchBack := some "true" } = ([], some .panic) := by
  refine ⟨?_, ?_, ?_⟩ <;> decide +kernel

open Conformance in
/-- **Counterexample** (slices with gaps over files of several blocks): `nd --width 2,s..s+1 --patch-back cat` of a regular file of 157 bytes, with blocks of 64 bytes, fails.  The
slicer gives up at most 15 slices together with the bytes in front of the next one; of more, it keeps the last one back and lends it again (`src/segment/stride.rs` 354-363).  The
thread prints it twice, so `cat` prints it twice, and the records overlap.  All other calls agree: the same one without `--patch-back` prints each of the 79 slices once
(`C37_columns_partial`). -/
theorem C42_repeated_counterexample :
    let h : Host := { host none with block := 64, fuel := 400, files := fun _ => some ((List.range 157).map UInt8.ofNat, fun _ => some 64) }
    h.run { inputs := ["FILE"], width := some "2,s..s+1", patchBack := some "cat" } = ((List.range 128).map UInt8.ofNat, some .overlap) ∧
    (h.run { inputs := ["FILE"], width := some "2,s..s+1" }).1.count 10 = 79 := by
  constructor <;> decide +kernel

/-! ## Examples -/

/-- `nd --patch-back COMMAND quick.txt` -/
def backArgs (command : String) : Args := { inputs := ["quick.txt"], patchBack := some command }

theorem back_asks (command : String) : AsksBody (backArgs command) {} := ⟨.none, .none, .none, .none, .none, .none, .none, .none, .none, .none, .none⟩

/-- `quick.txt` -/
def quick : Bytes := bytes! "The quick brown fox jumps over the lazy dog.\n"

theorem back_slices : ({} : Job).Slices quick [⟨0, 16⟩, ⟨16, 16⟩, ⟨32, 13⟩] := ⟨_, _, rfl, rfl, by decide⟩

open Conformance in
theorem back_fits : ({} : Job).Fits (((host none).block - 1784) / 8) := by simp [Job.Fits, Job.Near, RangeEnd.at, host]

open Conformance in
theorem back_surroundings (c : String → Bytes → Bytes × (Nat → Option Nat)) (command : String) :
    Surroundings { host none with commands := c } (backArgs command) {} [(quick, atOnce)] [quick] [atOnce] := by
  refine { release := rfl, inplace := rfl, block := (by show 0 < (host none).block; decide), opened := .cons rfl .nil, stdin := by simp [inputsOf, backArgs], listed := by simp, patch := trivial,
           decodes := .cons rfl .nil, text := fun h => absurd rfl h, pad := by simp, aligned := by decide, joined := by decide, stream := by decide,
           slicer := ⟨by simp [backArgs], by simp⟩, regex := trivial, fits := Or.inl (Or.inl back_fits) }

open Conformance in
/-- `nd --patch-back cat quick.txt` prints the file. -/
example : ∃ N, ∀ fuel, N < fuel → ((host none).withFuel fuel).run (backArgs "cat") = (quick, none) ∧
    ∀ back, ((host none).withFuel fuel).Interleaved back → ((host none).withFuel fuel).runWith back (backArgs "cat") = (quick, none) := by
  have := C42_unchanged_partial (host none) (backArgs "cat") {} [(quick, atOnce)] [quick] [atOnce] "cat" (back_asks _) rfl rfl (back_surroundings (host none).commands "cat")
    (by simp [atOnce]) (by simp) rfl [⟨0, 16⟩, ⟨16, 16⟩, ⟨32, 13⟩] back_slices (Or.inl (Or.inl back_fits)) (fun text => ⟨rfl, by simp [host, commands]⟩) (by simp [host])
    (by decide) (by decide)
  exact this

open Conformance in
theorem guide_answers (text : Bytes) : Answers { host none with commands := fun _ _ => (bytes! "000000000010 0003\n000000000028 0003\n", atOnce) } "edit" text guideRecs := by
  refine ⟨guide_records, ?_, by decide, by simp [atOnce], by simp [host]⟩
  show ∀ l ∈ [bytes! "000000000010 0003", bytes! "000000000028 0003"], _
  decide

open Conformance in
/-- A command that prints the records of two empty arrays deletes `fox` and `dog`. -/
example : ∃ N, ∀ fuel, N < fuel → (({ host none with commands := fun _ _ => (bytes! "000000000010 0003\n000000000028 0003\n", atOnce) } : Host).withFuel fuel).run (backArgs "edit") =
    (bytes! "The quick brown  jumps over the lazy .\n", none) := by
  obtain ⟨text, _, _, h⟩ := C42_run_partial _ (backArgs "edit") {} [(quick, atOnce)] [quick] [atOnce] "edit" (back_asks _) rfl rfl
    (back_surroundings (fun _ _ => (bytes! "000000000010 0003\n000000000028 0003\n", atOnce)) "edit") (by simp [atOnce]) (by simp) rfl [⟨0, 16⟩, ⟨16, 16⟩, ⟨32, 13⟩] back_slices
    (Or.inl (Or.inl back_fits))
  exact h guideRecs (guide_answers text)

/-- There is a way to interleave the threads. -/
theorem interleaved_exists (h : Host) : ∃ back, h.Interleaved back := by
  classical
  refine ⟨fun p node prev => match node with
    | .patchBack cmd => if hr : ∃ r, h.Backs p cmd prev r then hr.choose else .error .panic
    | _ => .error .panic, fun p cmd prev hr => ?_⟩
  simp only
  rw [dif_pos hr]
  exact hr.choose_spec

open Conformance in
/-- The same call, however the threads are interleaved. -/
example : ∃ N, ∀ fuel, N < fuel → ∀ back, (({ host none with commands := fun _ _ => (bytes! "000000000010 0003\n000000000028 0003\n", atOnce) } : Host).withFuel fuel).Interleaved back →
    (({ host none with commands := fun _ _ => (bytes! "000000000010 0003\n000000000028 0003\n", atOnce) } : Host).withFuel fuel).runWith back (backArgs "edit") =
      (bytes! "The quick brown  jumps over the lazy .\n", none) := by
  obtain ⟨text, _, _, h⟩ := C42_threads_partial _ (backArgs "edit") {} [(quick, atOnce)] [quick] [atOnce] "edit" (back_asks _) rfl rfl
    (back_surroundings (fun _ _ => (bytes! "000000000010 0003\n000000000028 0003\n", atOnce)) "edit") (by simp [atOnce]) (by simp) rfl [⟨0, 16⟩, ⟨16, 16⟩, ⟨32, 13⟩] back_slices
    (Or.inl (Or.inl back_fits))
  obtain ⟨N, hN⟩ := h guideRecs (guide_answers text)
  exact ⟨N, fun fuel hf => (hN fuel hf).1⟩

/-- `nd --inplace --patch-back edit quick.txt` -/
def editArgs : Args := { inputs := ["quick.txt"], inplace := true, patchBack := some "edit" }

theorem edit_asks : AsksBody editArgs { joint := .alone, printing := .binary } := ⟨.none, .inplace, .none, .alone, .none, .none, .none, .none, .none, .none, .none⟩

open Conformance in
/-- With `--inplace` the file is replaced. -/
example : ∃ N, ∀ fuel, N < fuel → applyAll (fun n => if n = "quick.txt" then some quick else none)
      (({ host none with commands := fun _ _ => (bytes! "000000000010 0003\n000000000028 0003\n", atOnce) } : Host).withFuel fuel |>.runInplace (fun b => [b]) (fun _ => atOnce) (fun _ => ([], atOnce)) editArgs
        (fun n => if n = "quick.txt" then some quick else none)).1 "quick.txt" = some (bytes! "The quick brown  jumps over the lazy .\n") := by
  obtain ⟨N, hN⟩ := C42_inplace_partial { host none with commands := fun _ _ => (bytes! "000000000010 0003\n000000000028 0003\n", atOnce) } editArgs { joint := .alone, printing := .binary }
    (fun n => if n = "quick.txt" then some quick else none) (fun _ => atOnce) (fun _ => ([], atOnce)) [atOnce] (fun b => [b]) "edit" (by simp) edit_asks rfl rfl rfl (by simp [editArgs])
    (by unfold Separate editArgs; decide) (by simp [editArgs]) (by decide) (.none rfl rfl) (by simp [atOnce]) (by simp) rfl (by
      intro f hf
      rw [List.mem_singleton.1 hf]
      refine ⟨quick, quick, [⟨0, 16⟩, ⟨16, 16⟩, ⟨32, 13⟩], rfl, ?_, ⟨_, _, rfl, rfl, by decide⟩, Or.inl (Or.inl back_fits), fun text _ _ => ⟨_, guide_answers text⟩⟩
      refine { release := rfl, block := by decide, listed := by simp, patch := trivial, decodes := .cons rfl .nil, text := fun h => absurd rfl h, pad := by decide, aligned := by decide,
               joined := by decide, stream := by decide, slicer := ⟨by simp [editArgs], by simp⟩, regex := trivial, fits := Or.inl (Or.inl back_fits) })
  refine ⟨N, fun fuel hf => ?_⟩
  obtain ⟨_, _, h⟩ := hN fuel hf
  obtain ⟨⟨old, new, h1, h2, content, segs, text, recs, h3, _, _, h4, _, h5⟩, _⟩ := h "quick.txt" (by decide)
  have hold : quick = old := Option.some.inj h1
  rw [h2, h5]
  subst hold
  rw [show content = quick from h3]
  have hg := (guide_answers text).records.1
  have hr := (TextParser.reading_unique .portable .hex .hex (TextParser.lines_no_break _ _ (Nat.le_refl _)) (Reading.windows .portable h4.1) (Reading.windows .portable hg)).1
  rw [hr]
  rfl

open Conformance in
/-- However the threads are interleaved. -/
example : ∃ N, ∀ fuel, N < fuel → ∀ back,
    (∀ f, (({ host none with commands := fun _ _ => (bytes! "000000000010 0003\n000000000028 0003\n", atOnce) } : Host).withFuel fuel).Interleaved (back f)) →
    applyAll (fun n => if n = "quick.txt" then some quick else none)
      (({ host none with commands := fun _ _ => (bytes! "000000000010 0003\n000000000028 0003\n", atOnce) } : Host).withFuel fuel |>.runInplaceWith back (fun b => [b]) (fun _ => atOnce) (fun _ => ([], atOnce)) editArgs
        (fun n => if n = "quick.txt" then some quick else none)).1 "quick.txt" = some (bytes! "The quick brown  jumps over the lazy .\n") := by
  obtain ⟨N, hN⟩ := C42_inplace_threads_partial { host none with commands := fun _ _ => (bytes! "000000000010 0003\n000000000028 0003\n", atOnce) } editArgs
    { joint := .alone, printing := .binary }
    (fun n => if n = "quick.txt" then some quick else none) (fun _ => atOnce) (fun _ => ([], atOnce)) [atOnce] (fun b => [b]) "edit" (by simp) edit_asks rfl rfl rfl (by simp [editArgs])
    (by unfold Separate editArgs; decide) (by simp [editArgs]) (by decide) (.none rfl rfl) (by simp [atOnce]) (by simp) rfl (by
      intro f hf
      rw [List.mem_singleton.1 hf]
      refine ⟨quick, quick, [⟨0, 16⟩, ⟨16, 16⟩, ⟨32, 13⟩], rfl, ?_, ⟨_, _, rfl, rfl, by decide⟩, Or.inl (Or.inl back_fits), fun text _ _ => ⟨_, guide_answers text⟩⟩
      refine { release := rfl, block := by decide, listed := by simp, patch := trivial, decodes := .cons rfl .nil, text := fun h => absurd rfl h, pad := by decide, aligned := by decide,
               joined := by decide, stream := by decide, slicer := ⟨by simp [editArgs], by simp⟩, regex := trivial, fits := Or.inl (Or.inl back_fits) })
  refine ⟨N, fun fuel hf back hback => ?_⟩
  obtain ⟨_, _, h⟩ := (hN fuel hf).1 back hback
  obtain ⟨⟨old, new, h1, h2, content, segs, text, recs, h3, _, _, h4, _, h5⟩, _⟩ := h "quick.txt" (by decide)
  have hold : quick = old := Option.some.inj h1
  rw [h2, h5]
  subst hold
  rw [show content = quick from h3]
  have hg := (guide_answers text).records.1
  have hr := (TextParser.reading_unique .portable .hex .hex (TextParser.lines_no_break _ _ (Nat.le_refl _)) (Reading.windows .portable h4.1) (Reading.windows .portable hg)).1
  rw [hr]
  rfl

end Nd.Props
