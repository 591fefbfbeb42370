import Verif.Props.Arrival
import Verif.Props.ProgramOutput
import Verif.Props.ProgramBack
/-!
# C45 with `--output` and `--patch-back`: what is written does not depend on how the input arrives
-/
namespace Nd.Props
open Nd Nd.Spec

/-- Two calls that write their slices one by one to the same files leave the same files. -/
theorem same_files (h h' : Host) (a a' : Args) (j : Job) (files files' : List InFile) (contents : List Bytes) (scheds scheds' : List (Nat → Option Nat)) (file : String)
    (ha : AsksBody a j) (ha' : AsksBody a' j) (hf : a.outFormat = a'.outFormat) (hpb : a.patchBack = none) (hpb' : a'.patchBack = none) (ho : a.output = some file) (ho' : a'.output = some file)
    (hne : file ≠ "" ∧ file ≠ "-") (hs : Surroundings h a j files contents scheds) (hs' : Surroundings h' a' j files' contents scheds')
    (hok : ∀ s ∈ scheds, ∀ i, s i ≠ none) (hok' : ∀ s ∈ scheds', ∀ i, s i ≠ none) (segs : List Seg) (hsegs : j.Slices (j.stream contents) segs)
    (hp : j.Suits h.block (files.map Prod.snd) (j.stream contents) ∨ j.Pours (j.stream contents) segs)
    (hp' : j.Suits h'.block (files'.map Prod.snd) (j.stream contents) ∨ j.Pours (j.stream contents) segs)
    (hn : h.numFmts = h'.numFmts) (hout : h.outputs = h'.outputs) {c₀ : ScatterContext (List Char)} (hc : ScatterContext.new h.numFmts h.outputs file.toList = .ok c₀)
    (hd : ∀ f, j.printing.Formats f → ∃ c, ScatterDrain.dumpSlices f 0 (slicesOf (j.stream contents) segs) c₀ = .ok c) :
    ∃ fs N, ∀ fuel fuel', N < fuel → N < fuel' → (h.withFuel fuel).run a = ([], none) ∧ (h'.withFuel fuel').run a' = ([], none) ∧
      (h.withFuel fuel).written a = some fs ∧ (h'.withFuel fuel').written a' = some fs := by
  obtain ⟨f, N, h1, h2, _, h3⟩ := job_writes_as h a j files contents scheds file ha hpb ho hne hs segs hsegs hp hc
  obtain ⟨f', N', h1', _, _, h3'⟩ := job_writes_as h' a' j files' contents scheds' file ha' hpb' ho' hne hs' segs hsegs hp' (by rw [← hn, ← hout]; exact hc)
  cases h1.unique h1' hf (hs.inplace.trans hs'.inplace.symm)
  obtain ⟨c, hcd⟩ := hd f h2
  refine ⟨c.fs, max N N', fun fuel fuel' hfu hfu' => ?_⟩
  rcases h3 c hcd fuel (by omega) with ⟨h4, h5⟩ | ⟨e, ⟨_, s, hsm, i, hi⟩, _⟩
  · rcases h3' c hcd fuel' (by omega) with ⟨h4', h5'⟩ | ⟨e, ⟨_, s, hsm, i, hi⟩, _⟩
    · exact ⟨h4, h4', h5, h5'⟩
    · exact absurd hi (hok' s hsm i)
  · exact absurd hi (hok s hsm i)

/-- **C45**, `--output` with a plain name: two calls on two machines leave the same files if these agreed before.

Partial: the conditions of `C41_file_partial` on both, no failing reads, and the output format spelled equally. -/
theorem C45_file_partial (h h' : Host) (a a' : Args) (j : Job) (files files' : List InFile) (contents : List Bytes) (scheds scheds' : List (Nat → Option Nat)) (file : String)
    (ha : AsksBody a j) (ha' : AsksBody a' j) (hf : a.outFormat = a'.outFormat) (hpb : a.patchBack = none) (hpb' : a'.patchBack = none) (ho : a.output = some file) (ho' : a'.output = some file)
    (hne : file ≠ "" ∧ file ≠ "-") (hplain : '{' ∉ file.toList) (hs : Surroundings h a j files contents scheds) (hs' : Surroundings h' a' j files' contents scheds')
    (hok : ∀ s ∈ scheds, ∀ i, s i ≠ none) (hok' : ∀ s ∈ scheds', ∀ i, s i ≠ none) (segs : List Seg) (hsegs : j.Slices (j.stream contents) segs)
    (hp : j.Suits h.block (files.map Prod.snd) (j.stream contents) ∨ j.Pours (j.stream contents) segs)
    (hp' : j.Suits h'.block (files'.map Prod.snd) (j.stream contents) ∨ j.Pours (j.stream contents) segs)
    (hn : h.numFmts = h'.numFmts) (hout : h.outputs = h'.outputs) :
    ∃ fs N, ∀ fuel fuel', N < fuel → N < fuel' → (h.withFuel fuel).run a = ([], none) ∧ (h'.withFuel fuel').run a' = ([], none) ∧
      (h.withFuel fuel).written a = some fs ∧ (h'.withFuel fuel').written a' = some fs :=
  same_files h h' a a' j files files' contents scheds scheds' file ha ha' hf hpb hpb' ho ho' hne hs hs' hok hok' segs hsegs hp hp' hn hout (C30_plain_name h.numFmts _ hplain h.outputs)
    fun f _ => by
      obtain ⟨c, h2, _⟩ := dumpSlices_file f file.toList (slicesOf (j.stream contents) segs) 0 0 (ScatterContext.openFile h.outputs file.toList) ((h.outputs file.toList).getD []) rfl
        (by simp [ScatterContext.openFile, ScatterContext.set]) (Nat.zero_le _)
      exact ⟨c, h2⟩

/-- **C45**, `--output` with a name that contains values.

Partial: the conditions of `C41_template_partial` on both, no failing reads, and the output format spelled equally. -/
theorem C45_template_partial (h h' : Host) (a a' : Args) (j : Job) (files files' : List InFile) (contents : List Bytes) (scheds scheds' : List (Nat → Option Nat))
    (fmt : List Char → Int → List Char) (ps : List Template.Piece) (hpo : ∀ p ∈ ps, PieceOk h.numFmts fmt p) (hval : ∃ v f, Template.Piece.value v f ∈ ps)
    (ha : AsksBody a j) (ha' : AsksBody a' j) (hf : a.outFormat = a'.outFormat) (hpb : a.patchBack = none) (hpb' : a'.patchBack = none)
    (ho : a.output = some (String.ofList (Template.source ps))) (ho' : a'.output = some (String.ofList (Template.source ps)))
    (hs : Surroundings h a j files contents scheds) (hs' : Surroundings h' a' j files' contents scheds')
    (hok : ∀ s ∈ scheds, ∀ i, s i ≠ none) (hok' : ∀ s ∈ scheds', ∀ i, s i ≠ none) (segs : List Seg) (hsegs : j.Slices (j.stream contents) segs)
    (hp : j.Suits h.block (files.map Prod.snd) (j.stream contents) ∨ j.Pours (j.stream contents) segs)
    (hp' : j.Suits h'.block (files'.map Prod.snd) (j.stream contents) ∨ j.Pours (j.stream contents) segs)
    (hn : h.numFmts = h'.numFmts) (hout : h.outputs = h'.outputs) (hcount : segs.length < 2 ^ 63)
    (hname : ∀ i x, segs[i]? = some x → (Template.name fmt x.pos i ps).isSome ∧ ∀ p ∈ ps, PieceNarrow x.pos i p) :
    ∃ fs N, ∀ fuel fuel', N < fuel → N < fuel' → (h.withFuel fuel).run a = ([], none) ∧ (h'.withFuel fuel').run a' = ([], none) ∧
      (h.withFuel fuel).written a = some fs ∧ (h'.withFuel fuel').written a' = some fs := by
  obtain ⟨render, hnew, hren⟩ := C30_names_partial ps hpo hval h.outputs
  refine same_files h h' a a' j files files' contents scheds scheds' _ ha ha' hf hpb hpb' ho ho' (template_named hval) hs hs' hok hok' segs hsegs hp hp' hn hout
    (by rw [String.toList_ofList]; exact hnew) fun f hf' => ?_
  obtain ⟨_, c, h2, _⟩ := template_files (outputs := h.outputs) hf' (slices_inside hsegs (hs.fits.imp id And.right)) hs.stream fmt ps hren hcount hname
  exact ⟨c, h2⟩

/-- **C45**, `--patch-back`: two calls on two machines hand the same text to the command, and if it answers the same records, they print the same, however the two threads of each are
interleaved and in whatever pieces the command answers.

Partial: the conditions of `C42_run_partial` on both. -/
theorem C45_back_partial (h h' : Host) (a a' : Args) (j : Job) (files files' : List InFile) (contents : List Bytes) (scheds scheds' : List (Nat → Option Nat)) (command : String)
    (ha : AsksBody a j) (ha' : AsksBody a' j) (hpb : a.patchBack = some command) (hpb' : a'.patchBack = some command) (ho : a.output = none) (ho' : a'.output = none)
    (hs : Surroundings h a j files contents scheds) (hs' : Surroundings h' a' j files' contents scheds') (hok : ∀ s ∈ scheds, ∀ i, s i ≠ none) (hok' : ∀ s ∈ scheds', ∀ i, s i ≠ none)
    (hns : ∀ rs, j.slicer ≠ .slice rs) (hl : j.lines = none) (segs : List Seg) (hsegs : j.Slices (j.stream contents) segs)
    (hp : j.Suits h.block (files.map Prod.snd) (j.stream contents) ∨ j.Pours (j.stream contents) segs)
    (hp' : j.Suits h'.block (files'.map Prod.snd) (j.stream contents) ∨ j.Pours (j.stream contents) segs) :
    ∃ text, (Printing.text .hex).Prints (j.stream contents) segs text ∧ (∀ l ∈ lines text, ∃ x ∈ segs, l.length ≤ 47 + 4 * max x.len j.slicer.columns) ∧
      ∀ recs, Answers h command text recs → Answers h' command text recs → ∃ N, ∀ fuel fuel', N < fuel → N < fuel' → (h.withFuel fuel).run a = (h'.withFuel fuel').run a' ∧
        ∀ back back', (h.withFuel fuel).Interleaved back → (h'.withFuel fuel').Interleaved back' → (h.withFuel fuel).runWith back a = (h'.withFuel fuel').runWith back' a' := by
  have one : ∀ (h : Host) (a : Args) (files : List InFile) (scheds : List (Nat → Option Nat)), AsksBody a j → a.patchBack = some command → a.output = none →
      Surroundings h a j files contents scheds → (∀ s ∈ scheds, ∀ i, s i ≠ none) → (j.Suits h.block (files.map Prod.snd) (j.stream contents) ∨ j.Pours (j.stream contents) segs) →
      ∀ recs, Answers h command ((slicesOf (j.stream contents) segs).flatMap (Formatting.line ⟨.hhh, j.slicer.columns⟩)) recs → ∃ N, ∀ fuel, N < fuel →
        (h.withFuel fuel).run a = (splice 0 (j.stream contents) recs, none) ∧ ∀ back, (h.withFuel fuel).Interleaved back → (h.withFuel fuel).runWith back a = (splice 0 (j.stream contents) recs, none) := by
    intro h a files scheds ha hpb ho hs hok hp recs hr
    obtain ⟨_, _, h3⟩ := job_backs_as h a j files contents scheds command ha hpb ho hs.toRoom hs.some_input hs.one_stdin hok hns hl segs hsegs hp
    obtain ⟨N, p, h4⟩ := h3 recs hr
    refine ⟨N, fun fuel hf => ?_⟩
    obtain ⟨h5, g, h6, h7, h8⟩ := h4 fuel hf
    constructor
    · obtain ⟨d, h9, h10⟩ := h8 _ (Or.inr rfl)
      unfold Host.run
      rw [hs.stream_eq h5, show p.spawnStream ((h.withFuel fuel).stages p (files.map fun f => Reader.open f.1 f.2)) = _ from h6 ((h.withFuel fuel).patchBack p), h9]
      exact h10
    · intro back hb
      obtain ⟨d, h9, h10⟩ := h8 _ (Or.inl (hb p command g h7))
      unfold Host.runWith
      rw [h5]
      simp only [attempt]
      rw [show (if a.inputs = [] then ["-"] else a.inputs).mapM (h.withFuel fuel).openReader = .ok (files.map fun f => Reader.open f.1 f.2) from mapM_open (h := h.withFuel fuel) hs.opened]
      simp only
      rw [h6, h9]
      exact h10
  obtain ⟨h1, h2, _⟩ := job_backs_as h a j files contents scheds command ha hpb ho hs.toRoom hs.some_input hs.one_stdin hok hns hl segs hsegs hp
  refine ⟨_, h1, h2, fun recs hr hr' => ?_⟩
  obtain ⟨N, hN⟩ := one h a files scheds ha hpb ho hs hok hp recs hr
  obtain ⟨N', hN'⟩ := one h' a' files' scheds' ha' hpb' ho' hs' hok' hp' recs hr'
  refine ⟨max N N', fun fuel fuel' hf hf' => ?_⟩
  obtain ⟨h3, h4⟩ := hN fuel (by omega)
  obtain ⟨h3', h4'⟩ := hN' fuel' (by omega)
  exact ⟨h3.trans h3'.symm, fun back back' hb hb' => (h4 back hb).trans (h4' back' hb').symm⟩

/-! ## Examples -/

open Conformance

/-- `Surroundings` of `two_files` for calls with the same inputs that write to a file. -/
theorem two_files_to (B : Nat) (hB : 2048 ≤ B) (a : Args) (ha : a = sampleArgs ∨ a = respelledArgs) (o : Option String) (c d : Bytes) (s t : Nat → Option Nat) (hc : c.length < 2 ^ 40)
    (hd : d.length < 2 ^ 40) : Surroundings (twoFiles B c d s t) { a with output := o } sampleJob [(c, s), (d, t)] [c, d] [s, t] := by
  have h := two_files B hB a ha c d s t hc hd
  exact { release := h.release, inplace := h.inplace, block := h.block, opened := h.opened, stdin := h.stdin, listed := h.listed, patch := h.patch, decodes := h.decodes, text := h.text, pad := h.pad,
          aligned := h.aligned, joined := h.joined, stream := h.stream, slicer := ⟨h.slicer.1, h.slicer.2⟩, regex := h.regex, fits := h.fits }

theorem asks_to {a : Args} {j : Job} (h : Asks a j) (o : Option String) : AsksBody { a with output := o } j :=
  { inFormat := h.inFormat, outFormat := h.outFormat, filler := h.filler, joint := h.joint, cut := h.cut, pad := h.pad, slicer := h.slicer, invert := h.invert, extend := h.extend,
    merge := h.merge, lines := h.lines }

theorem sample_suits (B : Nat) (hB : 2048 ≤ B) : sampleJob.Fits ((B - 1784) / 8) := by
  simp [Job.Fits, Job.Near, sampleJob, RangeEnd.at]
  omega

/-- The call of `sampleArgs` and its other spelling with `--output out`, whatever `out` contained before, with blocks of 2^21 bytes and of 2 KiB. -/
example (c d : Bytes) (hc : c.length < 2 ^ 40) (hd : d.length < 2 ^ 40) (s t s' t' : Nat → Option Nat) (hs : ∀ i, s i ≠ none ∧ t i ≠ none) (hs' : ∀ i, s' i ≠ none ∧ t' i ≠ none) :
    ∃ fs N, ∀ fuel fuel', N < fuel → N < fuel' → ((twoFiles (2 ^ 21) c d s t).withFuel fuel).run { sampleArgs with output := some "out" } = ([], none) ∧
      ((twoFiles 2048 c d s' t').withFuel fuel').run { respelledArgs with output := some "out" } = ([], none) ∧
      ((twoFiles (2 ^ 21) c d s t).withFuel fuel).written { sampleArgs with output := some "out" } = some fs ∧
      ((twoFiles 2048 c d s' t').withFuel fuel').written { respelledArgs with output := some "out" } = some fs := by
  obtain ⟨segs, hsegs⟩ := C37_slices_exist sampleJob (sampleJob.stream [c, d]) (by simp [sampleJob])
  exact C45_file_partial _ _ _ _ sampleJob _ _ [c, d] [s, t] [s', t'] "out" (asks_to sample_asks _) (asks_to respelled_asks _) rfl rfl rfl rfl rfl (by decide) (by decide)
    (two_files_to (2 ^ 21) (by decide) _ (Or.inl rfl) _ c d s t hc hd) (two_files_to 2048 (by decide) _ (Or.inr rfl) _ c d s' t' hc hd)
    (by simp only [List.mem_cons, List.not_mem_nil, or_false, forall_eq_or_imp, forall_eq]; exact ⟨fun i => (hs i).1, fun i => (hs i).2⟩)
    (by simp only [List.mem_cons, List.not_mem_nil, or_false, forall_eq_or_imp, forall_eq]; exact ⟨fun i => (hs' i).1, fun i => (hs' i).2⟩)
    segs hsegs (Or.inl (Or.inl (sample_suits (2 ^ 21) (by decide)))) (Or.inl (Or.inl (sample_suits 2048 (by decide)))) rfl rfl

/-- The same with `--output rec_{l}`: each of the two slices in a file of its own. -/
example (s t s' t' : Nat → Option Nat) (hs : ∀ i, s i ≠ none ∧ t i ≠ none) (hs' : ∀ i, s' i ≠ none ∧ t' i ≠ none) :
    ∃ fs N, ∀ fuel fuel', N < fuel → N < fuel' → ((twoFiles (2 ^ 21) (bytes! "Hello\n") (bytes! "world\n") s t).withFuel fuel).run { sampleArgs with output := some "rec_{l}" } = ([], none) ∧
      ((twoFiles 2048 (bytes! "Hello\n") (bytes! "world\n") s' t').withFuel fuel').run { respelledArgs with output := some "rec_{l}" } = ([], none) ∧
      ((twoFiles (2 ^ 21) (bytes! "Hello\n") (bytes! "world\n") s t).withFuel fuel).written { sampleArgs with output := some "rec_{l}" } = some fs ∧
      ((twoFiles 2048 (bytes! "Hello\n") (bytes! "world\n") s' t').withFuel fuel').written { respelledArgs with output := some "rec_{l}" } = some fs := by
  have hok : ∀ p ∈ recPieces, PieceOk (twoFiles (2 ^ 21) (bytes! "Hello\n") (bytes! "world\n") s t).numFmts decimal p := by
    intro p hp
    simp only [recPieces, List.mem_cons, List.not_mem_nil, or_false] at hp
    rcases hp with rfl | rfl
    · show _ ∉ _
      decide
    · exact ⟨trivial, [], rfl, fun _ => rfl⟩
  exact C45_template_partial _ _ _ _ sampleJob _ _ [bytes! "Hello\n", bytes! "world\n"] [s, t] [s', t'] decimal recPieces hok ⟨.index, none, by simp [recPieces]⟩
    (asks_to sample_asks _) (asks_to respelled_asks _) rfl rfl rfl (by decide) (by decide)
    (two_files_to (2 ^ 21) (by decide) _ (Or.inl rfl) _ _ _ s t (by decide) (by decide)) (two_files_to 2048 (by decide) _ (Or.inr rfl) _ _ _ s' t' (by decide) (by decide))
    (by simp only [List.mem_cons, List.not_mem_nil, or_false, forall_eq_or_imp, forall_eq]; exact ⟨fun i => (hs i).1, fun i => (hs i).2⟩)
    (by simp only [List.mem_cons, List.not_mem_nil, or_false, forall_eq_or_imp, forall_eq]; exact ⟨fun i => (hs' i).1, fun i => (hs' i).2⟩)
    [⟨3, 3⟩, ⟨6, 3⟩] ⟨_, _, rfl, rfl, by decide⟩ (Or.inl (Or.inl (sample_suits (2 ^ 21) (by decide)))) (Or.inl (Or.inl (sample_suits 2048 (by decide)))) rfl rfl (by decide)
    (fun i x _ => ⟨rfl, fun p hp => by
      simp only [recPieces, List.mem_cons, List.not_mem_nil, or_false] at hp
      rcases hp with rfl | rfl <;> trivial⟩)

/-- A machine with blocks of `B` bytes on which `quick.txt` arrives in pieces of the sizes `s`, and the answer of the editor in pieces of the sizes `t`. -/
def editor (B : Nat) (s t : Nat → Option Nat) : Host :=
  { host none with block := B, files := fun _ => some (quick, s), commands := fun _ _ => (bytes! "000000000010 0003\n000000000028 0003\n", t) }

theorem editor_fits (B : Nat) (hB : 4096 ≤ B) : ({} : Job).Fits ((B - 1784) / 8) := by
  simp [Job.Fits, Job.Near, RangeEnd.at]
  omega

theorem editor_surroundings (B : Nat) (hB : 4096 ≤ B) (s t : Nat → Option Nat) : Surroundings (editor B s t) (backArgs "edit") {} [(quick, s)] [quick] [s] := by
  refine { release := rfl, inplace := rfl, block := (by show 0 < B; omega), opened := .cons rfl .nil, stdin := by simp [inputsOf, backArgs], listed := by simp, patch := trivial,
           decodes := .cons rfl .nil, text := fun h => absurd rfl h, pad := by simp, aligned := by decide, joined := by decide, stream := by decide,
           slicer := ⟨by simp [backArgs], by simp⟩, regex := trivial, fits := Or.inl (Or.inl (editor_fits B hB)) }

theorem editor_answers (B : Nat) (hB : 4096 ≤ B) (s t : Nat → Option Nat) (ht : ∀ i, t i ≠ none) (text : Bytes) : Answers (editor B s t) "edit" text guideRecs := by
  refine ⟨guide_records, ?_, by decide, ht, by simp [editor, host]⟩
  have h18 : ∀ l ∈ Spec.lines (bytes! "000000000010 0003\n000000000028 0003\n"), l.length ≤ 18 := by decide
  intro l hl
  have := h18 l hl
  show l.length < (B - 1777) / 8
  omega

/-- `nd --patch-back edit quick.txt` with blocks of 2^21 bytes and of 4 KiB. -/
example (s t s' t' : Nat → Option Nat) (hs : ∀ i, s i ≠ none ∧ t i ≠ none) (hs' : ∀ i, s' i ≠ none ∧ t' i ≠ none) :
    ∃ N, ∀ fuel fuel', N < fuel → N < fuel' → ((editor (2 ^ 21) s t).withFuel fuel).run (backArgs "edit") = ((editor 4096 s' t').withFuel fuel').run (backArgs "edit") ∧
      ∀ back back', ((editor (2 ^ 21) s t).withFuel fuel).Interleaved back → ((editor 4096 s' t').withFuel fuel').Interleaved back' →
        ((editor (2 ^ 21) s t).withFuel fuel).runWith back (backArgs "edit") = ((editor 4096 s' t').withFuel fuel').runWith back' (backArgs "edit") := by
  obtain ⟨text, _, _, h⟩ := C45_back_partial (editor (2 ^ 21) s t) (editor 4096 s' t') _ _ {} _ _ [quick] [s] [s'] "edit" (back_asks _) (back_asks _) rfl rfl rfl rfl
    (editor_surroundings _ (by decide) s t) (editor_surroundings _ (by decide) s' t') (by simpa using fun i => (hs i).1) (by simpa using fun i => (hs' i).1) (by simp) rfl
    [⟨0, 16⟩, ⟨16, 16⟩, ⟨32, 13⟩] back_slices (Or.inl (Or.inl (editor_fits (2 ^ 21) (by decide)))) (Or.inl (Or.inl (editor_fits 4096 (by decide))))
  exact h guideRecs (editor_answers _ (by decide) s t (fun i => (hs i).2) text) (editor_answers _ (by decide) s' t' (fun i => (hs' i).2) text)

end Nd.Props
