import Verif.Props.Columns
import Verif.Props.ProgramOutput
/-!
# C41, slices with gaps over regular files of any length
-/
namespace Nd.Props
open Nd Nd.Spec

/-- The call writes its slices one by one. -/
theorem column_writes (h : Host) (a : Args) (j : Job) (name file : String) (content : Bytes) (s : Nat → Option Nat) (n : Nat) (start stop : Int) (ha : AsksBody a j)
    (hpb : a.patchBack = none) (hout : a.output = some file) (hne : file ≠ "" ∧ file ≠ "-") (hip : a.inplace = false)
    (hj : ColumnJob h.block j n start stop) (hi : a.inputs = [name]) (ho : a.patch = none ∧ a.regex = none ∧ a.walk = none ∧ a.guide = none)
    (hf : h.files name = some (content, s)) (hfull : ∀ i, ∃ k, s i = some k ∧ h.block ≤ k) (hl : content.length < 2 ^ 48) {c₀ : ScatterContext (List Char)}
    (hc : ScatterContext.new h.numFmts h.outputs file.toList = .ok c₀) :
    ∃ f N, j.printing.Formats f ∧ ∀ c, ScatterDrain.dumpSlices f 0 (slicesOf content (strides content.length n start stop)) c₀ = .ok c → ∀ fuel, N < fuel →
      (h.withFuel fuel).run a = ([], none) ∧ (h.withFuel fuel).written a = some c.fs := by
  have ⟨o1, o2, o3, o4⟩ := ho
  obtain ⟨r, hsl, rfl, rfl⟩ := hj.slicer
  obtain ⟨f1, f2, f3, f4, f5⟩ := hj.stages
  have hst := hj.nonneg
  have hpr := hj.proper
  have hB : 0 < h.block := by have := hj.room; omega
  obtain ⟨hw0, m, p, f, hm, hfa, hp, hfm, hmw⟩ := asks_pipeline (h := h) (scheds := [s]) ha (output_drain hout hpb) (fun _ => by rw [hip]; rfl) (by rw [hj.patch, o1]; trivial)
    (by rw [hj.pad]; exact Nat.zero_le _) ⟨by simp [o3], by simp [o4]⟩ (by rw [f1, o2]; trivial) (fun n' r' h' => by
      rw [hsl] at h'
      cases h'
      omega)
  rw [hpb] at hp
  obtain ⟨N, hN⟩ := pipeline_comb h [s] file j p f hp (content, s) hB (by simp) ⟨hj.coding, hj.joint, hj.cut, hj.pad, hj.patch⟩ hsl hj.stages hj.pos hj.divides hst (by omega) hj.room
    (fun i k hk => by
      obtain ⟨k', h1, h2⟩ := hfull i
      rw [show s i = some k from hk] at h1
      cases h1
      exact h2) hl
  refine ⟨f, N + 1, hfm, fun c h2 fuel hfu => ?_⟩
  have hno : ∀ e, ¬ Failing [s] e := by
    rintro e ⟨_, s', hs', i, hi'⟩
    rw [List.mem_singleton] at hs'
    subst hs'
    obtain ⟨k, h1, _⟩ := hfull i
    rw [h1] at hi'
    cases hi'
  have hprep : (h.withFuel fuel).prepare a = .ok p := by
    unfold Host.prepare
    rw [show a.parse (h.withFuel fuel).fuel = .ok m from hm fuel (by omega)]
    simp only
    rw [if_neg (by
      unfold Args.countStdin Args.countStdinOfOptions
      rw [o1, o4, hi]
      have := List.countP_le_length (p := Args.isStdin) (l := [name])
      simpa using this), hfa]
  have hstream : (h.withFuel fuel).stream a = p.spawnStream ((h.withFuel fuel).stages p [Reader.open content s]) := by
    unfold Host.stream
    rw [hprep]
    simp only [attempt, Host.spawn]
    rw [show (if a.inputs = [] then ["-"] else a.inputs).mapM (h.withFuel fuel).openReader = .ok ([(content, s)].map fun f => Reader.open f.1 f.2) from by
      rw [hi, if_neg (by simp)]
      exact mapM_open (h := h.withFuel fuel) (.cons hf .nil)]
    rfl
  unfold Host.run Host.written
  rw [hstream]
  rcases hN fuel (by omega) with ⟨e, he, _⟩ | ⟨g, heq, w, hw, _, hg⟩
  · exact absurd he (hno e)
  · rw [heq]
    simp only [Host.scatter, attempt, hp.out rfl]
    rw [if_neg (by simp [hne.1, hne.2]), show (h.withFuel fuel).numFmts = h.numFmts from rfl, show (h.withFuel fuel).outputs = h.outputs from rfl, hc]
    simp only
    obtain ⟨k, hk⟩ : ∃ k, (h.withFuel fuel).fuel = k + 1 := ⟨fuel - 1, by show fuel = _; omega⟩
    rcases hg f (h.withFuel fuel).fuel c₀ (by show w + 1 < fuel; omega) with ⟨e, he, _⟩ | hwr
    · exact absurd he (hno e)
    · rw [show ScatterDrain.dumpSlices f 0 _ _ = _ from h2, hk] at hwr
      rw [hk]
      constructor
      · have := C30_prints_nothing g.src f (k + 1) (h.withFuel fuel).block k (ScatterDrain.new g.st, c₀)
        exact Prod.ext this.1 (this.2.2 ⟨c, hwr⟩)
      · simp only [ScatterDrain.scatterSrc, hwr]

/-- **C41** for `nd --width N,S..E --output OUT FILE`, where `N` divides the block and the reads are never short: the slices replace the beginning of the file `OUT`, for every
length of the input.  Missing: see `C29_columns_partial`. -/
theorem C41_columns_partial (h : Host) (a : Args) (j : Job) (name file : String) (content : Bytes) (s : Nat → Option Nat) (n : Nat) (start stop : Int) (ha : AsksBody a j)
    (hpb : a.patchBack = none) (hout : a.output = some file) (hne : file ≠ "" ∧ file ≠ "-") (hplain : '{' ∉ file.toList) (hip : a.inplace = false)
    (hj : ColumnJob h.block j n start stop) (hi : a.inputs = [name]) (ho : a.patch = none ∧ a.regex = none ∧ a.walk = none ∧ a.guide = none)
    (hf : h.files name = some (content, s)) (hfull : ∀ i, ∃ k, s i = some k ∧ h.block ≤ k) (hl : content.length < 2 ^ 48) :
    ∃ text N, j.printing.Prints content (strides content.length n start stop) text ∧ ∀ fuel, N < fuel → (h.withFuel fuel).run a = ([], none) ∧
      ∃ fs, (h.withFuel fuel).written a = some fs ∧ fs file.toList = some (text ++ ((h.outputs file.toList).getD []).drop text.length) ∧
        ∀ other, other ≠ file.toList → fs other = h.outputs other := by
  obtain ⟨f, N, hfm, h1⟩ := column_writes h a j name file content s n start stop ha hpb hout hne hip hj hi ho hf hfull hl (C30_plain_name h.numFmts _ hplain h.outputs)
  obtain ⟨hprt, _⟩ := prints hfm (fun x hx => (strides_mem hx).2.1) hl
  obtain ⟨c, h2, h3, h4⟩ := dumpSlices_file f file.toList (slicesOf content (strides content.length n start stop)) 0 0 (ScatterContext.openFile h.outputs file.toList)
    ((h.outputs file.toList).getD []) rfl (by simp [ScatterContext.openFile, ScatterContext.set]) (Nat.zero_le _)
  refine ⟨_, N, hprt, fun fuel hfu => ⟨(h1 c h2 fuel hfu).1, _, (h1 c h2 fuel hfu).2, by rw [h3]; simp, fun other hne => ?_⟩⟩
  rw [h4 other hne]
  simp [ScatterContext.openFile, ScatterContext.set, hne]

/-- **C41** for the same calls and a name with values: every file whose documented name belongs to at least one slice contains exactly the slices with that name.  Missing: see
`C29_columns_partial` and `C41_template_partial`. -/
theorem C41_columns_template_partial (h : Host) (a : Args) (j : Job) (name : String) (content : Bytes) (s : Nat → Option Nat) (n : Nat) (start stop : Int)
    (fmt : List Char → Int → List Char) (ps : List Template.Piece) (hok : ∀ p ∈ ps, PieceOk h.numFmts fmt p) (hval : ∃ v f, Template.Piece.value v f ∈ ps) (ha : AsksBody a j)
    (hpb : a.patchBack = none) (hout : a.output = some (String.ofList (Template.source ps))) (hip : a.inplace = false)
    (hj : ColumnJob h.block j n start stop) (hi : a.inputs = [name]) (ho : a.patch = none ∧ a.regex = none ∧ a.walk = none ∧ a.guide = none)
    (hf : h.files name = some (content, s)) (hfull : ∀ i, ∃ k, s i = some k ∧ h.block ≤ k) (hl : content.length < 2 ^ 48)
    (hname : ∀ i x, (strides content.length n start stop)[i]? = some x → (Template.name fmt x.pos i ps).isSome ∧ ∀ p ∈ ps, PieceNarrow x.pos i p) :
    ∃ (texts : List Char → Bytes) (N : Nat), (∀ file, j.printing.Prints content (Share fmt ps file (strides content.length n start stop)) (texts file)) ∧ ∀ fuel, N < fuel →
      (h.withFuel fuel).run a = ([], none) ∧ ∃ fs, (h.withFuel fuel).written a = some fs ∧
        ∀ file, fs file = if Share fmt ps file (strides content.length n start stop) = [] then h.outputs file else some (texts file) := by
  obtain ⟨render, hnew, hren⟩ := C30_names_partial ps hok hval h.outputs
  obtain ⟨f, N, hfm, h1⟩ := column_writes h a j name _ content s n start stop ha hpb hout (template_named hval) hip hj hi ho hf hfull hl (by rw [String.toList_ofList]; exact hnew)
  have hcount : (strides content.length n start stop).length < 2 ^ 63 := by
    unfold strides
    refine Nat.lt_of_le_of_lt (List.length_filterMap_le _ _) ?_
    rw [List.length_range]
    refine Nat.lt_of_le_of_lt (Nat.div_le_of_le_mul (n := content.length + 1) ?_) (show content.length + 1 < 2 ^ 63 by omega)
    have h5 := Nat.mul_le_mul_right content.length hj.pos
    rw [Nat.mul_add]
    omega
  obtain ⟨texts, c, h2, h3, h4⟩ := template_files (outputs := h.outputs) hfm (fun x hx => (strides_mem hx).2.1) hl fmt ps hren hcount hname
  exact ⟨texts, N, h3, fun fuel hfu => ⟨(h1 c h2 fuel hfu).1, c.fs, (h1 c h2 fuel hfu).2, h4⟩⟩

open Conformance in
/-- The second of every eight bytes of a regular file of any length, in a new file. -/
example (content : Bytes) (hl : content.length < 2 ^ 48) :
    ∃ text N, text = ((strides content.length 8 1 2).map fun x => x.bytes content).flatten ∧ ∀ fuel, N < fuel →
      let h : Host := { host none with files := fun _ => some (content, fun _ => some (2 ^ 21)), outputs := fun _ => none, fuel := fuel }
      h.run { columnArgs with output := some "out" } = ([], none) ∧ ∃ fs, h.written { columnArgs with output := some "out" } = some fs ∧ fs "out".toList = some text := by
  obtain ⟨text, N, h1, h2⟩ := C41_columns_partial { host none with files := fun _ => some (content, fun _ => some (2 ^ 21)), outputs := fun _ => none } { columnArgs with output := some "out" } columnJob
    "FILE" "out" content (fun _ => some (2 ^ 21)) 8 1 2
    (let h := column_asks
     { inFormat := h.inFormat, outFormat := h.outFormat, filler := h.filler, joint := h.joint, cut := h.cut, pad := h.pad, slicer := h.slicer, invert := h.invert, extend := h.extend,
       merge := h.merge, lines := h.lines })
    rfl rfl (by decide) (by decide) rfl
    ⟨rfl, Or.inl rfl, rfl, rfl, rfl, ⟨_, rfl, rfl, rfl⟩, ⟨rfl, rfl, rfl, rfl, rfl⟩, by decide, show 8 ∣ 2 ^ 21 by decide, by decide, by decide, show (2 : Int) + 2 * 8 + 2 ≤ (2 ^ 21 : Nat) by decide⟩
    rfl ⟨rfl, rfl, rfl, rfl⟩ rfl (fun _ => ⟨_, rfl, show 2 ^ 21 ≤ 2 ^ 21 from Nat.le_refl _⟩) hl
  refine ⟨text, N, h1, fun fuel hf => ?_⟩
  obtain ⟨h3, fs, h4, h5, _⟩ := h2 fuel hf
  exact ⟨h3, fs, h4, by rw [h5]; simp⟩

open Conformance in
/-- The second of every eight bytes of a regular file, in files of their own. -/
example (content : Bytes) (hl : content.length < 2 ^ 48) :
    let h : Host := { host none with files := fun _ => some (content, fun _ => some (2 ^ 21)), outputs := fun _ => none }
    let a : Args := { columnArgs with output := some "rec_{l}" }
    ∃ N, ∀ fuel, N < fuel → (h.withFuel fuel).run a = ([], none) ∧ ∃ fs, (h.withFuel fuel).written a = some fs ∧
      ∀ file, fs file = if Share decimal recPieces file (strides content.length 8 1 2) = [] then none else
        some ((Share decimal recPieces file (strides content.length 8 1 2)).map fun x => x.bytes content).flatten := by
  intro h a
  have hok : ∀ p ∈ recPieces, PieceOk h.numFmts decimal p := by
    intro p hp
    simp only [recPieces, List.mem_cons, List.not_mem_nil, or_false] at hp
    rcases hp with rfl | rfl
    · show _ ∉ _
      decide
    · exact ⟨trivial, [], rfl, fun _ => rfl⟩
  obtain ⟨texts, N, h1, h2⟩ := C41_columns_template_partial h a columnJob "FILE" content (fun _ => some (2 ^ 21)) 8 1 2 decimal recPieces hok ⟨.index, none, by simp [recPieces]⟩
    (let h := column_asks
     { inFormat := h.inFormat, outFormat := h.outFormat, filler := h.filler, joint := h.joint, cut := h.cut, pad := h.pad, slicer := h.slicer, invert := h.invert, extend := h.extend,
       merge := h.merge, lines := h.lines })
    rfl (by decide) rfl
    ⟨rfl, Or.inl rfl, rfl, rfl, rfl, ⟨_, rfl, rfl, rfl⟩, ⟨rfl, rfl, rfl, rfl, rfl⟩, by decide, show 8 ∣ 2 ^ 21 by decide, by decide, by decide, show (2 : Int) + 2 * 8 + 2 ≤ (2 ^ 21 : Nat) by decide⟩
    rfl ⟨rfl, rfl, rfl, rfl⟩ rfl (fun _ => ⟨_, rfl, show 2 ^ 21 ≤ 2 ^ 21 from Nat.le_refl _⟩) hl (fun i x _ => ⟨rfl, fun p hp => by
      simp only [recPieces, List.mem_cons, List.not_mem_nil, or_false] at hp
      rcases hp with rfl | rfl <;> trivial⟩)
  refine ⟨N, fun fuel hf => ⟨(h2 fuel hf).1, ?_⟩⟩
  obtain ⟨_, fs, h3, h4⟩ := h2 fuel hf
  refine ⟨fs, h3, fun file => ?_⟩
  rw [h4, show texts file = _ from h1 file]

/-! ## Disagreement -/

open Conformance in
/-- **Counterexample** (numbers of overlapping slices): with blocks of 16 bytes, `nd -f b --width 8,s-3..s+12 --output 'o{l}'` of 24 bytes writes two slices to `o0`.  The first
one is lent again together with the others, and the drain gives the first slice that it has not yet shown the number of the first one that is lent (`src/drain/scatter.rs` 152-158). -/
theorem C41_numbers_counterexample :
    let h : Host := { host none with block := 16, files := fun _ => some ((List.range 24).map UInt8.ofNat, fun _ => some 16), outputs := fun _ => none }
    let a : Args := { inputs := ["FILE"], outFormat := some "b", width := some "8,s-3..s+12", output := some "o{l}" }
    h.run a = ([], none) ∧ (h.written a).map (fun fs => [fs "o0".toList, fs "o1".toList, fs "o2".toList]) =
      some [some ((List.range 12 ++ (List.range 15).map (· + 5)).map UInt8.ofNat), some (((List.range 11).map (· + 13)).map UInt8.ofNat), none] := by
  decide +kernel

end Nd.Props
