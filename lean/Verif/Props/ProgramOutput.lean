import Verif.Conformance.Host
import Verif.Props.Program
import Verif.Props.ProgramSmall
import Verif.Props.Template
/-!
# C41: what a call with `--output` leaves in the files
-/
namespace Nd.Props
open Nd Nd.Spec

/-- The slices whose documented name is `name`. -/
def Share (fmt : List Char → Int → List Char) (ps : List Template.Piece) (name : List Char) (segs : List Seg) : List Seg :=
  (segs.zipIdx.filter fun x => decide (Template.name fmt x.1.pos x.2 ps = some name)).map Prod.fst

/-- The drain of a call with `--output`. -/
theorem output_drain {a : Args} {file : String} (ho : a.output = some file) (hpb : a.patchBack = none) (m : PipelineArgs InoutFormat) (h1 : m.output = a.output) (h2 : m.patchBack = a.patchBack) :
    m.drain = .ok (file.isEmpty || file == "-", .scatter file) := by
  unfold PipelineArgs.drain
  rw [h1, h2, hpb, ho]

/-- The call writes its slices one by one. -/
theorem job_writes_as (h : Host) (a : Args) (j : Job) (files : List InFile) (contents : List Bytes) (scheds : List (Nat → Option Nat)) (file : String)
    (ha : AsksBody a j) (hpb : a.patchBack = none) (ho : a.output = some file) (hne : file ≠ "" ∧ file ≠ "-") (hs : Surroundings h a j files contents scheds) (segs : List Seg) (hsegs : j.Slices (j.stream contents) segs)
    (hp : j.Suits h.block (files.map Prod.snd) (j.stream contents) ∨ j.Pours (j.stream contents) segs) {c₀ : ScatterContext (List Char)} (hc : ScatterContext.new h.numFmts h.outputs file.toList = .ok c₀) :
    ∃ f N, OutputFormat a j.slicer.columns f ∧ j.printing.Formats f ∧ f.minWidth ≤ max 16 j.slicer.columns ∧ ∀ c, ScatterDrain.dumpSlices f 0 (slicesOf (j.stream contents) segs) c₀ = .ok c → ∀ fuel, N < fuel →
      ((h.withFuel fuel).run a = ([], none) ∧ (h.withFuel fuel).written a = some c.fs) ∨ ∃ e, Failing scheds e ∧ (h.withFuel fuel).run a = ([], some e) := by
  have hblock : j.pad.1 ≤ usizeMax := by
    have := hs.joined
    unfold usizeMax
    omega
  obtain ⟨hw0, m, p, f, hm, hfa, hpi, hof, hf, hmw⟩ := asks_pipeline_as ha (output_drain ho hpb) (fun _ => by rw [hs.inplace]; rfl) hs.patch hblock hs.slicer hs.regex hs.proper
  rw [hpb] at hpi
  have hmax : (2 : Nat) ^ 48 < usizeMax := by decide
  obtain ⟨N, hN⟩ := pipeline_drains h scheds file j p f hpi files contents hs.block hs.release hs.some_input hs.listed hw0 hs.decodes (fun c hc => by
    have := hs.aligned c hc
    omega) hs.text hs.pad (by have := hs.joined; omega) hs.stream hs.fits hsegs
  refine ⟨f, N + 1, hof, hf, hmw, fun c hd fuel hfu => ?_⟩
  have hprep : (h.withFuel fuel).prepare a = .ok p := by
    unfold Host.prepare
    rw [show a.parse (h.withFuel fuel).fuel = .ok m from hm fuel (by omega)]
    simp only
    rw [if_neg hs.one_stdin, hfa]
  have hst := hs.stream_eq hprep
  unfold Host.run Host.written
  rw [hst]
  rcases hN fuel (by omega) with ⟨e, he, heq⟩ | ⟨g, heq, w, hw, hg⟩
  · rw [heq]
    exact Or.inr ⟨e, he, rfl⟩
  · rw [heq]
    simp only [Host.scatter, attempt, hpi.out rfl]
    rw [if_neg (by simp [hne.1, hne.2]), show (h.withFuel fuel).numFmts = h.numFmts from rfl, show (h.withFuel fuel).outputs = h.outputs from rfl, hc]
    simp only
    obtain ⟨k, hk⟩ : ∃ k, (h.withFuel fuel).fuel = k + 1 := ⟨fuel - 1, by show fuel = _; omega⟩
    rcases hg.writes hp f (h.withFuel fuel).fuel c₀ (by show w + 1 < fuel; omega) with ⟨e, he, hw⟩ | hw
    · refine Or.inr ⟨e, he, ?_⟩
      rw [hk] at hw ⊢
      simp only [consumeStream, ScatterDrain.scatterSrc, hw]
    · left
      rw [hd, hk] at hw
      rw [hk]
      constructor
      · have := C30_prints_nothing g.src f (k + 1) (h.withFuel fuel).block k (ScatterDrain.new g.st, c₀)
        exact Prod.ext this.1 (this.2.2 ⟨c, hw⟩)
      · simp only [ScatterDrain.scatterSrc, hw]

theorem job_writes (h : Host) (a : Args) (j : Job) (files : List InFile) (contents : List Bytes) (scheds : List (Nat → Option Nat)) (file : String)
    (ha : AsksBody a j) (hpb : a.patchBack = none) (ho : a.output = some file) (hne : file ≠ "" ∧ file ≠ "-") (hs : Surroundings h a j files contents scheds) (segs : List Seg) (hsegs : j.Slices (j.stream contents) segs)
    (hp : j.Suits h.block (files.map Prod.snd) (j.stream contents) ∨ j.Pours (j.stream contents) segs) {c₀ : ScatterContext (List Char)} (hc : ScatterContext.new h.numFmts h.outputs file.toList = .ok c₀) :
    ∃ f N, j.printing.Formats f ∧ f.minWidth ≤ max 16 j.slicer.columns ∧ ∀ c, ScatterDrain.dumpSlices f 0 (slicesOf (j.stream contents) segs) c₀ = .ok c → ∀ fuel, N < fuel →
      ((h.withFuel fuel).run a = ([], none) ∧ (h.withFuel fuel).written a = some c.fs) ∨ ∃ e, Failing scheds e ∧ (h.withFuel fuel).run a = ([], some e) := by
  obtain ⟨f, N, _, h1⟩ := job_writes_as h a j files contents scheds file ha hpb ho hne hs segs hsegs hp hc
  exact ⟨f, N, h1⟩

/-- **C41**, a plain name: the output replaces the beginning of the file; the other files stay as they are, and nothing is printed.

Partial: the conditions of `Surroundings`, and `--patch-back`; the file is not truncated (`C30_not_truncated_counterexample`); chosen lines of a short stream
(`C41_lines_counterexample`). -/
theorem C41_file_partial (h : Host) (a : Args) (j : Job) (files : List InFile) (contents : List Bytes) (scheds : List (Nat → Option Nat)) (file : String)
    (ha : AsksBody a j) (hpb : a.patchBack = none) (ho : a.output = some file) (hne : file ≠ "" ∧ file ≠ "-") (hplain : '{' ∉ file.toList) (hs : Surroundings h a j files contents scheds)
    (segs : List Seg) (hsegs : j.Slices (j.stream contents) segs) (hp : j.Suits h.block (files.map Prod.snd) (j.stream contents) ∨ j.Pours (j.stream contents) segs) :
    ∃ text N, j.printing.Prints (j.stream contents) segs text ∧
      (j.printing ≠ .binary → ∀ l ∈ lines text, ∃ x ∈ segs, l.length ≤ 47 + 4 * max x.len (max 16 j.slicer.columns)) ∧ ∀ fuel, N < fuel →
      ((h.withFuel fuel).run a = ([], none) ∧ ∃ fs, (h.withFuel fuel).written a = some fs ∧
        fs file.toList = some (text ++ ((h.outputs file.toList).getD []).drop text.length) ∧ ∀ other, other ≠ file.toList → fs other = h.outputs other) ∨
      ∃ e, Failing scheds e ∧ (h.withFuel fuel).run a = ([], some e) := by
  obtain ⟨f, N, hf, hmw, h1⟩ := job_writes h a j files contents scheds file ha hpb ho hne hs segs hsegs hp (C30_plain_name h.numFmts _ hplain h.outputs)
  obtain ⟨hpr, hll⟩ := prints hf (slices_inside hsegs (hs.fits.imp id And.right)) hs.stream
  obtain ⟨c, h2, h3, h4⟩ := dumpSlices_file f file.toList (slicesOf (j.stream contents) segs) 0 0 (ScatterContext.openFile h.outputs file.toList) ((h.outputs file.toList).getD []) rfl
    (by simp [ScatterContext.openFile, ScatterContext.set]) (Nat.zero_le _)
  refine ⟨(slicesOf (j.stream contents) segs).flatMap f.line, N, hpr, fun hb l hl => ?_, fun fuel hfu => ?_⟩
  · obtain ⟨x, hx, hle⟩ := hll hb l hl
    exact ⟨x, hx, by omega⟩
  · rcases h1 c h2 fuel hfu with ⟨h5, h6⟩ | h5
    · refine Or.inl ⟨h5, c.fs, h6, by rw [h3]; simp, fun other hne => ?_⟩
      rw [h4 other hne]
      simp [ScatterContext.openFile, ScatterContext.set, hne]
    · exact Or.inr h5

theorem shareOf_share (f : Formatting) (fmt : List Char → Int → List Char) (ps : List Template.Piece) (name : List Char) (content : Bytes) : ∀ (segs : List Seg) (i : Nat),
    (∀ k x, segs[k]? = some x → (Template.name fmt x.pos (i + k) ps).isSome) →
    (shareOf f (fun n l => (Template.name fmt n l ps).getD []) name i (slicesOf content segs)) =
      (slicesOf content (((segs.zipIdx i).filter fun x => decide (Template.name fmt x.1.pos x.2 ps = some name)).map Prod.fst)).map f.line
  | [], i, _ => rfl
  | x :: rest, i, h => by
    have ih := shareOf_share f fmt ps name content rest (i + 1) fun k y hy => by
      have := h (k + 1) y (by simpa using hy)
      rwa [show i + 1 + k = i + (k + 1) by omega]
    have h0 := h 0 x rfl
    rw [Nat.add_zero] at h0
    obtain ⟨nm, hnm⟩ := Option.isSome_iff_exists.1 h0
    simp only [slicesOf, List.map_cons, shareOf, List.zipIdx_cons, hnm, Option.getD_some]
    simp only [slicesOf] at ih
    rw [ih]
    by_cases hc : nm = name
    · subst hc
      simp [hnm]
    · rw [if_neg hc, List.filter_cons_of_neg (by simp [hnm, hc])]

theorem share_sub {fmt : List Char → Int → List Char} {ps : List Template.Piece} {name : List Char} {segs : List Seg} {x : Seg} (h : x ∈ Share fmt ps name segs) : x ∈ segs := by
  unfold Share at h
  obtain ⟨y, hy, rfl⟩ := List.mem_map.1 h
  have hy := (List.mem_filter.1 hy).1
  obtain ⟨y, i⟩ := y
  exact (List.mem_zipIdx hy).2.2 ▸ List.getElem_mem _

/-- What slices that are written one by one leave in the files. -/
theorem template_files {outputs : FileSys (List Char)} {printing : Printing} {f : Formatting} (hf : printing.Formats f) {content : Bytes} {segs : List Seg}
    (hin : ∀ x ∈ segs, x.tail ≤ content.length) (hl : content.length < 2 ^ 48) (fmt : List Char → Int → List Char) (ps : List Template.Piece) {render : Nat → Nat → Except Err (List Char)}
    (hren : ∀ n l : Nat, n < 2 ^ 63 → l < 2 ^ 63 → (∀ p ∈ ps, PieceNarrow n l p) → ∀ nm, Template.name fmt n l ps = some nm → render n l = .ok nm) (hcount : segs.length < 2 ^ 63)
    (hname : ∀ i x, segs[i]? = some x → (Template.name fmt x.pos i ps).isSome ∧ ∀ p ∈ ps, PieceNarrow x.pos i p) :
    ∃ (texts : List Char → Bytes) (c : ScatterContext (List Char)), ScatterDrain.dumpSlices f 0 (slicesOf content segs) (ScatterContext.openTemplate outputs render) = .ok c ∧
      (∀ name, printing.Prints content (Share fmt ps name segs) (texts name)) ∧ ∀ name, c.fs name = if Share fmt ps name segs = [] then outputs name else some (texts name) := by
  obtain ⟨c, h2, h3⟩ := dumpSlices_template f render (fun n l => (Template.name fmt n l ps).getD []) (slicesOf content segs) 0 (ScatterContext.openTemplate outputs render) rfl
    (fun k x hx => by
      simp only [slicesOf, List.getElem?_map, Option.map_eq_some_iff] at hx
      obtain ⟨y, hy, rfl⟩ := hx
      obtain ⟨h4, h5⟩ := hname k y hy
      obtain ⟨nm, hnm⟩ := Option.isSome_iff_exists.1 h4
      have := hin y (List.mem_of_getElem? hy)
      have h7 : k < segs.length := (List.getElem?_eq_some_iff.1 hy).1
      simp only [Seg.tail] at this
      rw [Nat.zero_add, hnm]
      exact hren y.pos k (by omega) (by omega) h5 nm hnm)
  refine ⟨fun name => (slicesOf content (Share fmt ps name segs)).flatMap f.line, c, h2, fun name => (prints hf (fun x hx => hin x (share_sub hx)) hl).1, fun name => ?_⟩
  rw [h3 name, shareOf_share f fmt ps name _ segs 0 (fun k x hx => by rw [Nat.zero_add]; exact (hname k x hx).1)]
  show (if name ∈ ([] : List (List Char)) then _ else if (slicesOf _ (Share fmt ps name segs)).map f.line = [] then outputs name else some ((slicesOf _ (Share fmt ps name segs)).map f.line).flatten) = _
  rw [if_neg (by simp), ← List.flatMap_def]
  simp [slicesOf]

theorem template_named {ps : List Template.Piece} (hval : ∃ v f, Template.Piece.value v f ∈ ps) :
    String.ofList (Template.source ps) ≠ "" ∧ String.ofList (Template.source ps) ≠ "-" := by
  have hbrace : '{' ∈ Template.source ps := by
    obtain ⟨v, f, hv⟩ := hval
    unfold Template.source
    rw [List.mem_flatMap]
    refine ⟨_, hv, ?_⟩
    cases f <;> simp [Template.Piece.source]
  constructor <;> intro h <;> rw [← String.toList_inj, String.toList_ofList] at h <;> rw [h] at hbrace <;> exact absurd hbrace (by decide)

/-- **C41**, a name with values: every file whose documented name belongs to at least one slice contains exactly the slices with that name, in order, whatever it contained
before; the other files stay as they are, and nothing is printed.

Partial: the conditions of `Surroundings`, expressions outside the classes of C17, and chosen lines of a short stream (`C41_lines_counterexample`). -/
theorem C41_template_partial (h : Host) (a : Args) (j : Job) (files : List InFile) (contents : List Bytes) (scheds : List (Nat → Option Nat))
    (fmt : List Char → Int → List Char) (ps : List Template.Piece) (hok : ∀ p ∈ ps, PieceOk h.numFmts fmt p) (hval : ∃ v f, Template.Piece.value v f ∈ ps)
    (ha : AsksBody a j) (hpb : a.patchBack = none) (ho : a.output = some (String.ofList (Template.source ps))) (hs : Surroundings h a j files contents scheds)
    (segs : List Seg) (hsegs : j.Slices (j.stream contents) segs) (hp : j.Suits h.block (files.map Prod.snd) (j.stream contents) ∨ j.Pours (j.stream contents) segs) (hcount : segs.length < 2 ^ 63)
    (hname : ∀ i x, segs[i]? = some x → (Template.name fmt x.pos i ps).isSome ∧ ∀ p ∈ ps, PieceNarrow x.pos i p) :
    ∃ (texts : List Char → Bytes) (N : Nat), (∀ name, j.printing.Prints (j.stream contents) (Share fmt ps name segs) (texts name)) ∧ ∀ fuel, N < fuel →
      ((h.withFuel fuel).run a = ([], none) ∧ ∃ fs, (h.withFuel fuel).written a = some fs ∧
        ∀ name, fs name = if Share fmt ps name segs = [] then h.outputs name else some (texts name)) ∨
      ∃ e, Failing scheds e ∧ (h.withFuel fuel).run a = ([], some e) := by
  obtain ⟨render, hnew, hren⟩ := C30_names_partial ps hok hval h.outputs
  have hin := slices_inside hsegs (hs.fits.imp id And.right)
  obtain ⟨f, N, hf, _, h1⟩ := job_writes h a j files contents scheds _ ha hpb ho (template_named hval) hs segs hsegs hp (by rw [String.toList_ofList]; exact hnew)
  obtain ⟨texts, c, h2, h3, h4⟩ := template_files (outputs := h.outputs) hf hin hs.stream fmt ps hren hcount hname
  refine ⟨texts, N, h3, fun fuel hfu => ?_⟩
  rcases h1 c h2 fuel hfu with ⟨h5, h6⟩ | h5
  · exact Or.inl ⟨h5, c.fs, h6, h4⟩
  · exact Or.inr h5

/-! ## Disagreement -/

open Conformance in
/-- **Counterexample** (chosen lines of a short stream): `nd -f b --width 4,s+1..e --invert s..e --lines 0..1 quick.txt` prints the first gap, the byte before the first
slice.  With `--output out` it aborts: `FilterStream` reports that all that is needed ends after one byte, `ConstSlicer` does not give up so few bytes, and the drain, which
does not end with the first call, counts the slice that it has already written twice (`src/drain/scatter.rs` 161-167). -/
theorem C41_lines_counterexample :
    (host none).run { inputs := ["quick.txt"], outFormat := some "b", width := some "4,s+1..e", invert := some "s..e", lines := some "0..1" } = (bytes! "T", none) ∧
    (host none).run { inputs := ["quick.txt"], outFormat := some "b", width := some "4,s+1..e", invert := some "s..e", lines := some "0..1", output := some "out" } =
      ([], some .panic) := by
  decide +kernel

/-! ## Examples -/

open Conformance in
/-- `nd -f b --filler 7 --cat 8 --cut 1.. --pad 1,2 --width 3 --lines 1..3 --output out hello.txt world.txt`: `lo`, a line break, two fillers and `w` replace the first six
bytes of `out`. -/
example (outputs : FileSys (List Char)) : ∃ N, ∀ fuel, N < fuel → (({ host none with outputs := outputs } : Host).withFuel fuel).run { sampleArgs with output := some "out" } = ([], none) ∧
    ∃ fs, (({ host none with outputs := outputs } : Host).withFuel fuel).written { sampleArgs with output := some "out" } = some fs ∧
      fs "out".toList = some ([108, 111, 10, 7, 7, 119] ++ ((outputs "out".toList).getD []).drop 6) ∧ ∀ other, other ≠ "out".toList → fs other = outputs other := by
  have ha : AsksBody { sampleArgs with output := some "out" } sampleJob :=
    let h := sample_asks
    { inFormat := h.inFormat, outFormat := h.outFormat, filler := h.filler, joint := h.joint, cut := h.cut, pad := h.pad, slicer := h.slicer, invert := h.invert, extend := h.extend,
      merge := h.merge, lines := h.lines }
  have hfit : sampleJob.Fits ((2 ^ 21 - 1784) / 8) := by simp [Job.Fits, Job.Near, sampleJob, RangeEnd.at]
  have hs : Surroundings { host none with outputs := outputs } { sampleArgs with output := some "out" } sampleJob
      [(bytes! "Hello\n", fun _ => some (2 ^ 21)), (bytes! "world\n", fun _ => some (2 ^ 21))] [bytes! "Hello\n", bytes! "world\n"] [fun _ => some (2 ^ 21)] := by
    refine { release := rfl, inplace := rfl, block := show 0 < 2 ^ 21 by decide, opened := .cons rfl (.cons rfl .nil), stdin := by decide, listed := by simp, patch := trivial,
             decodes := .cons rfl (.cons rfl .nil), text := fun h => absurd rfl h, pad := ⟨show _ ≤ 2 ^ 21 by decide, show _ ≤ 2 ^ 21 by decide⟩, aligned := by decide, joined := by decide, stream := by decide,
             slicer := ⟨by simp [sampleArgs], by simp [sampleJob]⟩, regex := trivial, fits := Or.inl (Or.inl hfit) }
  obtain ⟨text, N, h1, _, h2⟩ := C41_file_partial _ _ _ _ _ _ "out" ha rfl rfl (by decide) (by decide) hs [⟨3, 3⟩, ⟨6, 3⟩] ⟨_, _, rfl, rfl, by decide⟩ (Or.inl (Or.inl hfit))
  refine ⟨N, fun fuel hf => ?_⟩
  have ht : text = [108, 111, 10, 7, 7, 119] := by
    simp only [sampleJob, Printing.Prints] at h1
    rw [h1]
    decide
  rcases h2 fuel hf with ⟨h3, fs, h4, h5, h6⟩ | ⟨e, ⟨_, s, hsm, i, hi⟩, _⟩
  · exact ⟨h3, fs, h4, by rw [h5, ht]; rfl, h6⟩
  · simp only [List.mem_singleton] at hsm
    rw [hsm] at hi
    cases hi

/-- `rec_{l}` -/
def recPieces : List Template.Piece := [.text "rec_".toList, .value .index none]

/-- The numbers in decimal. -/
def decimal (_ : List Char) (v : Int) : List Char := Nat.toDigits 10 v.toNat

open Conformance in
/-- `nd -f b --walk 'h[0], (b[2]&7)*2' --output 'rec_{l}' records.bin`: every record in a file of its own. -/
example (outputs : FileSys (List Char)) :
    let h : Host := { host none with files := fun _ => some (walkFile, atOnce), outputs := outputs }
    let a : Args := { walkArgs with lines := none, output := some "rec_{l}" }
    ∃ N, ∀ fuel, N < fuel → (h.withFuel fuel).run a = ([], none) ∧ ∃ fs, (h.withFuel fuel).written a = some fs ∧ fs "rec_0".toList = some [3, 0, 10] ∧
      fs "rec_1".toList = some [7, 7, 7, 7] ∧ fs "rec_2".toList = some [4, 0, 1, 99] ∧ fs "rec_3".toList = some [8, 8] ∧ fs "rec_4".toList = outputs "rec_4".toList := by
  intro h a
  let j : Job := { walkJob with lines := none }
  have ha : AsksBody a j :=
    let h := walk_asks
    { inFormat := h.inFormat, outFormat := h.outFormat, filler := h.filler, joint := h.joint, cut := h.cut, pad := h.pad, slicer := h.slicer, invert := h.invert, extend := h.extend,
      merge := h.merge, lines := .none }
  have hst : j.stream [walkFile] = walkFile := by decide
  have ho : j.Orderly walkFile := by
    refine { slicer := ⟨by simp, ?_⟩, regex := by simp [j, walkJob], invert := by simp [j, walkJob], merge := by simp [j, walkJob], lines := by simp [j] }
    intro e he
    simp only [List.mem_cons, List.not_mem_nil, or_false] at he
    rcases he with rfl | rfl
    · obtain ⟨h1, h2, h3, h4⟩ := sizeExpr_walkable
      exact ⟨h1, h2, h3, 4, h4⟩
    · obtain ⟨h1, h2, h3, h4⟩ := nibbleExpr_walkable
      exact ⟨h1, h2, h3, 4, h4⟩
  have hs : Surroundings h a j [(walkFile, atOnce)] [walkFile] [atOnce] := by
    refine { release := rfl, inplace := rfl, block := show 0 < 2 ^ 21 by decide, opened := .cons rfl .nil, stdin := by decide, listed := by simp, patch := trivial,
             decodes := .cons rfl .nil, text := fun h => absurd rfl h, pad := ⟨show _ ≤ 2 ^ 21 by decide, show _ ≤ 2 ^ 21 by decide⟩, aligned := by decide, joined := by decide, stream := by decide,
             slicer := ⟨?_, by simp [j, walkJob]⟩, regex := trivial, fits := Or.inr ⟨by rw [hst]; exact show walkFile.length < 2 ^ 21 by decide, by rw [hst]; exact ho⟩ }
    intro t ht
    cases ht
    rw [String.toList_ofList]
    exact record_new ()
  have hok : ∀ p ∈ recPieces, PieceOk h.numFmts decimal p := by
    intro p hp
    simp only [recPieces, List.mem_cons, List.not_mem_nil, or_false] at hp
    rcases hp with rfl | rfl
    · show _ ∉ _
      decide
    · exact ⟨trivial, [], rfl, fun _ => rfl⟩
  obtain ⟨texts, N, h1, h2⟩ := C41_template_partial h a j _ _ _ decimal recPieces hok ⟨.index, none, by simp [recPieces]⟩ ha rfl (by decide) hs [⟨0, 3⟩, ⟨3, 4⟩, ⟨7, 4⟩, ⟨11, 2⟩]
    ⟨_, _, by rw [hst]; exact walk_cuts, rfl, rfl⟩ (Or.inr ⟨rfl, by simp [j, walkJob], fun h => by rw [hst] at h; cases h⟩) (by decide) (fun i x _ => ⟨rfl, fun p hp => by
      simp only [recPieces, List.mem_cons, List.not_mem_nil, or_false] at hp
      rcases hp with rfl | rfl <;> trivial⟩)
  refine ⟨N, fun fuel hf => ?_⟩
  rcases h2 fuel hf with ⟨h3, fs, h4, h5⟩ | ⟨e, ⟨_, s, hsm, i, hi⟩, _⟩
  · have get : ∀ name mine text, Share decimal recPieces name [⟨0, 3⟩, ⟨3, 4⟩, ⟨7, 4⟩, ⟨11, 2⟩] = mine → mine ≠ [] → (mine.map fun x => x.bytes walkFile).flatten = text → fs name = some text := by
      intro name mine text g1 g2 g3
      have := h1 name
      rw [hst, g1] at this
      simp only [j, walkJob, Printing.Prints] at this
      rw [h5 name, g1, if_neg g2, this, g3]
    refine ⟨h3, fs, h4, get _ [⟨0, 3⟩] _ (by decide +kernel) (by simp) (by decide), get _ [⟨3, 4⟩] _ (by decide +kernel) (by simp) (by decide),
      get _ [⟨7, 4⟩] _ (by decide +kernel) (by simp) (by decide), get _ [⟨11, 2⟩] _ (by decide +kernel) (by simp) (by decide), ?_⟩
    rw [h5, if_pos (by decide +kernel)]
  · simp only [List.mem_singleton] at hsm
    rw [hsm] at hi
    cases hi

end Nd.Props
