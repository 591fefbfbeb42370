import Verif.Conformance.Host
import Verif.Proof.ProgramRun
/-!
# C37: what a call of the program prints
-/
namespace Nd.Props
open Nd Nd.Spec

/-- The options ask for the job (all but `--patch`, `--guide` and `--regex`, see `Surroundings`), wherever the output goes. -/
structure AsksBody (a : Args) (j : Job) : Prop where
  inFormat : InFormatText a.inFormat j.coding
  outFormat : OutFormatText a.inplace a.outFormat j.printing
  filler : FillerText a.filler j.filler
  joint : JointText a.inplace a.cat a.zip j.joint
  cut : OptText RangesText a.cut j.cut
  pad : PadText a.pad j.pad
  slicer : SlicerText a.width a.find a.slice a.walk a.guide j.slicer
  invert : OptText RangesText a.invert j.invert
  extend : OptText RangesText a.extend j.extend
  merge : OptText Numeral a.merge j.merge
  lines : OptText RangesText a.lines j.lines

/-- The options ask for the job, and its output is printed. -/
structure Asks (a : Args) (j : Job) : Prop extends AsksBody a j where
  output : a.output = none ∨ a.output = some "-"
  patchBack : a.patchBack = none

theorem fromRaw_width {fuel n : Nat} {m : SegmentMapper} {start stop : Int} (hm : m.evaluate (0, n) (0, n) = (start, stop)) (h1 : start < stop) (h2 : 1 ≤ stop) (hf : 0 < fuel) :
    ConstSlicerParams.fromRaw fuel n m = .ok { head := start, tail := max (1 - stop) (1 - (stop - start)), pitch := n, span := (stop - start).toNat } := by
  unfold ConstSlicerParams.fromRaw
  rw [hm]
  simp only
  rw [if_neg (by omega), if_neg (show ¬ stop < 1 by omega)]
  by_cases h0 : 0 ≤ start
  · rw [if_pos h0]
  · rw [if_neg h0]
    obtain ⟨k, rfl⟩ : ∃ k, fuel = k + 1 := ⟨fuel - 1, by omega⟩
    unfold ConstSlicerParams.headLoop
    rw [if_neg (by omega)]
    simp

/-- What the slicer needs: expressions of `--walk` that are accepted, and the file of `--guide`. -/
structure SlicerReady (h : Host) (scheds : List (Nat → Option Nat)) (a : Args) (sl : Slicer) : Prop where
  walk : ∀ t, a.walk = some t → ∃ st, WalkSlicer.new () t.toList = .ok st
  guide : ∀ recs file, sl = .guide recs → a.guide = some file →
    ∃ text sched, h.files file = some (text, sched) ∧ sched ∈ scheds ∧ Records .hex text recs ∧ ShortLines h.block text

/-- The slicer that the options are parsed to, with its width. -/
theorem slicer_parse {h : Host} {scheds : List (Nat → Option Nat)} {a : Args} {j : Job} (ha : AsksBody a j) (hr : SlicerReady h scheds a j.slicer)
    (hw : ∀ n r, j.slicer = .width n r → r.1.at n < r.2.at n ∧ 1 ≤ r.2.at n) :
    ∃ width, (∀ fuel, 0 < fuel → Args.opt (Args.parseConstSlicerParams fuel) a.width = .ok width) ∧
      ∀ m : PipelineArgs InoutFormat, m.find = a.find → m.slice = a.slice → m.walk = a.walk → m.guide = a.guide → m.width = width →
        ∃ node, m.slicer = .ok (j.slicer.columns, node) ∧ j.slicer.Node h scheds node := by
  have hs := ha.slicer
  obtain ⟨r1, r2⟩ := hr
  generalize a.width = aw at *
  generalize a.find = af at *
  generalize a.slice = as at *
  generalize a.walk = al at *
  generalize a.guide = ag at *
  cases hj : j.slicer with
  | width n r =>
    obtain ⟨w1, w2⟩ := hw n r hj
    rw [hj] at hs
    cases hs with
    | none =>
      refine ⟨none, fun _ _ => rfl, fun m h1 h2 h3 h4 hw => ⟨.width width16, ?_, ?_⟩⟩
      · unfold PipelineArgs.slicer
        rw [hw, h1, h2, h3, h4]
        simp only
        rw [default_slicer]
        rfl
      · exact ⟨{ start := { anchor := 0, offset := 0 }, stop := { anchor := 1, offset := 0 } }, 2, by decide, default_slicer, by decide⟩
    | @width t _ _ hw =>
      obtain ⟨mp, g1, g2⟩ := width_parse hw
      have g3 : ∀ fuel, 0 < fuel → _ := fun fuel hfu => fromRaw_width (fuel := fuel) g2 (by omega) (by omega) hfu
      let ps : ConstSlicerParams := { head := r.1.at n, tail := max (1 - r.2.at n) (1 - (r.2.at n - r.1.at n)), pitch := n, span := (r.2.at n - r.1.at n).toNat }
      refine ⟨some ps, fun fuel hfu => ?_, fun m h1 h2 h3 h4 hw => ⟨.width ps, ?_, ?_⟩⟩
      · simp only [Args.opt]
        rw [g1, g3 fuel hfu]
        rfl
      · unfold PipelineArgs.slicer
        rw [hw, h1, h2, h3, h4]
        rfl
      · exact ⟨mp, 2, by decide, g3 2 (by decide), g2⟩
  | slice rs =>
    rw [hj] at hs
    cases hs with
    | @slice t _ ht =>
      refine ⟨none, fun _ _ => rfl, fun m h1 h2 h3 h4 hw => ⟨.slice t, ?_, ?_⟩⟩
      · unfold PipelineArgs.slicer
        rw [hw, h1, h2, h3, h4]
        rfl
      · obtain ⟨ms, h1, h2, _⟩ := ranges_parse ht
        exact ⟨ms, h1, h2⟩
  | find p =>
    rw [hj] at hs
    cases hs with
    | @find t _ ht =>
      refine ⟨none, fun _ _ => rfl, fun m h1 h2 h3 h4 hw => ⟨.find t, ?_, ?_⟩⟩
      · unfold PipelineArgs.slicer
        rw [hw, h1, h2, h3, h4]
        rfl
      · obtain ⟨h1, h2, h3, h4⟩ := ht
        exact C21_array _ _ p h1 h2 h3 h4
  | walk es =>
    rw [hj] at hs
    cases hs with
    | @walk t _ ht =>
      refine ⟨none, fun _ _ => rfl, fun m h1 h2 h3 h4 hw => ⟨.walk t, ?_, ht, r1 t rfl⟩⟩
      unfold PipelineArgs.slicer
      rw [hw, h1, h2, h3, h4]
      rfl
  | guide recs =>
    rw [hj] at hs
    cases hs with
    | @guide t _ =>
      refine ⟨none, fun _ _ => rfl, fun m h1 h2 h3 h4 hw => ⟨.guide t, ?_, r2 recs t hj rfl⟩⟩
      unfold PipelineArgs.slicer
      rw [hw, h1, h2, h3, h4]
      rfl

theorem ranges_node {o : Option String} {rs : Option (List (RangeEnd × RangeEnd))} (h : OptText RangesText o rs) : RangesNode rs o := by
  cases h with
  | none => trivial
  | some h =>
    obtain ⟨ms, h1, h2, _⟩ := ranges_parse h
    exact ⟨ms, h1, h2⟩

theorem mappers_node {o : Option String} {rs : Option (List (RangeEnd × RangeEnd))} (h : OptText RangesText o rs) : MappersNode rs o := by
  cases h with
  | none => trivial
  | some h =>
    obtain ⟨ms, _, h2, _, h3⟩ := ranges_parse h
    exact ⟨ms, h3, h2⟩

/-- The formats of the inputs. -/
theorem inFormat_parse {o : Option String} {c : Coding} (h : InFormatText o c) : ∃ f, Args.opt InoutFormat.fromStr o = .ok f ∧
    ∀ cols, (f.getD (Host.defaultFormat "b" cols)).Reads c := by
  cases h with
  | none => exact ⟨none, rfl, fun cols => rfl⟩
  | b => exact ⟨some ⟨.none, .none, .binary, 16⟩, by decide, fun _ => rfl⟩
  | nnb => exact ⟨some ⟨.none, .none, .binary, 16⟩, by decide, fun _ => rfl⟩
  | x => exact ⟨some ⟨.hexadecimal, .hexadecimal, .hexadecimal, 16⟩, by decide, fun _ => ⟨rfl, rfl, rfl⟩⟩
  | xxx => exact ⟨some ⟨.hexadecimal, .hexadecimal, .hexadecimal, 16⟩, by decide, fun _ => ⟨rfl, rfl, rfl⟩⟩
  | d => exact ⟨some ⟨.decimal, .decimal, .hexadecimal, 16⟩, by decide, fun _ => ⟨rfl, rfl, rfl⟩⟩
  | ddx => exact ⟨some ⟨.decimal, .decimal, .hexadecimal, 16⟩, by decide, fun _ => ⟨rfl, rfl, rfl⟩⟩
  | nnx => exact ⟨some ⟨.none, .none, .hexadecimal, 16⟩, by decide, fun _ => ⟨rfl, rfl, rfl⟩⟩

/-- The formats of the output. -/
theorem outFormat_parse {i : Bool} {o : Option String} {c : Printing} (h : OutFormatText i o c) : ∃ f, Args.opt InoutFormat.fromStr o = .ok f ∧
    ∀ cols, ∃ k, (f.getD (Host.defaultFormat (if i then "b" else "xxx") cols)).formatting = .ok k ∧ c.Formats k ∧ k.minWidth ≤ max 16 cols := by
  cases h with
  | none => exact ⟨none, rfl, fun cols => ⟨⟨.hhh, cols⟩, rfl, rfl, Nat.le_max_right _ _⟩⟩
  | inplace => exact ⟨none, rfl, fun cols => ⟨⟨.binary, cols⟩, rfl, rfl, Nat.le_max_right _ _⟩⟩
  | b => exact ⟨some ⟨.none, .none, .binary, 16⟩, by decide, fun _ => ⟨⟨.binary, 16⟩, rfl, rfl, Nat.le_max_left _ _⟩⟩
  | nnb => exact ⟨some ⟨.none, .none, .binary, 16⟩, by decide, fun _ => ⟨⟨.binary, 16⟩, rfl, rfl, Nat.le_max_left _ _⟩⟩
  | x => exact ⟨some ⟨.hexadecimal, .hexadecimal, .hexadecimal, 16⟩, by decide, fun _ => ⟨⟨.hhh, 16⟩, rfl, rfl, Nat.le_max_left _ _⟩⟩
  | xxx => exact ⟨some ⟨.hexadecimal, .hexadecimal, .hexadecimal, 16⟩, by decide, fun _ => ⟨⟨.hhh, 16⟩, rfl, rfl, Nat.le_max_left _ _⟩⟩
  | d => exact ⟨some ⟨.decimal, .decimal, .hexadecimal, 16⟩, by decide, fun _ => ⟨⟨.ddh, 16⟩, rfl, rfl, Nat.le_max_left _ _⟩⟩
  | ddx => exact ⟨some ⟨.decimal, .decimal, .hexadecimal, 16⟩, by decide, fun _ => ⟨⟨.ddh, 16⟩, rfl, rfl, Nat.le_max_left _ _⟩⟩

theorem filler_parse {o : Option String} {b : Byte} (h : FillerText o b) : ∃ f, Args.opt Eval.parseUsize o = .ok f ∧ (∀ x, f = some x → x < 256) ∧ UInt8.ofNat (f.getD 0) = b := by
  cases h with
  | none => exact ⟨none, rfl, by simp, rfl⟩
  | @some t n h hn =>
    refine ⟨some n, ?_, by simpa using hn, rfl⟩
    simp only [Args.opt]
    rw [(numeral_parse h).1]
    rfl

theorem merge_parse {o : Option String} {n : Option Nat} (h : OptText Numeral o n) : Args.opt Eval.parseUsize o = .ok n := by
  cases h with
  | none => rfl
  | some h =>
    simp only [Args.opt]
    rw [(numeral_parse h).1]
    rfl

theorem joint_parse {i : Bool} {c z : Option String} {j : Joint} (h : JointText i c z j) : ∃ c' z', Args.opt Eval.parseUsize c = .ok c' ∧ Args.opt Eval.parseUsize z = .ok z' ∧
    (∀ m : PipelineArgs InoutFormat, m.inplace = i → m.cat = c' → m.zip = z' → m.input = .ok (j.word, j.node)) ∧
    (c' ≠ some 0 ∧ z' ≠ some 0 ∧ given [i, c'.isSome, z'.isSome] ≤ 1) ∧ 0 < j.word := by
  cases h with
  | none => exact ⟨none, none, rfl, rfl, fun m h1 h2 h3 => by unfold PipelineArgs.input; rw [h1, h2, h3]; rfl, by simp [given], by simp [Joint.word]⟩
  | @cat t n h hn =>
    refine ⟨some n, none, ?_, rfl, fun m h1 h2 h3 => by unfold PipelineArgs.input; rw [h1, h2, h3]; rfl, ⟨by simp; omega, by simp, by simp [given]⟩, hn⟩
    simp only [Args.opt]
    rw [(numeral_parse h).1]
    rfl
  | @zip t n h hn =>
    refine ⟨none, some n, rfl, ?_, fun m h1 h2 h3 => by unfold PipelineArgs.input; rw [h1, h2, h3]; rfl, ⟨by simp, by simp; omega, by simp [given]⟩, hn⟩
    simp only [Args.opt]
    rw [(numeral_parse h).1]
    rfl
  | alone => exact ⟨none, none, rfl, rfl, fun m h1 h2 h3 => by unfold PipelineArgs.input; rw [h1, h2, h3]; rfl, by simp [given], by simp [Joint.word]⟩

theorem pad_parse {o : Option String} {p : Nat × Nat} (h : PadText o p) (hp : p.1 ≤ usizeMax) : ∃ o', Args.opt Args.parseUsizePair o = .ok o' ∧ (∀ a b, o' = some (a, b) → a ≤ usizeMax) ∧
    ∀ m : PipelineArgs InoutFormat, m.pad = o' → m.byteFilters = .ok (optNode .cut m.cut ++
      (if p = (0, 0) then [] else [.clipper { pad := p, clip := (0, 0), len := usizeMax }]) ++ optNode .patch m.patch ++ optNode (fun _ => .tee) m.patchBack) := by
  cases h with
  | none =>
    refine ⟨none, rfl, by simp, fun m h1 => ?_⟩
    unfold PipelineArgs.byteFilters
    rw [h1]
    simp
  | @some t p h =>
    refine ⟨some p, ?_, ?_, fun m h1 => ?_⟩
    · simp only [Args.opt]
      rw [pair_parse h]
      rfl
    · intro a b hab
      cases hab
      exact hp
    · unfold PipelineArgs.byteFilters
      rw [h1]
      simp only
      by_cases h0 : p = (0, 0)
      · rw [if_neg (by simpa using h0), if_pos h0]
        simp
      · rw [if_pos h0, if_neg h0, pad_params hp]

/-- What an accepted option set is turned into. -/
theorem fromArgs_fields {fmt : String → Nat → φ} {m : PipelineArgs φ} {p : Pipeline φ} (h : Pipeline.fromArgs fmt m = .ok p) {ws cols : Nat} {input slicer drain : Node} {bytes : List Node} {wb : Bool}
    (h1 : m.input = .ok (ws, input)) (h2 : m.byteFilters = .ok bytes) (h3 : m.slicer = .ok (cols, slicer)) (h4 : m.drain = .ok (wb, drain)) :
    p = { wordSize := ws, filler := m.filler.getD 0, inFormat := m.inFormat.getD (fmt "b" cols),
          outFormat := m.outFormat.getD (fmt (if m.inplace && wb then "b" else "xxx") cols), patchFormat := fmt "xxx" cols,
          nodes := input :: bytes ++ slicer :: m.segmentFilters ++ [drain] } := by
  have fin : ∀ f, Pipeline.fromArgs.finish fmt m ws f cols wb (input :: bytes ++ slicer :: m.segmentFilters ++ [drain]) = .ok p → m.filler.getD 0 = f →
      p = { wordSize := ws, filler := m.filler.getD 0, inFormat := m.inFormat.getD (fmt "b" cols),
            outFormat := m.outFormat.getD (fmt (if m.inplace && wb then "b" else "xxx") cols), patchFormat := fmt "xxx" cols,
            nodes := input :: bytes ++ slicer :: m.segmentFilters ++ [drain] } := by
    intro f h hf
    unfold Pipeline.fromArgs.finish at h
    simp only at h
    split at h
    · cases h
    · cases h
      rw [hf]
  unfold Pipeline.fromArgs at h
  rw [h1, h2, h3, h4] at h
  simp only at h
  split at h
  · rename_i f hf
    split at h
    · exact fin f h (by rw [hf]; rfl)
    · cases h
  · rename_i hf
    exact fin 0 h (by rw [hf]; rfl)

/-- The format of the output that the options name, with `cols` columns if they do not name one. -/
def OutputFormat (a : Args) (cols : Nat) (f : Formatting) : Prop :=
  ∃ fo, Args.opt InoutFormat.fromStr a.outFormat = .ok fo ∧ (fo.getD (Host.defaultFormat (if a.inplace then "b" else "xxx") cols)).formatting = .ok f

theorem OutputFormat.unique {a a' : Args} {cols : Nat} {f f' : Formatting} (h : OutputFormat a cols f) (h' : OutputFormat a' cols f') (ho : a.outFormat = a'.outFormat) (hi : a.inplace = a'.inplace) : f = f' := by
  obtain ⟨fo, h1, h2⟩ := h
  obtain ⟨fo', h1', h2'⟩ := h'
  rw [ho] at h1
  rw [hi] at h2
  have hm := h1.symm.trans h1'
  cases hm
  have hf := h2.symm.trans h2'
  cases hf
  rfl

/-- The options of a job are accepted, and give the pipeline of the job. -/
theorem asks_pipeline_as {h : Host} {scheds : List (Nat → Option Nat)} {a : Args} {j : Job} (ha : AsksBody a j) {drain : Node} {wb : Bool}
    (hd : ∀ m : PipelineArgs InoutFormat, m.output = a.output → m.patchBack = a.patchBack → m.drain = .ok (wb, drain)) (hi : a.patchBack = none → (a.inplace && wb) = a.inplace)
    (hp : PatchFile h scheds j.patch a.patch) (hpad : j.pad.1 ≤ usizeMax)
    (hr : SlicerReady h scheds a j.slicer) (hx : RegexNode h j.regex a.regex) (hw : ∀ n r, j.slicer = .width n r → r.1.at n < r.2.at n ∧ 1 ≤ r.2.at n) :
    0 < j.joint.word ∧ ∃ m p f, (∀ fuel, 0 < fuel → a.parse fuel = .ok m) ∧ Pipeline.fromArgs Host.defaultFormat m = .ok p ∧ PipelineOf h scheds a.patchBack drain j p f ∧ OutputFormat a j.slicer.columns f ∧ j.printing.Formats f ∧
      f.minWidth ≤ max 16 j.slicer.columns := by
  obtain ⟨fi, i1, i2⟩ := inFormat_parse ha.inFormat
  obtain ⟨fo, o1, o2⟩ := outFormat_parse ha.outFormat
  obtain ⟨fl, f1, f2, f3⟩ := filler_parse ha.filler
  obtain ⟨c, z, c1, z1, cz2, ⟨cz3, cz4, cz5⟩, cz6⟩ := joint_parse ha.joint
  obtain ⟨pd, p1, p2, p3⟩ := pad_parse ha.pad hpad
  obtain ⟨width, w1, w2⟩ := slicer_parse ha hr hw
  let m : PipelineArgs InoutFormat :=
      { inFormat := fi, outFormat := fo, filler := fl, cat := c, zip := z, inplace := a.inplace, cut := a.cut, pad := pd, patch := a.patch,
        width := width, find := a.find, walk := a.walk, slice := a.slice, guide := a.guide, regex := a.regex, extend := a.extend, invert := a.invert,
        merge := j.merge, lines := a.lines, output := a.output, patchBack := a.patchBack }
  have hm : ∀ fuel, 0 < fuel → a.parse fuel = .ok m := by
    intro fuel hfu
    unfold Args.parse
    rw [i1, o1, f1, c1, z1, p1, w1 fuel hfu, merge_parse ha.merge]
    rfl
  have min := cz2 m rfl rfl rfl
  have mby := p3 m rfl
  obtain ⟨node, msl, hnode⟩ := w2 m rfl rfl rfl rfl rfl
  have mdr : m.drain = .ok (wb, drain) := hd m rfl rfl
  have valid : Valid m := by
    refine ⟨?_, (slicer_spec msl).2.1, (drain_spec mdr).2.1, ⟨cz3, cz4⟩, f2⟩
    exact cz5
  obtain ⟨p, hfa⟩ := (C32_accepts Host.defaultFormat m p2).2 valid
  have hfields := fromArgs_fields hfa min mby msl mdr
  obtain ⟨k, k1, k2⟩ := o2 j.slicer.columns
  refine ⟨cz6, m, p, k, hm, hfa, ?_, ⟨fo, o1, k1⟩, k2⟩
  subst hfields
  refine ⟨i2 _, rfl, f3, rfl, fun hb => by rw [← k1]; show (fo.getD _).formatting = _; rw [show (m.inplace && wb) = a.inplace from hi hb], rfl, a.cut, a.patch, node, a.regex, a.invert, a.extend, a.lines, ranges_node ha.cut, hp, hnode, hx, mappers_node ha.invert, mappers_node ha.extend,
    ranges_node ha.lines, ?_⟩
  show j.joint.node :: (optNode .cut a.cut ++ _ ++ optNode .patch a.patch ++ optNode (fun _ => .tee) a.patchBack) ++ node :: (optNode .regex a.regex ++ optNode .bridge a.invert ++ optNode .extend a.extend ++
    optNode .merge j.merge ++ optNode .lines a.lines) ++ [drain] = _
  simp

/-- The options of a job are accepted, and give the pipeline of the job. -/
theorem asks_pipeline {h : Host} {scheds : List (Nat → Option Nat)} {a : Args} {j : Job} (ha : AsksBody a j) {drain : Node} {wb : Bool}
    (hd : ∀ m : PipelineArgs InoutFormat, m.output = a.output → m.patchBack = a.patchBack → m.drain = .ok (wb, drain)) (hi : a.patchBack = none → (a.inplace && wb) = a.inplace)
    (hp : PatchFile h scheds j.patch a.patch) (hpad : j.pad.1 ≤ usizeMax)
    (hr : SlicerReady h scheds a j.slicer) (hx : RegexNode h j.regex a.regex) (hw : ∀ n r, j.slicer = .width n r → r.1.at n < r.2.at n ∧ 1 ≤ r.2.at n) :
    0 < j.joint.word ∧ ∃ m p f, (∀ fuel, 0 < fuel → a.parse fuel = .ok m) ∧ Pipeline.fromArgs Host.defaultFormat m = .ok p ∧ PipelineOf h scheds a.patchBack drain j p f ∧ j.printing.Formats f ∧
      f.minWidth ≤ max 16 j.slicer.columns := by
  obtain ⟨h1, m, p, f, h2, h3, h4, _, h5⟩ := asks_pipeline_as ha hd hi hp hpad hr hx hw
  exact ⟨h1, m, p, f, h2, h3, h4, h5⟩

theorem printed_drain {a : Args} {j : Job} (ha : Asks a j) (m : PipelineArgs InoutFormat) (ho : m.output = a.output) (hpb : m.patchBack = a.patchBack) :
    m.drain = .ok (true, .scatter "-") := by
  unfold PipelineArgs.drain
  rw [hpb, ho, ha.patchBack]
  rcases ha.output with h | h
  · rw [h]
  · rw [h]
    rfl

/-- The files that the call reads: the standard input by default. -/
def inputsOf (a : Args) : List String := if a.inputs = [] then ["-"] else a.inputs

/-- The surroundings of a run of the pipeline: everything is small enough.
`files` are the inputs with the sizes of their reads, `contents` what they contain, and `scheds` has the sizes of the reads of all files. -/
structure Room (h : Host) (a : Args) (j : Job) (files : List InFile) (contents : List Bytes) (scheds : List (Nat → Option Nat)) : Prop where
  release : h.checks = false
  block : 0 < h.block
  listed : ∀ f ∈ files, f.2 ∈ scheds
  patch : PatchFile h scheds j.patch a.patch
  decodes : List.Forall₂ (fun f c => j.coding.Decodes j.filler f.1 c) files contents
  text : j.coding ≠ .binary → ∀ f ∈ files, f.1.length % j.joint.word = 0 ∧ ShortLines h.block f.1
  pad : j.pad.1 ≤ h.block ∧ j.pad.2 ≤ h.block
  aligned : ∀ c ∈ contents, (alignTo j.joint.word j.filler c).length < 2 ^ 48
  joined : j.pad.1 + (j.joint.join j.filler contents).length + j.pad.2 < 2 ^ 48
  stream : (j.stream contents).length < 2 ^ 48
  slicer : SlicerReady h scheds a j.slicer
  regex : RegexNode h j.regex a.regex
  fits : j.Suits h.block (files.map Prod.snd) (j.stream contents) ∨ ((j.stream contents).length < h.block ∧ j.Orderly (j.stream contents))

/-- The surroundings of a call without `--inplace`: besides, the files exist, and the standard input is read once. -/
structure Surroundings (h : Host) (a : Args) (j : Job) (files : List InFile) (contents : List Bytes) (scheds : List (Nat → Option Nat)) : Prop
    extends Room h a j files contents scheds where
  inplace : a.inplace = false
  opened : List.Forall₂ (fun name f => h.files name = some f) (inputsOf a) files
  stdin : ((inputsOf a ++ a.patch.toList ++ a.guide.toList).filter fun x => x = "-" ∨ x = "/dev/stdin").length ≤ 1

theorem Room.proper {h : Host} {a : Args} {j : Job} {files : List InFile} {contents : List Bytes} {scheds : List (Nat → Option Nat)}
    (hs : Room h a j files contents scheds) (n : Nat) (r : RangeEnd × RangeEnd) (hj : j.slicer = .width n r) : r.1.at n < r.2.at n ∧ 1 ≤ r.2.at n := by
  rcases hs.fits with (h | ⟨_, _, h, _⟩ | ⟨_, _, _, h, _⟩ | ⟨_, _, h, _, h'⟩) | ⟨_, h⟩
  · have h := h.2
    rw [hj] at h
    simp only at h
    omega
  · rw [hj] at h
    cases h
  · rw [hj] at h
    cases h
  · rw [hj] at h
    cases h
    omega
  · have h := h.slicer
    rw [hj] at h
    exact ⟨h.2.1, h.2.2.1⟩

theorem mapM_open {h : Host} {names : List String} {files : List InFile} (hf : List.Forall₂ (fun name f => h.files name = some f) names files) :
    names.mapM h.openReader = .ok (files.map fun f => Reader.open f.1 f.2) := by
  refine mapM_ok ?_
  induction hf with
  | nil => exact .nil
  | cons h1 _ ih => exact .cons (by unfold Host.openReader; rw [h1]) ih

theorem countP_stdin (l : List String) : l.countP Args.isStdin = (l.filter fun x => x = "-" ∨ x = "/dev/stdin").length := by
  rw [List.countP_eq_length_filter]
  congr 1
  refine List.filter_congr fun x _ => ?_
  rw [Bool.eq_iff_iff]
  simp [Args.isStdin]

theorem Surroundings.some_input {h : Host} {a : Args} {j : Job} {files : List InFile} {contents : List Bytes} {scheds : List (Nat → Option Nat)}
    (hs : Surroundings h a j files contents scheds) : files ≠ [] := by
  rintro rfl
  have := hs.opened
  generalize hi : inputsOf a = l at this
  cases this
  unfold inputsOf at hi
  split at hi
  · cases hi
  · contradiction

theorem Surroundings.one_stdin {h : Host} {a : Args} {j : Job} {files : List InFile} {contents : List Bytes} {scheds : List (Nat → Option Nat)}
    (hs : Surroundings h a j files contents scheds) : ¬ a.countStdin + a.countStdinOfOptions > 1 := by
  have h1 := hs.stdin
  unfold Args.countStdin Args.countStdinOfOptions
  rw [← List.countP_append, countP_stdin]
  rw [List.append_assoc] at h1
  rw [List.filter_append, List.length_append] at h1 ⊢
  unfold inputsOf at h1
  split at h1
  · rename_i h0
    rw [h0]
    simp only [List.filter_nil, List.length_nil]
    omega
  · omega

theorem Surroundings.stream_eq {h : Host} {a : Args} {j : Job} {files : List InFile} {contents : List Bytes} {scheds : List (Nat → Option Nat)}
    (hs : Surroundings h a j files contents scheds) {fuel : Nat} {p : Pipeline InoutFormat} (hprep : (h.withFuel fuel).prepare a = .ok p) :
    (h.withFuel fuel).stream a = p.spawnStream ((h.withFuel fuel).stages p (files.map fun f => Reader.open f.1 f.2)) := by
  unfold Host.stream
  rw [hprep]
  simp only [attempt, Host.spawn]
  rw [show (if a.inputs = [] then ["-"] else a.inputs).mapM (h.withFuel fuel).openReader = .ok (files.map fun f => Reader.open f.1 f.2) from mapM_open (h := h.withFuel fuel) hs.opened]

/-- What the pipeline of a call prints for the inputs `files`, line by line. -/
theorem job_runs_as (h : Host) (a : Args) (j : Job) (files : List InFile) (contents : List Bytes) (scheds : List (Nat → Option Nat))
    (ha : Asks a j) (hs : Room h a j files contents scheds) (hne : files ≠ []) (hcount : ¬ a.countStdin + a.countStdinOfOptions > 1)
    (segs : List Seg) (hsegs : j.Slices (j.stream contents) segs) :
    ∃ f N p, OutputFormat a j.slicer.columns f ∧ j.printing.Formats f ∧ f.minWidth ≤ max 16 j.slicer.columns ∧ ∀ fuel, N < fuel →
      (h.withFuel fuel).prepare a = .ok p ∧ Results (Failing scheds) (p.spawnStream ((h.withFuel fuel).stages p (files.map fun f => Reader.open f.1 f.2))) fun d =>
        consumeStream d.src h.block fuel d.st = ((slicesOf (j.stream contents) segs).flatMap f.line, none) ∨
        ∃ e out, Failing scheds e ∧ consumeStream d.src h.block fuel d.st = (out, some e) ∧ out <+: (slicesOf (j.stream contents) segs).flatMap f.line := by
  have hblock : j.pad.1 ≤ usizeMax := by
    have := hs.joined
    unfold usizeMax
    omega
  obtain ⟨hw0, m, p, f, hm, hfa, hp, hof, hf, hmw⟩ := asks_pipeline_as ha.toAsksBody (printed_drain ha) (fun _ => Bool.and_true _) hs.patch hblock hs.slicer hs.regex hs.proper
  rw [ha.patchBack] at hp
  have hmax : (2 : Nat) ^ 48 < usizeMax := by decide
  obtain ⟨N, hN⟩ := pipeline_delivers h scheds j p f hp files contents hs.block hs.release hne hs.listed hw0 hs.decodes (fun c hc => by
    have := hs.aligned c hc
    omega) hs.text hs.pad (by have := hs.joined; omega) hs.stream hs.fits hsegs
  refine ⟨f, N + 1, p, hof, hf, hmw, fun fuel hfu => ⟨?_, ?_⟩⟩
  · unfold Host.prepare
    rw [show a.parse (h.withFuel fuel).fuel = .ok m from hm fuel (by omega)]
    simp only
    rw [if_neg hcount, hfa]
  · refine (hN fuel (by omega)).mono fun d ⟨w, hw, hd⟩ => ?_
    exact C08_copy_exact h.block fuel d.st w _ hd (by omega)

/-- What the pipeline of a call prints for the inputs `files`. -/
theorem job_runs (h : Host) (a : Args) (j : Job) (files : List InFile) (contents : List Bytes) (scheds : List (Nat → Option Nat))
    (ha : Asks a j) (hs : Room h a j files contents scheds) (hne : files ≠ []) (hcount : ¬ a.countStdin + a.countStdinOfOptions > 1)
    (segs : List Seg) (hsegs : j.Slices (j.stream contents) segs) :
    ∃ text N p, j.printing.Prints (j.stream contents) segs text ∧
      (j.printing ≠ .binary → ∀ l ∈ lines text, ∃ x ∈ segs, l.length ≤ 47 + 4 * max x.len (max 16 j.slicer.columns)) ∧ ∀ fuel, N < fuel →
      (h.withFuel fuel).prepare a = .ok p ∧ Results (Failing scheds) (p.spawnStream ((h.withFuel fuel).stages p (files.map fun f => Reader.open f.1 f.2))) fun d =>
        consumeStream d.src h.block fuel d.st = (text, none) ∨ ∃ e out, Failing scheds e ∧ consumeStream d.src h.block fuel d.st = (out, some e) ∧ out <+: text := by
  obtain ⟨f, N, p, _, hf, hmw, hrun⟩ := job_runs_as h a j files contents scheds ha hs hne hcount segs hsegs
  obtain ⟨hpr, hll⟩ := prints hf (slices_inside hsegs (hs.fits.imp id And.right)) hs.stream
  refine ⟨(slicesOf (j.stream contents) segs).flatMap f.line, N, p, hpr, fun hb l hl => ?_, hrun⟩
  obtain ⟨x, hx, hle⟩ := hll hb l hl
  exact ⟨x, hx, by omega⟩

/-- **C37**: what a call prints. -/
theorem C37_run_partial (h : Host) (a : Args) (j : Job) (files : List InFile) (contents : List Bytes) (scheds : List (Nat → Option Nat))
    (ha : Asks a j) (hs : Surroundings h a j files contents scheds) (segs : List Seg) (hsegs : j.Slices (j.stream contents) segs) :
    ∃ text N, j.printing.Prints (j.stream contents) segs text ∧
      (j.printing ≠ .binary → ∀ l ∈ lines text, ∃ x ∈ segs, l.length ≤ 47 + 4 * max x.len (max 16 j.slicer.columns)) ∧ ∀ fuel, N < fuel →
      (h.withFuel fuel).run a = (text, none) ∨ ∃ e out, Failing scheds e ∧ (h.withFuel fuel).run a = (out, some e) ∧ out <+: text := by
  obtain ⟨text, N, p, h1, h2, h3⟩ := job_runs h a j files contents scheds ha hs.toRoom hs.some_input hs.one_stdin segs hsegs
  refine ⟨text, N, h1, h2, fun fuel hfu => ?_⟩
  obtain ⟨hprep, hres⟩ := h3 fuel hfu
  unfold Host.run
  rw [hs.stream_eq hprep]
  rcases hres with ⟨e, he, heq⟩ | ⟨d, heq, hd⟩
  · rw [heq]
    exact Or.inr ⟨e, [], he, rfl, List.nil_prefix⟩
  · rw [heq]
    exact hd

theorem lengths_unique {es : List Expr} {stream : Bytes} {ls ls' : List Nat} (h : Lengths es stream ls) (h' : Lengths es stream ls') : ls = ls' := by
  unfold Lengths at h h'
  induction h generalizing ls' with
  | nil => cases h'; rfl
  | cons h _ ih =>
    cases h' with
    | cons h' hs' =>
      have := h.1.symm.trans h'.1
      simp only [Option.some.injEq, Int.natCast_inj] at this
      rw [this, ih hs']

theorem walks_unique {es : List Expr} {p : Nat} {stream : Bytes} {segs segs' : List Seg} (h : Walks (Lengths es) p stream segs) (h' : Walks (Lengths es) p stream segs') : segs = segs' := by
  induction h generalizing segs' with
  | nil =>
    cases h' with
    | nil => rfl
    | cut _ _ _ _ h => exact absurd rfl h
  | cut p stream ls segs h1 h2 _ _ ih =>
    cases h' with
    | nil => exact absurd rfl h1
    | cut _ _ ls' segs' _ h2' _ hw =>
      have : ls = ls' := lengths_unique h2 h2'
      subst this
      rw [ih hw]

/-- The slices that are asked for are unique. -/
theorem C37_slices_unique {j : Job} {content : Bytes} {segs segs' : List Seg} (h : j.Slices content segs) (h' : j.Slices content segs') : segs = segs' := by
  obtain ⟨raw, ext, h1, h3, h2⟩ := h
  obtain ⟨raw', ext', h1', h3', h2'⟩ := h'
  have : raw = raw' := by
    cases hj : j.slicer with
    | width => rw [hj] at h1 h1'; rw [show raw = _ from h1, show raw' = _ from h1']
    | find => rw [hj] at h1 h1'; rw [show raw = _ from h1, show raw' = _ from h1']
    | guide => rw [hj] at h1 h1'; rw [show raw = _ from h1, show raw' = _ from h1']
    | walk => rw [hj] at h1 h1'; exact walks_unique h1 h1'
    | slice rs =>
      rw [hj] at h1 h1'
      obtain ⟨_, _, hu⟩ := C20_slices_unique rs content.length
      rw [hu raw h1, hu raw' h1']
  subst this
  have : ext = ext' := by
    unfold Job.Extended at h3 h3'
    cases hx : j.extend with
    | none =>
      rw [hx] at h3 h3'
      rw [show ext = _ from h3, show ext' = _ from h3']
    | some rs =>
      rw [hx] at h3 h3'
      refine List.Perm.eq_of_pairwise (le := Seg.Le) ?_ h3.2 h3'.2 (h3.1.trans h3'.1.symm)
      intro x y _ _ hxy hyx
      obtain ⟨p, l⟩ := x
      obtain ⟨p', l'⟩ := y
      simp only [Seg.Le, Seg.tail] at hxy hyx
      congr <;> omega
  subst this
  rw [h2, h2']

/-- The slices that are asked for exist, except that the expressions of `--walk` may not fit the stream. -/
theorem C37_slices_exist (j : Job) (content : Bytes) (hw : ∀ es, j.slicer = .walk es → ∃ raw, Walks (Lengths es) 0 content raw) : ∃ segs, j.Slices content segs := by
  have hraw : ∃ raw, j.slicer.Cuts content raw := by
    cases hj : j.slicer with
    | width => exact ⟨_, rfl⟩
    | slice rs => exact RangeSlicer.isSlices_exists rs _
    | find => exact ⟨_, rfl⟩
    | guide => exact ⟨_, rfl⟩
    | walk es => exact hw es hj
  obtain ⟨raw, hraw⟩ := hraw
  have hext : ∃ ext, j.Extended content.length (j.inverted content.length (j.searched content raw)) ext := by
    unfold Job.Extended
    split
    · exact ⟨_, rfl⟩
    · exact ⟨stableSort Extend.le _, stableSort_perm _ _, (stableSort_pairwise (fun a b c => by simp only [Extend.le_iff, Seg.Le]; omega)
        (fun a b => by simp only [Bool.or_eq_true, Extend.le_iff, Seg.Le]; omega) _).imp fun h => (Extend.le_iff _ _).1 h⟩
  obtain ⟨ext, hext⟩ := hext
  exact ⟨_, raw, ext, hraw, hext, rfl⟩

/-- **C37**: a call whose files can be read prints the slices that it asks for, and succeeds. -/
theorem C37_success_partial (h : Host) (a : Args) (j : Job) (files : List InFile) (contents : List Bytes) (scheds : List (Nat → Option Nat))
    (ha : Asks a j) (hs : Surroundings h a j files contents scheds) (hok : ∀ s ∈ scheds, ∀ i, s i ≠ none) (segs : List Seg) (hsegs : j.Slices (j.stream contents) segs) :
    ∃ text N, j.printing.Prints (j.stream contents) segs text ∧
      (j.printing ≠ .binary → ∀ l ∈ lines text, ∃ x ∈ segs, l.length ≤ 47 + 4 * max x.len (max 16 j.slicer.columns)) ∧ ∀ fuel, N < fuel → (h.withFuel fuel).run a = (text, none) := by
  obtain ⟨text, N, h2, hl, h3⟩ := C37_run_partial h a j files contents scheds ha hs segs hsegs
  refine ⟨text, N, h2, hl, fun fuel hf => ?_⟩
  rcases h3 fuel hf with h | ⟨e, out, ⟨_, s, hsm, i, hi⟩, _⟩
  · exact h
  · exact absurd hi (hok s hsm i)

theorem tiles_strides (len n : Nat) (hn : 0 < n) : Format.Tiles len 0 (strides len n 0 n) := by
  obtain ⟨h1, h2⟩ := C19_tiling len n hn
  refine tiles_rows len n _ 0 _ rfl (by omega) ?_ fun i h => ?_
  · rw [h2]
    have := Nat.div_add_mod (len + n - 1) n
    have := Nat.mod_lt (len + n - 1) hn
    rw [Nat.mul_comm]
    omega
  · obtain ⟨h3, h4⟩ := h1 i h
    rw [Nat.zero_add]
    refine ⟨h3, h4, ?_⟩
    have h5 : (i + 1) * n ≤ len + n - 1 := by
      rw [h2] at h
      exact (Nat.le_div_iff_mul_le hn).1 h
    rw [Nat.add_mul] at h5
    omega

theorem tiles_flatten (content : Bytes) : ∀ (segs : List Seg) (p : Nat), Format.Tiles content.length p segs → (segs.map fun x => x.bytes content).flatten = content.drop p
  | [], p, h => by
    rw [show p = content.length from h]
    simp
  | s :: rest, p, ⟨h1, h2⟩ => by
    rw [List.map_cons, List.flatten_cons, tiles_flatten content rest _ h2, Seg.bytes, h1, ← List.drop_drop, List.take_append_drop]

/-- A dump of side-by-side slices of a stream contains the stream. -/
theorem dump_decodes {f : Field} {content text : Bytes} {segs : List Seg} (h : (Printing.text f).Prints content segs text) (ht : Format.Tiles content.length 0 segs)
    (hlen : content.length < 2 ^ 48) (filler : Byte) : (Coding.located f).Decodes filler text content := by
  have hm : segs.map (Format.recOf .hhh 0 content) = segs.map fun x => { offset := x.pos, span := x.len, data := x.bytes content } := by
    refine List.map_congr_left fun s hs => ?_
    have := ht.le.2 s hs
    have := Format.recOf_offset .hhh content s (by omega)
    simp only [Format.recOf] at this ⊢
    rw [this]
  refine ⟨_, h, ?_, ?_⟩
  · rw [← hm]
    exact Format.Tiles.ordered .hhh content _ hlen segs 0 ht
  · rw [← hm, Format.Tiles.place .hhh filler content hlen segs 0 ht, List.drop_zero]

theorem width_text {w f s l g : Option String} {n : Nat} {r : RangeEnd × RangeEnd} (h : SlicerText w f s l g (.width n r)) : l = none ∧ g = none := by
  cases h <;> exact ⟨rfl, rfl⟩

/-- **C37**: what a call prints with `--width N`, given to `nd -F x -f b` (or `d`), is the stream again. -/
theorem C37_roundtrip_partial (h : Host) (a : Args) (j : Job) (files : List InFile) (contents : List Bytes) (scheds : List (Nat → Option Nat))
    (ha : Asks a j) (hs : Surroundings h a j files contents scheds) (hok : ∀ s ∈ scheds, ∀ i, s i ≠ none)
    (f : Field) (n : Nat) (hj : j.printing = .text f ∧ j.slicer = .width n (⟨false, 0⟩, ⟨true, 0⟩) ∧ j.regex = none ∧ j.invert = none ∧
      j.extend = none ∧ j.merge = none ∧ j.lines = none) :
    ∃ text N, (∀ fuel, N < fuel → (h.withFuel fuel).run a = (text, none)) ∧
      ∀ (h' : Host) (a' : Args) (name : String) (sched : Nat → Option Nat), Asks a' { coding := .located f, printing := .binary } → a'.inputs = [name] → a'.inplace = false → a'.patch = none → a'.regex = none →
        h'.files name = some (text, sched) → (∀ i, sched i ≠ none) → h'.checks = false → 2704 + 32 * n ≤ h'.block →
        ∃ N', ∀ fuel, N' < fuel → (h'.withFuel fuel).run a' = (j.stream contents, none) := by
  obtain ⟨j1, j2, j5, j6, j7, j3, j4⟩ := hj
  have hn : 0 < n := by
    rcases hs.fits with (h | ⟨_, _, h, _⟩ | ⟨_, _, _, h, _⟩ | ⟨_, _, h, _, h'⟩) | ⟨_, h⟩
    · have h := h.2
      rw [j2] at h
      exact h.1
    · rw [j2] at h
      cases h
    · rw [j2] at h
      cases h
    · rw [j2] at h
      cases h
      omega
    · have h := h.slicer
      rw [j2] at h
      exact h.1
  obtain ⟨text, N, h1, hll, h2⟩ := C37_success_partial h a j files contents scheds ha hs hok (strides (j.stream contents).length n 0 n) (by
    refine ⟨strides (j.stream contents).length n 0 n, _, by rw [j2]; simp [Slicer.Cuts, RangeEnd.at], by unfold Job.Extended; rw [j7], ?_⟩
    unfold Job.picked Job.merged Job.inverted Job.searched
    rw [j3, j4, j5, j6])
  rw [j1] at h1
  have ht := tiles_strides (j.stream contents).length n hn
  refine ⟨text, N, h2, fun h' a' name sched ha' hin hip hpa hre hfile hsched hch hbl => ?_⟩
  have hsl : ShortLines h'.block text := by
    intro l hl
    obtain ⟨x, hx, hle⟩ := hll (by rw [j1]; simp) l hl
    have hxl : x.len ≤ n := by
      obtain ⟨i, hi, rfl⟩ := List.getElem_of_mem hx
      rw [((C19_tiling (j.stream contents).length n hn).1 i hi).2]
      omega
    rw [j2] at hle
    simp only [Slicer.columns, RangeEnd.at, if_true, Bool.false_eq_true, if_false] at hle
    omega
  have hst : ({ coding := .located f, printing := .binary } : Job).stream [j.stream contents] = j.stream contents := by
    simp [Job.stream, Job.filtered, Joint.join, Spec.cat, Spec.pad, alignTo_one]
  have hs' : Surroundings h' a' { coding := .located f, printing := .binary } [(text, sched)] [j.stream contents] [sched] := by
    refine { release := hch, inplace := hip, block := by omega, opened := ?_, stdin := ?_, listed := by simp, patch := by rw [hpa]; trivial,
             decodes := .cons (dump_decodes h1 ht hs.stream _) .nil, text := fun _ => by simpa [Joint.word, Nat.mod_one] using hsl, pad := by simp, aligned := ?_, joined := ?_, stream := ?_, slicer := ?_, regex := ?_, fits := Or.inl (Or.inl ?_) }
    · simpa [Joint.word, alignTo_one] using hs.stream
    · simpa [Joint.join, Spec.cat, alignTo_one] using hs.stream
    · rw [hst]
      exact hs.stream
    · refine ⟨fun t ht => ?_, fun recs file hj => by simp at hj⟩
      rw [(width_text ha'.slicer).1] at ht
      cases ht
    · rw [hre]
      trivial
    · simp [Job.Fits, Job.Near, RangeEnd.at]
      omega
    · unfold inputsOf
      rw [hin]
      exact .cons hfile .nil
    · unfold inputsOf
      rw [hin, hpa, (width_text ha'.slicer).2]
      simp only [List.cons_ne_nil, if_false, Option.toList_none, List.append_nil]
      exact Nat.le_trans (List.length_filter_le _ _) (by simp)
  obtain ⟨text', N', h3, _, h4⟩ := C37_success_partial h' a' _ _ _ _ ha' hs' (by simpa using hsched) (strides (j.stream contents).length 16 0 16) (by
    refine ⟨_, _, rfl, rfl, ?_⟩
    rw [hst]
    simp [Job.picked, Job.merged, Job.inverted, Job.searched, RangeEnd.at])
  refine ⟨N', fun fuel hf => ?_⟩
  rw [h4 fuel hf]
  rw [hst] at h3
  simp only [Printing.Prints] at h3
  have h5 : Format.Tiles (j.stream contents).length 0 (strides (j.stream contents).length 16 0 16) := tiles_strides _ 16 (by decide)
  rw [h3, tiles_flatten _ _ 0 h5, List.drop_zero]

/-! ## Examples -/

theorem digit_numeral (c : Char) (h : c ∈ "123456789".toList) : Numeral [c] (((digitVal c).getD 0 : Nat)) := by
  refine ⟨digit c, digit_ok c h, by simp [digit, Expr.Plain], by simp [digit, Expr.Calm], by simp [digit, Expr.Narrow], ?_, ?_⟩
  · revert c
    decide
  · exact ⟨[], [], by simp, by simp [Literal.text, Literal.body, List.intercalate, Radix.text, Scale.text], by simp [Spaced]⟩

theorem digit_side (d : End) (c : Char) (h : c ∈ "123456789".toList) : Side d [c] .first ((digitVal c).getD 0 : Nat) := by
  refine .const (digit c) _ _ (by simp [digit, Expr.Closed]) (digit_ok c h) (by simp [digit, Expr.Plain]) (by simp [digit, Expr.Calm]) (by simp [digit, Expr.Narrow]) ?_ ?_
  · exact ⟨[], [], by simp, by simp [Literal.text, Literal.body, List.intercalate, Radix.text, Scale.text], by simp [Spaced]⟩
  · revert c
    decide


/-- `nd -f b --filler 7 --cat 8 --cut 1.. --pad 1,2 --width 3 --lines 1..3 hello.txt world.txt` -/
def sampleArgs : Args :=
  { inputs := ["hello.txt", "world.txt"], outFormat := some "b", filler := some "7", cat := some "8", cut := some "1..", pad := some "1,2", width := some "3", lines := some "1..3" }

def sampleJob : Job :=
  { filler := 7, joint := .cat 8, cut := some [(⟨false, 1⟩, ⟨true, 0⟩)], pad := (1, 2), slicer := .width 3 (⟨false, 0⟩, ⟨true, 0⟩), lines := some [(⟨false, 1⟩, ⟨false, 3⟩)],
    printing := .binary }

theorem sample_asks : Asks sampleArgs sampleJob where
  inFormat := .none
  outFormat := .b
  filler := .some (digit_numeral '7' (by decide)) (by decide)
  joint := .cat (digit_numeral '8' (by decide)) (by decide)
  cut := .some ⟨["1..".toList], by simp, .cons (.mk (digit_side .first '1' (by decide)) .empty) .nil, Or.inl (by decide)⟩
  pad := .some (.two (digit_numeral '1' (by decide)) (digit_numeral '2' (by decide)))
  slicer := .width (.plain (digit_numeral '3' (by decide)))
  merge := .none
  lines := .some ⟨["1..3".toList], by simp, .cons (.mk (digit_side .first '1' (by decide)) (digit_side .last '3' (by decide))) .nil, Or.inl (by decide)⟩
  output := Or.inl rfl
  invert := .none
  extend := .none
  patchBack := rfl

open Conformance in
/-- The call prints `lo`, a line break, two fillers and `w`. -/
example : ∃ N, ∀ fuel, N < fuel → ((host none).withFuel fuel).run sampleArgs = ([108, 111, 10, 7, 7, 119], none) := by
  have hs : Surroundings (host none) sampleArgs sampleJob [(bytes! "Hello\n", fun _ => some (2 ^ 21)), (bytes! "world\n", fun _ => some (2 ^ 21))] [bytes! "Hello\n", bytes! "world\n"]
      [fun _ => some (2 ^ 21)] := by
    refine { release := rfl, inplace := rfl, block := by decide, opened := .cons rfl (.cons rfl .nil), stdin := by decide, listed := by simp, patch := trivial,
             decodes := .cons rfl (.cons rfl .nil), text := fun h => absurd rfl h, pad := by decide, aligned := by decide, joined := by decide, stream := by decide, slicer := ⟨by simp [sampleArgs], by simp [sampleJob]⟩, regex := trivial, fits := Or.inl (Or.inl ?_) }
    simp [Job.Fits, Job.Near, sampleJob, RangeEnd.at, host]
  obtain ⟨text, N, h1, _, h2⟩ := C37_success_partial _ _ _ _ _ _ sample_asks hs (by simp) [⟨3, 3⟩, ⟨6, 3⟩] ⟨_, _, rfl, rfl, by decide⟩
  refine ⟨N, fun fuel hf => ?_⟩
  rw [h2 fuel hf]
  simp only [sampleJob, Printing.Prints] at h1
  rw [h1]
  decide

open Conformance in
/-- `nd hello.txt world.txt`, read back by `nd -F x -f b dump.txt`. -/
example : ∃ text N, (∀ fuel, N < fuel → ((host none).withFuel fuel).run { inputs := ["hello.txt", "world.txt"] } = (text, none)) ∧
    ∃ N', ∀ fuel, N' < fuel → ({ host none with files := fun _ => some (text, fun _ => some 5), fuel := fuel } : Host).run
      { inputs := ["dump.txt"], inFormat := some "x", outFormat := some "b" } = (bytes! "Hello\nworld\n", none) := by
  have hs : Surroundings (host none) { inputs := ["hello.txt", "world.txt"] } {} [(bytes! "Hello\n", fun _ => some (2 ^ 21)), (bytes! "world\n", fun _ => some (2 ^ 21))]
      [bytes! "Hello\n", bytes! "world\n"] [fun _ => some (2 ^ 21)] := by
    refine { release := rfl, inplace := rfl, block := by decide, opened := .cons rfl (.cons rfl .nil), stdin := by decide, listed := by simp, patch := trivial,
             decodes := .cons rfl (.cons rfl .nil), text := fun h => absurd rfl h, pad := by decide, aligned := by decide, joined := by decide, stream := by decide, slicer := ⟨by simp, by simp⟩, regex := trivial, fits := Or.inl (Or.inl ?_) }
    simp [Job.Fits, Job.Near, RangeEnd.at, host]
  have ha : Asks { inputs := ["hello.txt", "world.txt"] } {} := ⟨⟨.none, .none, .none, .none, .none, .none, .none, .none, .none, .none, .none⟩, Or.inl rfl, rfl⟩
  obtain ⟨text, N, h1, h2⟩ := C37_roundtrip_partial _ _ _ _ _ _ ha hs (by simp) .hex 16 ⟨rfl, rfl, rfl, rfl, rfl, rfl, rfl⟩
  refine ⟨text, N, h1, ?_⟩
  exact h2 { host none with files := fun _ => some (text, fun _ => some 5) } { inputs := ["dump.txt"], inFormat := some "x", outFormat := some "b" } "dump.txt" (fun _ => some 5)
    ⟨⟨.x, .b, .none, .none, .none, .none, .none, .none, .none, .none, .none⟩, Or.inl rfl, rfl⟩ rfl rfl rfl rfl rfl (by simp) rfl (show 2704 + 32 * 16 ≤ 2 ^ 21 by decide)

end Nd.Props
