import Verif.Props.Regex
import Verif.Props.ProgramWide
import Verif.Proof.RegexRun
/-!
# C26, `--regex` over files of any length

On files that are longer than a block matches get lost (`C26_block_counterexample`).  Those that are shown are matches, each is shown once, and they are shown in order.
-/
namespace Nd.Props
open Nd Nd.Spec

/-- **C26** for `nd --width N,S..E --regex PATTERN FILE...` with adjacent slices, files of any length, every `read()` schedule and no empty match: there are slices, among them all
that end in the first eighth of a block, such that exactly the matches in them are printed, in order.  Missing: that these are all slices, which is false (`C26_block_counterexample`). -/
theorem C26_sound_partial {find : Bytes → List Seg} (hf : Searcher find) (hnz : ∀ l, ∀ m ∈ find l, 0 < m.len) (B fuel fuel' : Nat) (filler : Byte) (files : Files) (hB : 0 < B) (hne : files ≠ [])
    (hfu : enough 1 files + 1 < fuel) (pitch : Nat) (m : SegmentMapper) (start stop : Int) (hp : 0 < pitch) (hm : m.evaluate (0, pitch) (0, pitch) = (start, stop)) (hadj : stop - start = pitch)
    (hstop : 1 ≤ stop) (p : ConstSlicerParams) (hpr : ConstSlicerParams.fromRaw fuel' pitch m = .ok p) (hL : 2 * pitch + stop.toNat + 1 ≤ (B - 1784) / 8)
    (hlen : (files.map Prod.fst).flatten.length < 2 ^ 64) :
    ∃ st sub, ConstSlicer.new (CatStream.new B (rawStreams B 1 filler files)) p = .ok st ∧ sub.Sublist (strides (files.map Prod.fst).flatten.length pitch start stop) ∧
      (∀ x ∈ strides (files.map Prod.fst).flatten.length pitch start stop, x.tail + pitch ≤ (B - 1784) / 8 → x ∈ sub) ∧
      ∀ f : Formatting, Reads (ScatterDrain.byteSrc (RegexSlicer.segSrc find (ConstSlicer.segSrc (CatStream.byteSrc (RawStream.byteSrc B fuel) B fuel))) f B fuel) (IoErr (files.map Prod.snd))
        (ScatterDrain.through B (RegexSlicer.new st)) ((slicesOf (files.map Prod.fst).flatten (searched find (files.map Prod.fst).flatten sub)).flatMap f.line) := by
  have hc : Spec.cat (files.map fun f => Spec.alignTo 1 filler f.1) = (files.map Prod.fst).flatten := by simp only [alignTo_one, Spec.cat]
  have ha := cat_amply B fuel 1 filler files hB (by decide) hne (by omega)
  have hfl := fills_le_enough 1 filler files (by decide)
  rw [hc] at ha
  obtain ⟨st, hst, sub, hsub, hin, hd⟩ := regex_drains hf hnz ha (fun _ h => h) (fun _ => none) hB hlen p fuel' pitch m start stop hp hpr hm hadj hstop hL
  exact ⟨st, sub, hst, hsub, hin, fun f => (hd.prints f fuel (by omega)).reads⟩

/-- Slices of sixteen bytes of a file of any length, with nd's block size, searched for a byte. -/
example (b : Byte) (content : Bytes) (sched : Nat → Option Nat) (h : content.length < 2 ^ 64) :
    ∃ p st sub, ConstSlicerParams.fromRaw 2 16 (fromStart 0 16) = .ok p ∧
      ConstSlicer.new (CatStream.new (2 ^ 21) (rawStreams (2 ^ 21) 1 0 [(content, sched)])) p = .ok st ∧ sub.Sublist (strides content.length 16 0 16) ∧
      (∀ x ∈ strides content.length 16 0 16, x.tail ≤ 261905 → x ∈ sub) ∧
      Reads (ScatterDrain.byteSrc (RegexSlicer.segSrc (byteSearch b) (ConstSlicer.segSrc (CatStream.byteSrc (RawStream.byteSrc (2 ^ 21) (enough 1 [(content, sched)] + 2)) (2 ^ 21)
          (enough 1 [(content, sched)] + 2)))) ⟨.hhh, 16⟩ (2 ^ 21) (enough 1 [(content, sched)] + 2)) (IoErr [sched]) (ScatterDrain.through (2 ^ 21) (RegexSlicer.new st))
        ((slicesOf content (searched (byteSearch b) content sub)).flatMap (Formatting.line ⟨.hhh, 16⟩)) := by
  obtain ⟨p, hp⟩ : ∃ p, ConstSlicerParams.fromRaw 2 16 (fromStart 0 16) = .ok p := ⟨_, rfl⟩
  have hnz : ∀ l, ∀ m ∈ byteSearch b l, 0 < m.len := by
    intro l m hm
    obtain ⟨i, _, rfl⟩ := List.mem_map.1 hm
    exact Nat.one_pos
  obtain ⟨st, sub, h1, h2, h4, h3⟩ := C26_sound_partial (byteSearch_searcher b) hnz (2 ^ 21) (enough 1 [(content, sched)] + 2) 2 0 [(content, sched)] (by decide) (by simp) (by omega) 16 (fromStart 0 16)
    0 16 (by decide) (by decide) (by decide) (by decide) p hp (by decide) (by simpa using h)
  simp only [List.map_cons, List.map_nil, List.flatten_cons, List.flatten_nil, List.append_nil] at h1 h2 h3 h4
  exact ⟨p, st, sub, hp, h1, h2, fun x hx h => h4 x hx (by omega), h3 _⟩

/-- The job: `--width N,S..E --regex PATTERN` with adjacent slices and nothing else. -/
structure SearchJob (B : Nat) (j : Job) (n : Nat) (start stop : Int) (find : Bytes → List Seg) : Prop where
  bare : j.Bare
  slicer : ∃ r, j.slicer = .width n r ∧ r.1.at n = start ∧ r.2.at n = stop
  regex : j.regex = some find
  stages : j.invert = none ∧ j.extend = none ∧ j.merge = none ∧ j.lines = none
  pos : 0 < n
  adjacent : stop - start = n
  proper : 1 ≤ stop
  room : 2 * n + stop.toNat + 1 ≤ (B - 1784) / 8

/-- **C26** and **C37** for the call `nd --width N,S..E --regex PATTERN FILE` with adjacent slices and a file of any length: the run succeeds and prints the matches in some of the slices,
among them all that end in the first eighth of a block. -/
theorem C26_program_partial (h : Host) (a : Args) (j : Job) (name pattern : String) (content : Bytes) (s : Nat → Option Nat) (n : Nat) (start stop : Int) (find : Bytes → List Seg) (ha : Asks a j)
    (hj : SearchJob h.block j n start stop find) (hr : h.regex pattern = .ok find) (hf : Searcher find) (hnz : ∀ l, ∀ m ∈ find l, 0 < m.len) (hc : h.checks = false) (hi : a.inputs = [name])
    (ho : a.patch = none ∧ a.regex = some pattern ∧ a.walk = none ∧ a.guide = none) (hcat : j.joint = .cat 1) (hfi : h.files name = some (content, s)) (hok : ∀ i, s i ≠ none)
    (hl : content.length < 2 ^ 48) :
    ∃ N, ∀ fuel, N < fuel → ∃ sub text, sub.Sublist (strides content.length n start stop) ∧
      (∀ x ∈ strides content.length n start stop, x.tail + n ≤ (h.block - 1784) / 8 → x ∈ sub) ∧ j.printing.Prints content (searched find content sub) text ∧ (h.withFuel fuel).run a = (text, none) := by
  obtain ⟨o1, o2, o3, o4⟩ := ho
  obtain ⟨r, hsl, rfl, rfl⟩ := hj.slicer
  obtain ⟨b1, b2, b3, b4, b5⟩ := hj.bare
  have hadj := hj.adjacent
  have hpos := hj.pos
  have hB : 0 < h.block := by have := hj.room; omega
  obtain ⟨hw0, m, p, f, hm, hfa, hp, hfm, hmw⟩ := asks_pipeline (h := h) (scheds := [s]) ha.toAsksBody (printed_drain ha) (fun _ => Bool.and_true _) (by rw [b5, o1]; trivial)
    (by rw [b4]; exact Nat.zero_le _) ⟨by simp [o3], by simp [o4]⟩ (by rw [hj.regex, o2]; exact hr) (fun n' r' h' => by
      rw [hsl] at h'
      cases h'
      have := hj.proper
      omega)
  rw [ha.patchBack] at hp
  have hmax : (2 : Nat) ^ 48 < usizeMax := by decide
  have hjoin : j.joint.join j.filler [content] = content := by rw [hcat]; simp [Joint.join, Spec.cat, alignTo_one]
  have hstr : j.stream [content] = content := by
    unfold Job.stream Job.filtered
    rw [b3, b4, b5, hjoin]
    simp [Spec.pad]
  have hal : ∀ c ∈ [content], (alignTo j.joint.word j.filler c).length ≤ usizeMax := by
    intro c hc
    rw [List.mem_singleton] at hc
    rw [hc, hcat, show Joint.word (.cat 1) = 1 from rfl, alignTo_one]
    omega
  obtain ⟨N, hN⟩ := pipeline_searched h [s] "-" j p f hp [(content, s)] [content] hB hc (by simp) (by simp) hw0 (.cons (by rw [b1]; rfl) .nil) hal (fun h => absurd b1 h)
    (by rw [b4]; exact ⟨Nat.zero_le _, Nat.zero_le _⟩) (by rw [b4, hjoin]; omega) (by rw [hstr]; exact hl) hsl hj.regex hf hnz hj.stages hj.pos hj.adjacent hj.proper hj.room
  rw [hstr] at hN
  have hno : ∀ e, ¬ Failing [s] e := by
    rintro e ⟨_, s', hs', i, hi'⟩
    rw [List.mem_singleton] at hs'
    subst hs'
    exact hok i hi'
  refine ⟨N + 1, fun fuel hfu => ?_⟩
  have hprep : (h.withFuel fuel).prepare a = .ok p := by
    unfold Host.prepare
    rw [show a.parse (h.withFuel fuel).fuel = .ok m from hm fuel (by omega)]
    simp only
    rw [if_neg, hfa]
    unfold Args.countStdin Args.countStdinOfOptions
    rw [o1, o4, hi]
    have := List.countP_le_length (p := Args.isStdin) (l := [name])
    simpa using this
  have hstream : (h.withFuel fuel).stream a = p.spawnStream ((h.withFuel fuel).stages p [Reader.open content s]) := by
    unfold Host.stream
    rw [hprep]
    simp only [attempt, Host.spawn]
    rw [show (if a.inputs = [] then ["-"] else a.inputs).mapM (h.withFuel fuel).openReader = .ok ([(content, s)].map fun f => Reader.open f.1 f.2) from by
      rw [hi, if_neg (by simp)]
      exact mapM_open (h := h.withFuel fuel) (.cons hfi .nil)]
    rfl
  rcases hN fuel (by omega) with ⟨e, he, _⟩ | ⟨g, heq, w, hw, sub, hsub, hin, hdr⟩
  · exact absurd he (hno e)
  · have heq : p.spawnStream ((h.withFuel fuel).stages p [Reader.open content s]) = (h.withFuel fuel).scatter p (.scatter "-") g := heq
    obtain ⟨hprt, _⟩ := prints hfm (fun x hx => RegexSlicer.searched_tail hf (fun y hy => (strides_mem (hsub.subset hy)).2.1) x hx) hl
    refine ⟨sub, _, hsub, hin, hprt, ?_⟩
    unfold Host.run
    rw [hstream, heq]
    simp only [Host.scatter, attempt, hp.out rfl]
    rcases C08_copy_exact h.block fuel _ w _ (hdr.prints f fuel (by omega)) (by omega) with h1 | ⟨e, _, he, _⟩
    · exact h1
    · exact absurd he (hno e)

/-- `nd --width 4 --regex A FILE` -/
def searchArgs : Args := { inputs := ["FILE"], width := some "4", regex := some "A" }

def searchJob : Job := { slicer := .width 4 (⟨false, 0⟩, ⟨true, 0⟩), regex := some (byteSearch 65) }

open Conformance in
/-- The places of `A` in slices of four bytes of a file of any length. -/
example (content : Bytes) (s : Nat → Option Nat) (hok : ∀ i, s i ≠ none) (hl : content.length < 2 ^ 48) :
    ∃ N, ∀ fuel, N < fuel → ∃ sub text, sub.Sublist (strides content.length 4 0 4) ∧
      (∀ x ∈ strides content.length 4 0 4, x.tail + 4 ≤ (2 ^ 21 - 1784) / 8 → x ∈ sub) ∧ searchJob.printing.Prints content (searched (byteSearch 65) content sub) text ∧
      ({ host none with files := fun _ => some (content, s), regex := fun _ => .ok (byteSearch 65), fuel := fuel } : Host).run searchArgs = (text, none) :=
  C26_program_partial { host none with files := fun _ => some (content, s), regex := fun _ => .ok (byteSearch 65) } searchArgs searchJob "FILE" "A" content s 4 0 4 (byteSearch 65)
    ⟨⟨.none, .none, .none, .none, .none, .none, .width (.plain (digit_numeral '4' (by decide))), .none, .none, .none, .none⟩, Or.inl rfl, rfl⟩
    ⟨⟨rfl, Or.inl rfl, rfl, rfl, rfl⟩, ⟨_, rfl, rfl, rfl⟩, rfl, ⟨rfl, rfl, rfl, rfl⟩, by decide, by decide, by decide, show 2 * 4 + (4 : Int).toNat + 1 ≤ (2 ^ 21 - 1784) / 8 by decide⟩
    rfl (byteSearch_searcher 65) (fun l m hm => by
      obtain ⟨i, _, rfl⟩ := List.mem_map.1 hm
      exact Nat.one_pos) rfl rfl ⟨rfl, rfl, rfl, rfl⟩ rfl rfl hok hl

end Nd.Props
