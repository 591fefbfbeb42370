import Verif.Props.ProgramWide
import Verif.Props.ProgramPatch
import Verif.Proof.GapsRun
/-!
# C29 and C37, slices with gaps over regular files of any length

Slices with gaps get lost on files of several blocks (`C29_full_reads_counterexample`, `C37_gaps_counterexample`).  They do not if the reads are never short and the distance
between the slices divides the size of the blocks.
-/
namespace Nd.Props
open Nd Nd.Spec

/-- **C29** for `--width N,S..E` with slices of any length at a distance that divides the block, for every file whose reads are never short.  Missing: other distances, for which the
code loses slices (`C29_full_reads_counterexample`), short reads (`C29_retained_counterexample`), and slices that start before the file. -/
theorem C29_columns_partial (B fuel fuel' : Nat) (filler : Byte) (content : Bytes) (sched : Nat → Option Nat) (hfull : ∀ i k, sched i = some k → B ≤ k) (hf : content.length < fuel)
    (hlen : content.length < 2 ^ 64) (f : Formatting) (pitch : Nat) (m : SegmentMapper) (start stop : Int) (hp : 0 < pitch) (hm : m.evaluate (0, pitch) (0, pitch) = (start, stop))
    (h0 : 0 ≤ start) (hne : start < stop) (hdvd : pitch ∣ B) (hroom : stop + 2 * pitch + 2 ≤ B) :
    ∃ p st, ConstSlicerParams.fromRaw fuel' pitch m = .ok p ∧
      ConstSlicer.new (RawStream.new B (Reader.open content sched) 1 filler) p = .ok st ∧
      Reads (ScatterDrain.byteSrc (ConstSlicer.segSrc (RawStream.byteSrc B fuel)) f B fuel) (IoErr [sched]) (ScatterDrain.through B st)
        ((slicesOf content (strides content.length pitch start stop)).flatMap f.line) := by
  have hB : 0 < B := by omega
  obtain ⟨p, hp'⟩ : ∃ p, ConstSlicerParams.fromRaw fuel' pitch m = .ok p := by
    unfold ConstSlicerParams.fromRaw
    rw [hm]
    simp only
    rw [if_neg (by omega), if_pos h0]
    exact ⟨_, rfl⟩
  obtain ⟨h1, h2, h3, h4, h5, h6, h7, h8, h9, h10, h11⟩ := ConstSlicerParams.fromRaw_comb hp hp' content.length start stop hm
  have hhead := h10 (by omega)
  have ok : ConstSlicer.ParamsOk p := ⟨by omega, by omega, h4, h7 (by omega), h5, h6, h8 (by omega)⟩
  obtain ⟨R, E, hR, _, hs0, _⟩ := file_amply B fuel filler content sched hB hf
  obtain ⟨st, hst, hdel, _⟩ := ConstSlicer.gap_drains hR (fun _ => NlMargin.any) hB (RawStream.paced hB fuel) p ok (by rw [h2]; exact hdvd) (by omega) (by rw [hhead, h2]; omega) hs0
    (RawStream.new_paced hfull) (buffered_prompt B fuel 1 filler _ _) hlen
  have hdel := hdel f fuel hf
  rw [h11] at hdel
  exact ⟨p, st, hp', hst, hdel.reads⟩

/-- Every eighth byte of a regular file, with blocks of 2^21 bytes. -/
example (content : Bytes) (h : content.length < 2 ^ 64) : ∃ p st, ConstSlicerParams.fromRaw 2 8 (fromStart 0 1) = .ok p ∧
    ConstSlicer.new (RawStream.new (2 ^ 21) (Reader.open content fun _ => some (2 ^ 21)) 1 0) p = .ok st ∧
    Reads (ScatterDrain.byteSrc (ConstSlicer.segSrc (RawStream.byteSrc (2 ^ 21) (content.length + 1))) ⟨.binary, 0⟩ (2 ^ 21) (content.length + 1)) (IoErr [fun _ => some (2 ^ 21)])
      (ScatterDrain.through (2 ^ 21) st) ((slicesOf content (strides content.length 8 0 1)).flatMap (Formatting.line ⟨.binary, 0⟩)) :=
  C29_columns_partial (2 ^ 21) (content.length + 1) 2 0 content (fun _ => some (2 ^ 21)) (fun _ k h => by cases h; exact Nat.le_refl _) (by omega) h ⟨.binary, 0⟩ 8 (fromStart 0 1) 0 1
    (by decide) (by decide) (by decide) (by decide) (by decide) (by decide)

/-- The job: `--width N,S..E` and nothing else, with a distance that divides the block. -/
structure ColumnJob (B : Nat) (j : Job) (n : Nat) (start stop : Int) : Prop where
  coding : j.coding = .binary
  joint : j.joint = .cat 1 ∨ j.joint = .alone
  cut : j.cut = none
  pad : j.pad = (0, 0)
  patch : j.patch = none
  slicer : ∃ r, j.slicer = .width n r ∧ r.1.at n = start ∧ r.2.at n = stop
  stages : j.regex = none ∧ j.invert = none ∧ j.extend = none ∧ j.merge = none ∧ j.lines = none
  pos : 0 < n
  divides : n ∣ B
  nonneg : 0 ≤ start
  proper : start < stop
  room : stop + 2 * n + 2 ≤ B

/-- What the pipeline of such a call prints for one input. -/
theorem column_runs (h : Host) (a : Args) (j : Job) (content : Bytes) (s : Nat → Option Nat) (n : Nat) (start stop : Int) (ha : Asks a j) (hj : ColumnJob h.block j n start stop)
    (ho : a.patch = none ∧ a.regex = none ∧ a.walk = none ∧ a.guide = none) (hcount : ¬ a.countStdin + a.countStdinOfOptions > 1)
    (hfull : ∀ i, ∃ k, s i = some k ∧ h.block ≤ k) (hl : content.length < 2 ^ 48) :
    ∃ text N p, j.printing.Prints content (strides content.length n start stop) text ∧ ∀ fuel, N < fuel → (h.withFuel fuel).prepare a = .ok p ∧
      ∃ d, p.spawnStream ((h.withFuel fuel).stages p [Reader.open content s]) = .ok d ∧ consumeStream d.src h.block fuel d.st = (text, none) := by
  obtain ⟨o1, o2, o3, o4⟩ := ho
  obtain ⟨r, hsl, rfl, rfl⟩ := hj.slicer
  obtain ⟨f1, f2, f3, f4, f5⟩ := hj.stages
  have hst := hj.nonneg
  have hpr := hj.proper
  have hB : 0 < h.block := by have := hj.room; omega
  obtain ⟨hw0, m, p, f, hm, hfa, hp, hfm, hmw⟩ := asks_pipeline (h := h) (scheds := [s]) ha.toAsksBody (printed_drain ha) (fun _ => Bool.and_true _) (by rw [hj.patch, o1]; trivial)
    (by rw [hj.pad]; exact Nat.zero_le _) ⟨by simp [o3], by simp [o4]⟩ (by rw [f1, o2]; trivial) (fun n' r' h' => by
      rw [hsl] at h'
      cases h'
      omega)
  rw [ha.patchBack] at hp
  obtain ⟨N, hN⟩ := pipeline_columns h [s] j p f hp (content, s) hB (by simp) ⟨hj.coding, hj.joint, hj.cut, hj.pad, hj.patch⟩ hsl hj.stages hj.pos hj.divides hst (by omega) hj.room
    (fun i k hk => by
      obtain ⟨k', h1, h2⟩ := hfull i
      rw [show s i = some k from hk] at h1
      cases h1
      exact h2) hl
  obtain ⟨hprt, _⟩ := prints hfm (fun x hx => (strides_mem hx).2.1) hl
  refine ⟨_, N + 1, p, hprt, fun fuel hfu => ⟨?_, ?_⟩⟩
  · unfold Host.prepare
    rw [show a.parse (h.withFuel fuel).fuel = .ok m from hm fuel (by omega)]
    simp only
    rw [if_neg hcount, hfa]
  have hno : ∀ e, ¬ Failing [s] e := by
    rintro e ⟨_, s', hs', i, hi'⟩
    rw [List.mem_singleton] at hs'
    subst hs'
    obtain ⟨k, h1, _⟩ := hfull i
    rw [h1] at hi'
    cases hi'
  rcases hN fuel (by omega) with ⟨e, he, _⟩ | ⟨d, heq, w, hw, hd⟩
  · exact absurd he (hno e)
  · refine ⟨d, heq, ?_⟩
    rcases C08_copy_exact h.block fuel d.st w _ hd (by omega) with h1 | ⟨e, _, he, _⟩
    · exact h1
    · exact absurd he (hno e)

/-- **C37** for `nd --width N,S..E FILE`, where `N` divides the block and the reads are never short: the slices are printed, for every length of the file.  Missing: see
`C29_columns_partial`. -/
theorem C37_columns_partial (h : Host) (a : Args) (j : Job) (name : String) (content : Bytes) (s : Nat → Option Nat) (n : Nat) (start stop : Int) (ha : Asks a j)
    (hj : ColumnJob h.block j n start stop) (_hj : j.joint = .cat 1) (hi : a.inputs = [name]) (ho : a.patch = none ∧ a.regex = none ∧ a.walk = none ∧ a.guide = none)
    (hf : h.files name = some (content, s)) (hfull : ∀ i, ∃ k, s i = some k ∧ h.block ≤ k) (hl : content.length < 2 ^ 48) :
    ∃ text N, j.printing.Prints content (strides content.length n start stop) text ∧ ∀ fuel, N < fuel → (h.withFuel fuel).run a = (text, none) := by
  obtain ⟨text, N, p, hprt, hN⟩ := column_runs h a j content s n start stop ha hj ho (by
    unfold Args.countStdin Args.countStdinOfOptions
    rw [ho.1, ho.2.2.2, hi]
    have := List.countP_le_length (p := Args.isStdin) (l := [name])
    simpa using this) hfull hl
  refine ⟨text, N, hprt, fun fuel hfu => ?_⟩
  obtain ⟨hprep, d, heq, hd⟩ := hN fuel hfu
  have hstream : (h.withFuel fuel).stream a = p.spawnStream ((h.withFuel fuel).stages p [Reader.open content s]) := by
    unfold Host.stream
    rw [hprep]
    simp only [attempt, Host.spawn]
    rw [show (if a.inputs = [] then ["-"] else a.inputs).mapM (h.withFuel fuel).openReader = .ok ([(content, s)].map fun f => Reader.open f.1 f.2) from by
      rw [hi, if_neg (by simp)]
      exact mapM_open (h := h.withFuel fuel) (.cons hf .nil)]
    rfl
  unfold Host.run
  rw [hstream, heq]
  exact hd

/-- `nd -f b --width 8,1..2 FILE` -/
def columnArgs : Args := { inputs := ["FILE"], outFormat := some "b", width := some "8,1..2" }

def columnJob : Job := { slicer := .width 8 (⟨false, 1⟩, ⟨false, 2⟩), printing := .binary }

theorem column_asks : Asks columnArgs columnJob :=
  ⟨⟨.none, .b, .none, .none, .none, .none, .width (.range (t := ['8']) (u := "1..2".toList) (digit_numeral '8' (by decide))
    (.mk (digit_side .first '1' (by decide)) (digit_side .last '2' (by decide)))), .none, .none, .none, .none⟩, Or.inl rfl, rfl⟩

open Conformance in
/-- The second of every eight bytes of a regular file of any length. -/
example (content : Bytes) (hl : content.length < 2 ^ 48) :
    ∃ text N, text = ((strides content.length 8 1 2).map fun x => x.bytes content).flatten ∧
      ∀ fuel, N < fuel → ({ host none with files := fun _ => some (content, fun _ => some (2 ^ 21)), fuel := fuel } : Host).run columnArgs = (text, none) :=
  C37_columns_partial { host none with files := fun _ => some (content, fun _ => some (2 ^ 21)) } columnArgs columnJob "FILE" content (fun _ => some (2 ^ 21)) 8 1 2 column_asks
    ⟨rfl, Or.inl rfl, rfl, rfl, rfl, ⟨_, rfl, rfl, rfl⟩, ⟨rfl, rfl, rfl, rfl, rfl⟩, by decide, show 8 ∣ 2 ^ 21 by decide, by decide, by decide, show (2 : Int) + 2 * 8 + 2 ≤ (2 ^ 21 : Nat) by decide⟩
    rfl rfl ⟨rfl, rfl, rfl, rfl⟩ rfl (fun _ => ⟨_, rfl, show 2 ^ 21 ≤ 2 ^ 21 from Nat.le_refl _⟩) hl

/-- The call that takes the words of one of the inputs from the bytes of all: `nd -f b --width KN,IN..(I+1)N`. -/
def takeJob (k n i : Nat) : Job := { slicer := .width (k * n) (⟨false, (i * n : Nat)⟩, ⟨false, (i * n + n : Nat)⟩), printing := .binary }

/-- **C43**: what `nd -f b --zip N` prints for `K` files, given as a regular file to `nd -f b --width KN,IN..(I+1)N`, is the file number `I` up to the length of the shortest one, each padded
to whole words; files of any length.  `KN` has to divide the block. -/
theorem C43_columns_partial (h h' : Host) (a a' : Args) (n i : Nat) (files : List InFile) (scheds : List (Nat → Option Nat)) (hn : 0 < n) (hi : i < files.length)
    (ha : Asks a { joint := .zip n, printing := .binary }) (hs : Surroundings h a { joint := .zip n, printing := .binary } files (files.map Prod.fst) scheds) (hok : ∀ s ∈ scheds, ∀ i, s i ≠ none)
    (ha' : Asks a' (takeJob files.length n i)) (hpa : a'.patch = none) (hre : a'.regex = none) (hdvd : files.length * n ∣ h'.block) (hroom : 3 * (files.length * n) + 2 ≤ h'.block) :
    ∃ z N, (∀ fuel, N < fuel → (h.withFuel fuel).run a = (z, none)) ∧
      ∀ (name : String) (s : Nat → Option Nat), a'.inputs = [name] → h'.files name = some (z, s) → (∀ i, ∃ k, s i = some k ∧ h'.block ≤ k) →
        ∃ N', ∀ fuel, N' < fuel → (h'.withFuel fuel).run a' = ((alignTo n 0 files[i].1).take (minLen (files.map fun f => alignTo n 0 f.1) / n * n), none) := by
  have hst : ({ joint := .zip n, printing := .binary } : Job).stream (files.map Prod.fst) = zip n (files.map fun f => alignTo n 0 f.1) := by
    simp [Job.stream, Job.filtered, Joint.join, Spec.pad, Function.comp_def]
  have hsl := hs.stream
  rw [hst] at hsl
  obtain ⟨z, N, h1, _, h2⟩ := C37_success_partial h a _ _ _ _ ha hs hok (strides (zip n (files.map fun f => alignTo n 0 f.1)).length 16 0 16)
    (by rw [hst]; exact ⟨_, _, show strides _ _ _ _ = strides _ _ _ _ by simp [RangeEnd.at], rfl, rfl⟩)
  rw [hst] at h1
  have hz : z = zip n (files.map fun f => alignTo n 0 f.1) := by
    rw [show z = _ from h1, tiles_flatten _ _ 0 (show Format.Tiles _ 0 (strides _ 16 0 16) from tiles_strides _ 16 (by decide)), List.drop_zero]
  subst hz
  refine ⟨_, N, h2, fun name s hin hf hfull => ?_⟩
  have hw := width_text ha'.slicer
  have hin : i * n + n ≤ files.length * n := by
    have := Nat.mul_le_mul_right n (show i + 1 ≤ files.length from hi)
    rwa [Nat.add_mul, Nat.one_mul] at this
  obtain ⟨out, N', h3, h4⟩ := C37_columns_partial h' a' (takeJob files.length n i) name _ s (files.length * n) ((i * n : Nat) : Int) ((i * n + n : Nat) : Int) ha'
    { coding := rfl, joint := Or.inl rfl, cut := rfl, pad := rfl, patch := rfl, slicer := ⟨_, rfl, by simp [RangeEnd.at], by simp [RangeEnd.at]⟩, stages := ⟨rfl, rfl, rfl, rfl, rfl⟩, pos := by omega, divides := hdvd,
      nonneg := by omega, proper := by omega, room := by omega } rfl (by assumption) ⟨hpa, hre, hw.1, hw.2⟩ hf hfull hsl
  refine ⟨N', fun fuel hfu => ?_⟩
  rw [h4 fuel hfu]
  have := unzip_columns (n := n) (i := i) (cs := files.map fun f => alignTo n 0 f.1) hn (by simpa using hi)
  simp only [List.length_map, List.getElem_map] at this
  rw [show out = _ from h3, this]

/-- `nd -f b --zip 1 x y` -/
def zipBytesArgs : Args := { inputs := ["x", "y"], outFormat := some "b", zip := some "1" }

/-- `nd -f b --width 2,1..2 z` -/
def takeArgs : Args := { inputs := ["z"], outFormat := some "b", width := some "2,1..2" }

theorem zipBytes_asks : Asks zipBytesArgs { joint := .zip 1, printing := .binary } :=
  ⟨⟨.none, .b, .none, .zip (digit_numeral '1' (by decide)) (by decide), .none, .none, .none, .none, .none, .none, .none⟩, Or.inl rfl, rfl⟩

theorem take_asks : Asks takeArgs (takeJob 2 1 1) :=
  ⟨⟨.none, .b, .none, .none, .none, .none, .width (.range (t := ['2']) (u := "1..2".toList) (digit_numeral '2' (by decide))
    (.mk (digit_side .first '1' (by decide)) (digit_side .last '2' (by decide)))), .none, .none, .none, .none⟩, Or.inl rfl, rfl⟩

open Conformance in
/-- `nd -f b --zip 1 x y > z; nd -f b --width 2,1..2 z` prints `y`, if it is as long as `x`. -/
example (x y : Bytes) (hl : y.length = x.length) (hx : 2 * x.length < 2 ^ 48) (s : Nat → Option Nat) (hs : ∀ i, s i ≠ none) :
    ∃ z N, (∀ fuel, N < fuel → ({ host none with files := pairFiles x y [] s, fuel := fuel } : Host).run zipBytesArgs = (z, none)) ∧
      ∃ N', ∀ fuel, N' < fuel → ({ host none with files := fun _ => some (z, fun _ => some (2 ^ 21)), fuel := fuel } : Host).run takeArgs = (y, none) := by
  have hz : (zip 1 [x, y]).length = 2 * x.length := by
    have hm : minLen [x, y] = x.length := by simp [minLen, hl]
    have hc : ∀ c ∈ [x, y], x.length * 1 ≤ c.length := by simp [hl]
    show ((List.range (minLen [x, y] / 1)).flatMap (zipRow 1 [x, y])).length = _
    rw [hm, Nat.div_one, rows_flatten (k := 2) _ _ fun r hr => by rw [zipRow_length hr _ hc]; rfl]
    omega
  have hsu : Surroundings { host none with files := pairFiles x y [] s } zipBytesArgs { joint := .zip 1, printing := .binary } [(x, s), (y, s)] [x, y] [s] := by
    refine { release := rfl, inplace := rfl, block := show 0 < 2 ^ 21 by decide, opened := .cons rfl (.cons rfl .nil), stdin := by decide, listed := by simp, patch := trivial,
             decodes := .cons rfl (.cons rfl .nil), text := fun h => absurd rfl h, pad := ⟨Nat.zero_le _, Nat.zero_le _⟩, aligned := ?_, joined := ?_, stream := ?_,
             slicer := ⟨by simp [zipBytesArgs], by simp⟩, regex := trivial,
             fits := Or.inl (Or.inr (Or.inr (Or.inr ⟨16, _, rfl, ⟨rfl, rfl, rfl, rfl, rfl⟩, by decide, ?_⟩))) }
    · simp [Joint.word, alignTo_one, hl]
      omega
    · simp [Joint.join, alignTo_one, hz]
      omega
    · simp [Job.stream, Job.filtered, Joint.join, Spec.pad, alignTo_one, hz]
      omega
    · simp only [RangeEnd.at, if_true, Bool.false_eq_true, if_false]
      omega
  obtain ⟨z, N, _, _, h2⟩ := C37_success_partial _ _ _ _ _ _ zipBytes_asks hsu (by simpa using hs) _ ⟨_, _, rfl, rfl, rfl⟩
  refine ⟨z, N, h2, ?_⟩
  obtain ⟨z', N', h3, h4⟩ := C43_columns_partial { host none with files := pairFiles x y [] s } { host none with files := fun _ => some (z, fun _ => some (2 ^ 21)) } zipBytesArgs takeArgs 1 1
    [(x, s), (y, s)] [s] (by decide) (by simp) zipBytes_asks hsu (by simpa using hs) take_asks rfl rfl (show 2 * 1 ∣ 2 ^ 21 by decide) (show 3 * (2 * 1) + 2 ≤ 2 ^ 21 by decide)
  have : z' = z := by
    have h4 := h2 (N + N' + 1) (by omega)
    have h5 := h3 (N + N' + 1) (by omega)
    have h6 := h4.symm.trans h5
    simp only [Prod.mk.injEq, and_true] at h6
    exact h6.symm
  subst this
  obtain ⟨N'', h5⟩ := h4 "z" (fun _ => some (2 ^ 21)) rfl rfl fun _ => ⟨_, rfl, show 2 ^ 21 ≤ 2 ^ 21 from Nat.le_refl _⟩
  refine ⟨N'', fun fuel hf => ?_⟩
  have := h5 fuel hf
  simp only [List.getElem_cons_succ, List.getElem_cons_zero, alignTo_one, List.map_cons, List.map_nil, minLen, hl, Nat.min_self, Nat.div_one, Nat.mul_one] at this
  rw [← hl, List.take_length] at this
  exact this

end Nd.Props
