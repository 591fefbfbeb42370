import Verif.Props.ProgramSmall
/-!
# C37, --find with --invert, --extend and --lines on files of any length
-/
namespace Nd.Props
open Nd Nd.Spec Conformance

theorem array_text : ArrayText "6f" [0x6f] := by
  have h : "6f".toUTF8.toList = [54, 102] := by decide +kernel
  unfold ArrayText
  rw [h]
  exact ⟨.last 54 102 6 15 rfl rfl, by decide, by decide, by decide⟩

theorem unbordered_one (b : Byte) : Unbordered [b] := by
  intro k h1 h2
  simp at h2
  omega

/-- A file of any length, read in pieces of any size. -/
theorem file_surroundings (a : Args) (j : Job) (c : Bytes) (sched : Nat → Option Nat) (hc : c.length < 2 ^ 48) (hi : a.inputs = ["x"]) (hip : a.inplace = false) (hpa : a.patch = none)
    (hwalk : a.walk = none) (hguide : a.guide = none) (hre : a.regex = none) (hp : j.patch = none) (hco : j.coding = .binary) (hjo : j.joint = .cat 1) (hpad : j.pad = (0, 0)) (hcut : j.cut = none)
    (hre' : j.regex = none) (hsl : ∀ recs, j.slicer ≠ .guide recs) (hf : j.Fits ((2 ^ 21 - 1784) / 8)) :
    Surroundings { host none with files := fun _ => some (c, sched) } a j [(c, sched)] [c] [sched] ∧ j.stream [c] = c := by
  have hst : j.stream [c] = c := by
    simp [Job.stream, Job.filtered, hjo, hpad, hcut, hp, Joint.join, Spec.cat, Spec.pad, alignTo_one]
  refine ⟨?_, hst⟩
  refine { release := rfl, inplace := hip, block := show 0 < 2 ^ 21 by decide, opened := ?_, stdin := ?_, listed := by simp, patch := by rw [hpa, hp]; trivial,
           decodes := .cons (by rw [hco]; rfl) .nil, text := fun h => absurd hco h, pad := by rw [hpad]; exact ⟨Nat.zero_le _, Nat.zero_le _⟩, aligned := ?_, joined := ?_, stream := ?_,
           slicer := ⟨fun t ht => ?_, fun recs file hj => absurd hj (hsl recs)⟩, regex := ?_, fits := Or.inl (Or.inl hf) }
  · simpa [hjo, Joint.word, alignTo_one] using hc
  · simpa [hjo, hpad, Joint.join, Spec.cat, alignTo_one] using hc
  · rw [hst]
    exact hc
  · rw [hwalk] at ht
    cases ht
  · rw [hre, hre']
    trivial
  · unfold inputsOf
    rw [hi]
    exact .cons rfl .nil
  · unfold inputsOf
    rw [hi, hpa, hguide]
    decide

/-! ## `--find 6f --invert s..e` -/

theorem occurrences_one (b : Byte) (c : Bytes) : occurrences [b] c = (List.range c.length).filterMap fun i => if c[i]? = some b then some { pos := i, len := 1 } else none := by
  unfold occurrences
  refine List.filterMap_congr fun i hi => ?_
  have hi := List.mem_range.1 hi
  rw [show (c.drop i).take [b].length = [c[i]] by rw [List.drop_eq_getElem_cons hi]; rfl, List.getElem?_eq_getElem hi]
  simp

/-- The occurrences of `b` in `c` that stands at `at`. -/
def marks (b : Byte) (pos : Nat) : Bytes → List Seg
  | [] => []
  | x :: c => if x = b then { pos := pos, len := 1 } :: marks b (pos + 1) c else marks b (pos + 1) c

theorem marks_eq (b : Byte) (c : Bytes) : occurrences [b] c = marks b 0 c := by
  rw [occurrences_one]
  have : ∀ (c : Bytes) (k : Nat), (List.range c.length).filterMap (fun i => if c[i]? = some b then some ({ pos := k + i, len := 1 } : Seg) else none) = marks b k c := by
    intro c
    induction c with
    | nil => intro k; rfl
    | cons x c ih =>
      intro k
      rw [List.length_cons, List.range_succ_eq_map, List.filterMap_cons, List.filterMap_map]
      unfold marks
      rw [← ih (k + 1)]
      have h : (List.range c.length).filterMap ((fun i => if (x :: c)[i]? = some b then some ({ pos := k + i, len := 1 } : Seg) else none) ∘ Nat.succ) =
          (List.range c.length).filterMap (fun i => if c[i]? = some b then some ({ pos := k + 1 + i, len := 1 } : Seg) else none) := by
        refine List.filterMap_congr fun i _ => ?_
        simp only [Function.comp, Nat.succ_eq_add_one, List.getElem?_cons_succ]
        rw [show k + (i + 1) = k + 1 + i by omega]
      rw [h]
      by_cases hx : x = b <;> simp [hx]
  have := this c 0
  simpa using this

/-- The gaps have everything else. -/
theorem gaps_filter (b : Byte) (len : Nat) : ∀ (c pre : Bytes) (prev : Nat), prev ≤ pre.length → len = pre.length + c.length →
    ((gaps prev (marks b pre.length c) len).flatMap (images [(⟨false, 0⟩, ⟨true, 0⟩)] len)).flatMap (fun x => x.bytes (pre ++ c)) = pre.drop prev ++ c.filter (· ≠ b)
  | [], pre, prev, h, hl => by
    simp only [marks, gaps, gapsBefore, lastEnd, List.nil_append, List.append_nil, List.filter_nil]
    simp only [List.length_nil, Nat.add_zero] at hl
    subst hl
    split
    · have : max 0 (prev : Int) < min (pre.length : Int) pre.length := by omega
      simp only [List.flatMap_cons, List.flatMap_nil, List.append_nil, images, List.filterMap_cons, List.filterMap_nil, clipped, RangeEnd.on, if_true, Bool.false_eq_true, if_false, Int.add_zero]
      rw [if_pos (by omega)]
      simp only [List.flatMap_cons, List.flatMap_nil, List.append_nil, Seg.bytes]
      rw [show (max 0 (prev : Int)).toNat = prev by omega, List.take_of_length_le]
      simp only [List.length_drop]
      omega
    · rw [List.drop_eq_nil_of_le (by omega)]
      rfl
  | x :: c, pre, prev, h, hl => by
    have ih := gaps_filter b len c (pre ++ [x])
    simp only [List.length_append, List.length_cons, List.length_nil, List.append_assoc, List.cons_append, List.nil_append] at ih hl
    unfold marks
    by_cases hx : x = b
    · rw [if_pos hx]
      have hg : gaps (prev : Int) (⟨pre.length, 1⟩ :: marks b (pre.length + 1) c) len =
          (if (prev : Int) < (pre.length : Int) then [((prev : Int), (pre.length : Int))] else []) ++ gaps ((pre.length + 1 : Nat) : Int) (marks b (pre.length + 1) c) len := by
        have hm : max (prev : Int) ((pre.length + 1 : Nat) : Int) = ((pre.length + 1 : Nat) : Int) := by omega
        unfold gaps
        rw [show lastEnd (prev : Int) (⟨pre.length, 1⟩ :: marks b (pre.length + 1) c) = lastEnd (max (prev : Int) ((pre.length + 1 : Nat) : Int)) (marks b (pre.length + 1) c) from rfl,
          show gapsBefore (prev : Int) (⟨pre.length, 1⟩ :: marks b (pre.length + 1) c) = (if (prev : Int) < (pre.length : Int) then [((prev : Int), (pre.length : Int))] else []) ++
            gapsBefore (max (prev : Int) ((pre.length + 1 : Nat) : Int)) (marks b (pre.length + 1) c) from rfl, hm, List.append_assoc]
      rw [hg, List.flatMap_append, List.flatMap_append, ih (pre.length + 1) (by omega) (by omega), List.filter_cons (x := x), show decide (x ≠ b) = false by simp [hx], if_neg (show ¬ (false = true) by decide)]
      rw [show List.drop (pre.length + 1) (pre ++ [x]) = [] from List.drop_eq_nil_of_le (by simp), List.nil_append]
      congr 1
      split
      · simp only [List.flatMap_cons, List.flatMap_nil, List.append_nil, images, List.filterMap_cons, List.filterMap_nil, clipped, RangeEnd.on, if_true, Bool.false_eq_true, if_false, Int.add_zero]
        rw [if_pos (by omega)]
        simp only [List.flatMap_cons, List.flatMap_nil, List.append_nil, Seg.bytes]
        rw [show (max 0 (prev : Int)).toNat = prev by omega, show (min (len : Int) pre.length - max 0 (prev : Int)).toNat = pre.length - prev by omega,
          List.drop_append_of_le_length h, List.take_append_of_le_length (by simp), List.take_of_length_le (by simp)]
      · rw [List.drop_eq_nil_of_le (by omega)]
        rfl
    · rw [if_neg hx, ih prev (by omega) (by omega), List.filter_cons (x := x), show decide (x ≠ b) = true by simp [hx], if_pos rfl, List.drop_append_of_le_length h, List.append_assoc]
      rfl

/-- `nd -f b --find 6f --invert s..e x` -/
def removeArgs : Args := { inputs := ["x"], outFormat := some "b", find := some "6f", invert := some "s..e" }

def removeJob : Job := { slicer := .find [0x6f], invert := some [(⟨false, 0⟩, ⟨true, 0⟩)], printing := .binary }

theorem remove_asks : Asks removeArgs removeJob where
  inFormat := .none
  outFormat := .b
  filler := .none
  joint := .none
  cut := .none
  pad := .none
  slicer := .find array_text
  invert := .some ⟨["s..e".toList], by simp, .cons (.mk start_side end_side) .nil, Or.inl (by decide)⟩
  extend := .none
  merge := .none
  lines := .none
  output := Or.inl rfl
  patchBack := rfl

/-- The call prints the file without its `o`, however long the file is and however it is read. -/
example (c : Bytes) (hc : c.length < 2 ^ 48) (sched : Nat → Option Nat) (hs : ∀ i, sched i ≠ none) :
    ∃ N, ∀ fuel, N < fuel → ({ host none with files := fun _ => some (c, sched), fuel := fuel } : Host).run removeArgs = (c.filter (· ≠ 0x6f), none) := by
  have hf : removeJob.Fits ((2 ^ 21 - 1784) / 8) :=
    ⟨⟨rfl, Or.inr (Or.inl ⟨_, _, rfl, rfl, rfl, rfl, by decide, rfl, by decide⟩)⟩, unbordered_one _, by decide, by simp [removeJob]⟩
  obtain ⟨hs', hst⟩ := file_surroundings removeArgs removeJob c sched hc rfl rfl rfl rfl rfl rfl rfl rfl rfl rfl rfl rfl (by simp [removeJob]) hf
  obtain ⟨text, N, h1, _, h2⟩ := C37_success_partial _ _ _ _ _ _ remove_asks hs' (by simpa using hs) (invert [(⟨false, 0⟩, ⟨true, 0⟩)] (occurrences [0x6f] c) c.length)
    (by rw [hst]; exact ⟨_, _, rfl, rfl, rfl⟩)
  refine ⟨N, fun fuel hf => ?_⟩
  rw [show ({ host none with files := fun _ => some (c, sched), fuel := fuel } : Host) = ({ host none with files := fun _ => some (c, sched) } : Host).withFuel fuel from rfl, h2 fuel hf]
  rw [hst] at h1
  rw [show text = _ from h1, ← List.flatMap_def, marks_eq]
  congr 1
  exact gaps_filter 0x6f c.length c [] 0 (Nat.le_refl _) (by simp)

/-! ## `--find 6f --extend s-1..e` and `--find 6f --invert s..e --lines 1..3` -/

/-- `nd -f b --find 6f --extend s-1..e x` -/
def beforeArgs : Args := { inputs := ["x"], outFormat := some "b", find := some "6f", extend := some "s-1..e" }

def beforeJob : Job := { slicer := .find [0x6f], extend := some [(⟨false, -1⟩, ⟨true, 0⟩)], printing := .binary }

theorem before_asks : Asks beforeArgs beforeJob where
  inFormat := .none
  outFormat := .b
  filler := .none
  joint := .none
  cut := .none
  pad := .none
  slicer := .find array_text
  invert := .none
  extend := .some ⟨["s-1..e".toList], by simp, .cons (.mk startMinus_side end_side) .nil, Or.inl (by decide)⟩
  merge := .none
  lines := .none
  output := Or.inl rfl
  patchBack := rfl

/-- The call prints every `o` and the byte in front of it. -/
example (c : Bytes) (hc : c.length < 2 ^ 48) (sched : Nat → Option Nat) (hs : ∀ i, sched i ≠ none) :
    ∃ N, ∀ fuel, N < fuel → ({ host none with files := fun _ => some (c, sched), fuel := fuel } : Host).run beforeArgs =
      (((Spec.extend [(⟨false, -1⟩, ⟨true, 0⟩)] (marks 0x6f 0 c) c.length).map fun x => x.bytes c).flatten, none) := by
  have hf : beforeJob.Fits ((2 ^ 21 - 1784) / 8) :=
    ⟨⟨rfl, Or.inr (Or.inr ⟨_, _, rfl, rfl, rfl, rfl, by decide, by decide, by decide, by decide⟩)⟩, unbordered_one _, by decide, by simp [beforeJob]⟩
  obtain ⟨hs', hst⟩ := file_surroundings beforeArgs beforeJob c sched hc rfl rfl rfl rfl rfl rfl rfl rfl rfl rfl rfl rfl (by simp [beforeJob]) hf
  rw [← marks_eq]
  obtain ⟨text, N, h1, _, h2⟩ := C37_success_partial _ _ _ _ _ _ before_asks hs' (by simpa using hs) (Spec.extend [(⟨false, -1⟩, ⟨true, 0⟩)] (occurrences [0x6f] c) c.length)
    (by
      rw [hst]
      refine ⟨_, _, rfl, ⟨.refl _, extend_one_sorted _ _ _ ?_⟩, rfl⟩
      refine (occurrences_sorted _ c).imp_of_mem fun {a b} ha hb hab => ?_
      have h3 := (occurrences_mem ha).1
      have h4 := (occurrences_mem hb).1
      simp only [Seg.tail]
      omega)
  refine ⟨N, fun fuel hf => ?_⟩
  rw [show ({ host none with files := fun _ => some (c, sched), fuel := fuel } : Host) = ({ host none with files := fun _ => some (c, sched) } : Host).withFuel fuel from rfl, h2 fuel hf]
  rw [hst] at h1
  rw [show text = _ from h1]

/-- `nd -f b --find 6f --invert s..e --lines 1..3 x` -/
def fieldsArgs : Args := { inputs := ["x"], outFormat := some "b", find := some "6f", invert := some "s..e", lines := some "1..3" }

def fieldsJob : Job := { slicer := .find [0x6f], invert := some [(⟨false, 0⟩, ⟨true, 0⟩)], lines := some [(⟨false, 1⟩, ⟨false, 3⟩)], printing := .binary }

theorem fields_asks : Asks fieldsArgs fieldsJob where
  inFormat := .none
  outFormat := .b
  filler := .none
  joint := .none
  cut := .none
  pad := .none
  slicer := .find array_text
  invert := .some ⟨["s..e".toList], by simp, .cons (.mk start_side end_side) .nil, Or.inl (by decide)⟩
  extend := .none
  merge := .none
  lines := .some ⟨["1..3".toList], by simp, .cons (.mk (digit_side .first '1' (by decide)) (digit_side .last '3' (by decide))) .nil, Or.inl (by decide)⟩
  output := Or.inl rfl
  patchBack := rfl

/-- The call prints the second and the third of the pieces between the `o`. -/
example (c : Bytes) (hc : c.length < 2 ^ 48) (sched : Nat → Option Nat) (hs : ∀ i, sched i ≠ none) :
    ∃ N, ∀ fuel, N < fuel → ({ host none with files := fun _ => some (c, sched), fuel := fuel } : Host).run fieldsArgs =
      (((pick [(⟨false, 1⟩, ⟨false, 3⟩)] (invert [(⟨false, 0⟩, ⟨true, 0⟩)] (marks 0x6f 0 c) c.length)).map fun x => x.bytes c).flatten, none) := by
  have hf : fieldsJob.Fits ((2 ^ 21 - 1784) / 8) :=
    ⟨⟨rfl, Or.inr (Or.inl ⟨_, _, rfl, rfl, rfl, rfl, by decide, rfl, by decide⟩)⟩, unbordered_one _, by decide, fun _ => ⟨rfl, fun _ h => by cases h⟩⟩
  obtain ⟨hs', hst⟩ := file_surroundings fieldsArgs fieldsJob c sched hc rfl rfl rfl rfl rfl rfl rfl rfl rfl rfl rfl rfl (by simp [fieldsJob]) hf
  rw [← marks_eq]
  obtain ⟨text, N, h1, _, h2⟩ := C37_success_partial _ _ _ _ _ _ fields_asks hs' (by simpa using hs) _ (by rw [hst]; exact ⟨_, _, rfl, rfl, rfl⟩)
  refine ⟨N, fun fuel hf => ?_⟩
  rw [show ({ host none with files := fun _ => some (c, sched), fuel := fuel } : Host) = ({ host none with files := fun _ => some (c, sched) } : Host).withFuel fuel from rfl, h2 fuel hf]
  rw [hst] at h1
  rw [show text = _ from h1]
  rfl

end Nd.Props
