import Verif.Conformance.Host
import Verif.Props.Program
import Verif.Props.WalkText
/-!
# C37 for streams that are shorter than a block

`--walk`, `--guide`, `--regex`, `--invert` and `--extend`, and what `--slice` leaves of them.
-/
namespace Nd.Props
open Spec Conformance WalkSlicer

/-- Files that are read in one go. -/
def atOnce : Nat → Option Nat := fun _ => some (2 ^ 21)

/-! ## `--walk` -/

/-- `nd -f b --walk 'h[0], (b[2]&7)*2' --lines 1..3 records.bin` -/
def walkArgs : Args := { inputs := ["records.bin"], outFormat := some "b", walk := some (String.ofList recordExprs), lines := some "1..3" }

def walkJob : Job := { slicer := .walk [sizeExpr, nibbleExpr], lines := some [(⟨false, 1⟩, ⟨false, 3⟩)], printing := .binary }

def walkFile : Bytes := [3, 0, 10, 7, 7, 7, 7, 4, 0, 1, 99, 8, 8]

theorem walk_asks : Asks walkArgs walkJob where
  inFormat := .none
  outFormat := .b
  filler := .none
  joint := .none
  cut := .none
  pad := .none
  slicer := .walk (by rw [String.toList_ofList]; exact recordExprs_listed)
  invert := .none
  extend := .none
  merge := .none
  lines := .some ⟨["1..3".toList], by simp, .cons (.mk (digit_side .first '1' (by decide)) (digit_side .last '3' (by decide))) .nil, Or.inl (by decide)⟩
  output := Or.inl rfl
  patchBack := rfl

theorem walk_cuts : Walks (Lengths [sizeExpr, nibbleExpr]) 0 walkFile [⟨0, 3⟩, ⟨3, 4⟩, ⟨7, 4⟩, ⟨11, 2⟩] :=
  .cut 0 _ [3, 4] [⟨7, 4⟩, ⟨11, 2⟩] (by decide) (record_lengths _ _ _ (by decide +kernel) (by decide +kernel)) (by decide)
    (.cut 7 _ [4, 2] [] (by decide) (record_lengths _ _ _ (by decide +kernel) (by decide +kernel)) (by decide) (.nil _))

/-- The second and third slice. -/
example : ∃ N, ∀ fuel, N < fuel → (({ host none with files := fun _ => some (walkFile, atOnce) } : Host).withFuel fuel).run walkArgs = ([7, 7, 7, 7, 4, 0, 1, 99], none) := by
  have hst : walkJob.stream [walkFile] = walkFile := by decide
  have ho : walkJob.Orderly walkFile := by
    refine { slicer := ⟨by simp, ?_⟩, regex := by simp [walkJob], invert := by simp [walkJob], merge := by simp [walkJob], lines := ?_ }
    · intro e he
      simp only [List.mem_cons, List.not_mem_nil, or_false] at he
      rcases he with rfl | rfl
      · obtain ⟨h1, h2, h3, h4⟩ := sizeExpr_walkable
        exact ⟨h1, h2, h3, 4, h4⟩
      · obtain ⟨h1, h2, h3, h4⟩ := nibbleExpr_walkable
        exact ⟨h1, h2, h3, 4, h4⟩
    · intro _ raw ext hc he
      rw [walks_unique hc walk_cuts] at he
      rw [show ext = _ from he]
      unfold StrictlySorted
      decide
  have hs : Surroundings { host none with files := fun _ => some (walkFile, atOnce) } walkArgs walkJob [(walkFile, atOnce)] [walkFile] [atOnce] := by
    refine { release := rfl, inplace := rfl, block := by decide, opened := .cons rfl .nil, stdin := by decide, listed := by simp, patch := trivial,
             decodes := .cons rfl .nil, text := fun h => absurd rfl h, pad := by decide, aligned := by decide, joined := by decide, stream := by decide,
             slicer := ⟨?_, by simp [walkJob]⟩, regex := trivial, fits := Or.inr ⟨by rw [hst]; decide, by rw [hst]; exact ho⟩ }
    intro t ht
    cases ht
    rw [String.toList_ofList]
    exact record_new ()
  obtain ⟨text, N, h1, _, h2⟩ := C37_success_partial _ _ _ _ _ _ walk_asks hs (by simp [atOnce]) [⟨3, 4⟩, ⟨7, 4⟩] ⟨_, _, by rw [hst]; exact walk_cuts, rfl, by decide⟩
  refine ⟨N, fun fuel hf => ?_⟩
  rw [h2 fuel hf]
  simp only [walkJob, Printing.Prints] at h1
  rw [h1]
  decide

/-! ## `--guide`, `--extend` -/

/-- `nd -f b --guide guide.txt --extend s-1..e+2 quick.txt` -/
def guideArgs : Args := { inputs := ["quick.txt"], outFormat := some "b", guide := some "guide.txt", extend := some "s-1..e+2" }

def guideRecs : List Rec := [{ offset := 16, span := 3, data := [] }, { offset := 40, span := 3, data := [] }]

def guideJob : Job := { slicer := .guide guideRecs, extend := some [(⟨false, -1⟩, ⟨true, 2⟩)], printing := .binary }

theorem startMinus_side : Side .first "s-1".toList .first (-1) := by
  have hs : (Expr.bin .sub (.var ['s']) (digit '1')).InC := ⟨⟨'s', [], rfl, by decide, by simp⟩, digit_ok '1' (by decide), by decide, by decide⟩
  refine .linear _ _ .first (-1) (.subLeft .var (show (digit '1').Closed from trivial)) hs ?_ ?_ ?_ ?_ (by decide)
  · simp [Expr.Plain, digit, BinOp.prec]
  · simp [Expr.Calm, digit]
  · simp [Expr.Narrow, digit, Expr.isCompare]
  · exact ⟨[], _, by simp, rfl, [], _, by simp, rfl, [], [], by simp, rfl, by simp [Spaced]⟩

theorem endPlus_side : Side .last "e+2".toList .last 2 := by
  have hs : (Expr.bin .add (.var ['e']) (digit '2')).InC := ⟨⟨'e', [], rfl, by decide, by simp⟩, digit_ok '2' (by decide), by decide, by decide⟩
  refine .linear _ _ .last 2 (.addLeft .var (show (digit '2').Closed from trivial)) hs ?_ ?_ ?_ ?_ (by decide)
  · simp [Expr.Plain, digit, BinOp.prec]
  · simp [Expr.Calm, digit]
  · simp [Expr.Narrow, digit, Expr.isCompare]
  · exact ⟨[], _, by simp, rfl, [], _, by simp, rfl, [], [], by simp, rfl, by simp [Spaced]⟩

theorem start_side : Side .first "s".toList .first 0 := by
  refine .linear (.var ['s']) _ .first 0 .var ⟨'s', [], rfl, by decide, by simp⟩ trivial trivial trivial ?_ (by decide)
  exact ⟨[], [], by simp, rfl, by simp [Spaced]⟩

theorem end_side : Side .last "e".toList .last 0 := by
  refine .linear (.var ['e']) _ .last 0 .var ⟨'e', [], rfl, by decide, by simp⟩ trivial trivial trivial ?_ (by decide)
  exact ⟨[], [], by simp, rfl, by simp [Spaced]⟩

theorem guide_asks : Asks guideArgs guideJob where
  inFormat := .none
  outFormat := .b
  filler := .none
  joint := .none
  cut := .none
  pad := .none
  slicer := .guide
  invert := .none
  extend := .some ⟨["s-1..e+2".toList], by simp, .cons (.mk startMinus_side endPlus_side) .nil, Or.inl (by decide)⟩
  merge := .none
  lines := .none
  output := Or.inl rfl
  patchBack := rfl

theorem guide_records : Records .hex (bytes! "000000000010 0003\n000000000028 0003\n") guideRecs := by
  refine ⟨?_, by decide⟩
  show Reading _ [bytes! "000000000010 0003", bytes! "000000000028 0003"] _ _
  refine .good _ _ _ _ _ (.header (bytes! "000000000010") (bytes! "0003") 16 3 ?_ ?_ rfl) (.good _ _ _ _ _ (.header (bytes! "000000000028") (bytes! "0003") 40 3 ?_ ?_ rfl) .nil)
  · exact ⟨[0, 0, 0, 0, 0, 0, 0, 0, 0, 0, 1, 0], by unfold Digits; decide, by decide, by decide⟩
  · exact ⟨[0, 0, 0, 3], by unfold Digits; decide, by decide, by decide⟩
  · exact ⟨[0, 0, 0, 0, 0, 0, 0, 0, 0, 0, 2, 8], by unfold Digits; decide, by decide, by decide⟩
  · exact ⟨[0, 0, 0, 3], by unfold Digits; decide, by decide, by decide⟩

/-- `fox` and `dog` with what is around them. -/
example : ∃ N, ∀ fuel, N < fuel → ((host none).withFuel fuel).run guideArgs = (bytes! " fox j dog.\n", none) := by
  have hst : guideJob.stream [bytes! "The quick brown fox jumps over the lazy dog.\n"] = bytes! "The quick brown fox jumps over the lazy dog.\n" := by decide
  have hs : Surroundings (host none) guideArgs guideJob [(bytes! "The quick brown fox jumps over the lazy dog.\n", atOnce)] [bytes! "The quick brown fox jumps over the lazy dog.\n"] [atOnce] := by
    refine { release := rfl, inplace := rfl, block := by decide, opened := .cons rfl .nil, stdin := by decide, listed := by simp, patch := trivial,
             decodes := .cons rfl .nil, text := fun h => absurd rfl h, pad := by decide, aligned := by decide, joined := by decide, stream := by decide,
             slicer := ⟨by simp [guideArgs], ?_⟩, regex := trivial, fits := Or.inr ⟨by rw [hst]; decide, ?_⟩ }
    · intro recs file h1 h2
      cases h1
      cases h2
      refine ⟨_, atOnce, rfl, by simp, guide_records, ?_⟩
      show ∀ l ∈ [bytes! "000000000010 0003", bytes! "000000000028 0003"], _
      decide
    · rw [hst]
      exact { slicer := ⟨by unfold Sorted; decide, by decide⟩, regex := by simp [guideJob], invert := by simp [guideJob], merge := by simp [guideJob], lines := by simp [guideJob] }
  obtain ⟨text, N, h1, _, h2⟩ := C37_success_partial _ _ _ _ _ _ guide_asks hs (by simp [atOnce]) [⟨15, 6⟩, ⟨39, 6⟩]
    ⟨_, [⟨15, 6⟩, ⟨39, 6⟩], rfl, ⟨by decide, by simp [Seg.tail]⟩, by decide⟩
  refine ⟨N, fun fuel hf => ?_⟩
  rw [h2 fuel hf]
  simp only [guideJob, Printing.Prints] at h1
  rw [h1]
  decide

/-! ## `--regex`, `--invert`, `--merge` -/

/-- `nd -f b --width 9 --regex '[fd]o[xg]' --invert s..e --merge 1 quick.txt` -/
def regexArgs : Args := { inputs := ["quick.txt"], outFormat := some "b", width := some "9", regex := some "[fd]o[xg]", invert := some "s..e", merge := some "1" }

def regexJob : Job :=
  { slicer := .width 9 (⟨false, 0⟩, ⟨true, 0⟩), regex := some fdox, invert := some [(⟨false, 0⟩, ⟨true, 0⟩)], merge := some 1, printing := .binary }

theorem fdox_searcher : Searcher fdox where
  within l m hm := by
    simp only [fdox, List.mem_filterMap, List.mem_range] at hm
    obtain ⟨i, _, hi⟩ := hm
    split at hi
    · rename_i h
      cases hi
      have : ((l.drop i).take 3).length = 3 := by rcases h with h | h <;> rw [h] <;> rfl
      simp only [List.length_take, List.length_drop] at this
      simp only [Seg.tail]
      omega
    · cases hi
  ascending l := by
    unfold fdox
    rw [List.pairwise_filterMap]
    refine (List.pairwise_lt_range (n := l.length)).imp fun {i k} h x hx y hy => ?_
    split at hx <;> split at hy <;> cases hx <;> cases hy
    simp only
    omega

theorem regex_asks : Asks regexArgs regexJob where
  inFormat := .none
  outFormat := .b
  filler := .none
  joint := .none
  cut := .none
  pad := .none
  slicer := .width (.plain (digit_numeral '9' (by decide)))
  invert := .some ⟨["s..e".toList], by simp, .cons (.mk start_side end_side) .nil, Or.inl (by decide)⟩
  extend := .none
  merge := .some (digit_numeral '1' (by decide))
  lines := .none
  output := Or.inl rfl
  patchBack := rfl

/-- All but `dog`; `fox` is in two slices and is not found. -/
example : ∃ N, ∀ fuel, N < fuel → ((host none).withFuel fuel).run regexArgs = (bytes! "The quick brown fox jumps over the lazy .\n", none) := by
  have hst : regexJob.stream [bytes! "The quick brown fox jumps over the lazy dog.\n"] = bytes! "The quick brown fox jumps over the lazy dog.\n" := by decide
  have hs : Surroundings (host none) regexArgs regexJob [(bytes! "The quick brown fox jumps over the lazy dog.\n", atOnce)] [bytes! "The quick brown fox jumps over the lazy dog.\n"] [atOnce] := by
    refine { release := rfl, inplace := rfl, block := by decide, opened := .cons rfl .nil, stdin := by decide, listed := by simp, patch := trivial,
             decodes := .cons rfl .nil, text := fun h => absurd rfl h, pad := by decide, aligned := by decide, joined := by decide, stream := by decide,
             slicer := ⟨by simp [regexArgs], by simp [regexJob]⟩, regex := rfl, fits := Or.inr ⟨by rw [hst]; decide, ?_⟩ }
    rw [hst]
    refine { slicer := ⟨by decide, by decide, by decide, by decide⟩, regex := ?_, invert := by simp [regexJob], merge := ?_, lines := by simp [regexJob] }
    · rintro _ ⟨⟩
      refine ⟨fdox_searcher, fun raw hr => ?_⟩
      rw [show raw = _ from hr]
      unfold Sorted
      decide +kernel
    · intro _ raw ext hr he
      rw [show ext = _ from he, show raw = _ from hr]
      unfold Sorted
      decide +kernel
  obtain ⟨text, N, h1, _, h2⟩ := C37_success_partial _ _ _ _ _ _ regex_asks hs (by simp [atOnce]) [⟨0, 40⟩, ⟨43, 2⟩]
    ⟨_, _, rfl, rfl, by decide +kernel⟩
  refine ⟨N, fun fuel hf => ?_⟩
  rw [h2 fuel hf]
  simp only [regexJob, Printing.Prints] at h1
  rw [h1]
  decide

/-! ## What `--slice` leaves of `--invert` and `--extend` -/

/-- `nd -f b --slice SLICES --invert INVERT --extend EXTEND quick.txt` -/
def sliceArgs (slices : String) (invert extend : Option String) : Args := { inputs := ["quick.txt"], outFormat := some "b", slice := some slices, invert := invert, extend := extend }

/-- The slices that the options ask for. -/
def sliceJob (slices : List (RangeEnd × RangeEnd)) (invert extend : Option (List (RangeEnd × RangeEnd))) : Job :=
  { slicer := .slice slices, invert := invert, extend := extend, printing := .binary }

theorem slice_slices (s e : Nat) (h : s < e) (len : Nat) (hl : e ≤ len) : IsSlices [(⟨false, (s : Int)⟩, ⟨false, (e : Int)⟩)] len [⟨s, e - s⟩] := by
  constructor
  · simp [StrictlySorted]
  · intro x
    obtain ⟨p, l⟩ := x
    simp only [List.mem_singleton, Seg.mk.injEq, Seg.tail, RangeEnd.at, exists_eq_left, Bool.false_eq_true, if_false]
    omega

/-- **Counterexample**: the slicer of `--slice` calls the end of its last slice the end of the stream.  `--slice 3..9 --invert s..e` prints what is before the slice
but not what is after it, unless another range is beyond the end of the file; `--slice 4..9 --extend s..e+2` does not extend the slice. -/
theorem C37_slice_invert_counterexample :
    (host none).run (sliceArgs "3..9" (some "s..e") none) = (bytes! "The", none) ∧
    (sliceJob [(⟨false, 3⟩, ⟨false, 9⟩)] (some [(⟨false, 0⟩, ⟨true, 0⟩)]) none).Slices (bytes! "The quick brown fox jumps over the lazy dog.\n") [⟨0, 3⟩, ⟨9, 36⟩] ∧
    (host none).run (sliceArgs "3..9,100..200" (some "s..e") none) = (bytes! "The brown fox jumps over the lazy dog.\n", none) ∧
    (host none).run (sliceArgs "4..9" none (some "s..e+2")) = (bytes! "quick", none) ∧
    (sliceJob [(⟨false, 4⟩, ⟨false, 9⟩)] none (some [(⟨false, 0⟩, ⟨true, 2⟩)])).Slices (bytes! "The quick brown fox jumps over the lazy dog.\n") [⟨4, 7⟩] := by
  refine ⟨by decide +kernel, ⟨_, _, slice_slices 3 9 (by decide) _ (by decide), rfl, by decide⟩, by decide +kernel, by decide +kernel,
    ⟨_, [⟨4, 7⟩], slice_slices 4 9 (by decide) _ (by decide), ⟨by decide, by simp⟩, by decide⟩⟩

/-! ## Text with a word size -/

/-- `nd -f x --cat 4 -F b a` -/
def wordArgs : Args := { inputs := ["a"], inFormat := some "x", outFormat := some "b", cat := some "4" }

def wordJob : Job := { coding := .located .hex, joint := .cat 4, printing := .binary }

/-- A host with a single file. -/
def wordHost (text : Bytes) : Host := { host none with files := fun n => if n = "a" then some (text, atOnce) else none }

theorem word_asks : Asks wordArgs wordJob where
  inFormat := .x
  outFormat := .b
  filler := .none
  joint := .cat (digit_numeral '4' (by decide)) (by decide)
  cut := .none
  pad := .none
  slicer := .none
  invert := .none
  extend := .none
  merge := .none
  lines := .none
  output := Or.inl rfl
  patchBack := rfl

theorem word_line (o : Bytes) (ho : FieldText .hex o 0) : Line StrictColumns .hex .hex (o ++ bytes! " 3 | 41 42 43") ⟨0, 3, bytes! "ABC"⟩ := by
  refine .array o (bytes! "3") (bytes! "41 42 43") [] 0 3 (bytes! "ABC") ho ⟨[3], by unfold Digits; decide, by decide, by decide⟩ ?_ (by decide) (Or.inl rfl)
  exact .col 52 49 4 1 (bytes! "42 43") (bytes! "BC") rfl rfl (.col 52 50 4 2 (bytes! "43") (bytes! "C") rfl rfl (.last 52 51 4 3 rfl rfl))

theorem word_decodes (o : Bytes) (ho : FieldText .hex o 0) (text : Bytes) (ht : Spec.lines text = [o ++ bytes! " 3 | 41 42 43"]) : wordJob.coding.Decodes wordJob.filler text (bytes! "ABC") := by
  refine ⟨[⟨0, 3, bytes! "ABC"⟩], ⟨?_, by decide⟩, by decide, by decide⟩
  rw [ht]
  exact .good _ _ _ _ _ (word_line o ho) .nil

/-- A text of 16 bytes; the bytes that it stands for are padded to a multiple of 4. -/
example : ∃ N, ∀ fuel, N < fuel → ((wordHost (bytes! "00 3 | 41 42 43\n")).withFuel fuel).run wordArgs = ([65, 66, 67, 0], none) := by
  have hst : wordJob.stream [bytes! "ABC"] = [65, 66, 67, 0] := by decide
  have hs : Surroundings (wordHost (bytes! "00 3 | 41 42 43\n")) wordArgs wordJob [(bytes! "00 3 | 41 42 43\n", atOnce)] [bytes! "ABC"] [atOnce] := by
    refine { release := rfl, inplace := rfl, block := by decide, opened := .cons rfl .nil, stdin := by decide, listed := by simp, patch := trivial,
             decodes := .cons (word_decodes (bytes! "00") ⟨[0, 0], by unfold Digits; decide, by decide, by decide⟩ _ rfl) .nil, text := fun _ => ?_, pad := by decide,
             aligned := by decide, joined := by decide, stream := by decide,
             slicer := ⟨by simp [wordArgs], by simp [wordJob]⟩, regex := trivial, fits := Or.inl (Or.inl ?_) }
    · intro f hf
      rw [List.mem_singleton.1 hf]
      refine ⟨by decide, ?_⟩
      show ∀ l ∈ [bytes! "00 3 | 41 42 43"], _
      decide
    · simp [Job.Fits, Job.Near, wordJob, RangeEnd.at, wordHost, host]
  obtain ⟨text, N, h1, _, h2⟩ := C37_success_partial _ _ _ _ _ _ word_asks hs (by simp [atOnce]) [⟨0, 4⟩] ⟨_, _, rfl, rfl, by decide⟩
  refine ⟨N, fun fuel hf => ?_⟩
  rw [h2 fuel hf]
  simp only [wordJob, Printing.Prints] at h1
  rw [h1]
  decide

/-- **Counterexample**: with `--cat N` or `--zip N` the text itself is padded to a multiple of `N`, with bytes that are then read as another line.  `nd -f x --cat 4` fails on a documented
text of 15 bytes, with any filler but a few; with `--cat 1` it prints what the text stands for. -/
theorem C37_text_word_counterexample :
    wordJob.coding.Decodes wordJob.filler (bytes! "0 3 | 41 42 43\n") (bytes! "ABC") ∧
    (wordHost (bytes! "0 3 | 41 42 43\n")).run wordArgs = ([], some .parse) ∧
    (wordHost (bytes! "0 3 | 41 42 43\n")).run { wordArgs with cat := none, zip := some "4" } = ([], some .parse) ∧
    (wordHost (bytes! "0 3 | 41 42 43\n")).run { wordArgs with cat := none } = (bytes! "ABC", none) := by
  refine ⟨word_decodes (bytes! "0") ⟨[0], by unfold Digits; decide, by decide, by decide⟩ _ rfl, ?_, ?_, ?_⟩ <;> decide +kernel

end Nd.Props
