import Verif.Props.ProgramSmall
/-!
# C37, --width with slices of any size
-/
namespace Nd.Props
open Nd Nd.Spec Conformance

/-- The pieces of `n` bytes, with their offsets. -/
def pieces (n : Nat) (content : Bytes) : List Rec :=
  (List.range ((content.length + n - 1) / n)).map fun i => { offset := i * n, span := min n (content.length - i * n), data := (content.drop (i * n)).take n }

/-- `nd --width N FILE` -/
def piecesArgs (name t : String) : Args := { inputs := [name], width := some t }

def piecesJob (n : Nat) : Job := { slicer := .width n (⟨false, 0⟩, ⟨true, 0⟩) }

theorem pieces_asks (name t : String) (n : Nat) (ht : Numeral t.toList n) : Asks (piecesArgs name t) (piecesJob n) where
  inFormat := .none
  outFormat := .none
  filler := .none
  joint := .none
  cut := .none
  pad := .none
  slicer := .width (.plain ht)
  invert := .none
  extend := .none
  merge := .none
  lines := .none
  output := Or.inl rfl
  patchBack := rfl

theorem pieces_surroundings (h : Host) (name t : String) (n : Nat) (hn : 0 < n) (content : Bytes) (s : Nat → Option Nat) (hc : h.checks = false) (hB : 0 < h.block)
    (hf : h.files name = some (content, s)) (hl : content.length < 2 ^ 48) :
    (piecesJob n).stream [content] = content ∧ Surroundings h (piecesArgs name t) (piecesJob n) [(content, s)] [content] [s] := by
  have hst : (piecesJob n).stream [content] = content := by
    simp [piecesJob, Job.stream, Job.filtered, Joint.join, Spec.cat, Spec.pad, alignTo_one]
  refine ⟨hst, ?_⟩
  refine { release := hc, inplace := rfl, block := hB, opened := .cons hf .nil, stdin := ?_, listed := by simp, patch := trivial,
           decodes := .cons rfl .nil, text := fun h => absurd rfl h, pad := ⟨Nat.zero_le _, Nat.zero_le _⟩, aligned := ?_, joined := ?_, stream := by rw [hst]; exact hl,
           slicer := ⟨by simp [piecesArgs], by simp [piecesJob]⟩, regex := trivial,
           fits := Or.inl (Or.inr (Or.inr (Or.inr ⟨n, _, rfl, ⟨rfl, rfl, rfl, rfl, rfl⟩, hn, ?_⟩))) }
  · simpa [piecesJob, Joint.word, alignTo_one] using hl
  · simpa [piecesJob, Joint.join, Spec.cat, alignTo_one] using hl
  · simp only [RangeEnd.at, if_true, Bool.false_eq_true, if_false]
    omega
  · refine Nat.le_trans (List.length_filter_le _ _) ?_
    simp [inputsOf, piecesArgs]

/-- **C37**: `nd --width N FILE` prints the pieces of `N` bytes of the file, for every `N > 0`, also one that is larger than the blocks, and every file. -/
theorem C37_pieces (h : Host) (name t : String) (n : Nat) (ht : Numeral t.toList n) (hn : 0 < n) (content : Bytes) (s : Nat → Option Nat) (hc : h.checks = false) (hB : 0 < h.block)
    (hf : h.files name = some (content, s)) (hs : ∀ i, s i ≠ none) (hl : content.length < 2 ^ 48) :
    ∃ text N, (∀ fuel, N < fuel → (h.withFuel fuel).run (piecesArgs name t) = (text, none)) ∧ Records .hex text (pieces n content) := by
  obtain ⟨hst, hsu⟩ := pieces_surroundings h name t n hn content s hc hB hf hl
  obtain ⟨text, N, h1, _, h2⟩ := C37_success_partial _ _ _ _ _ _ (pieces_asks name t n ht) hsu (by simpa using hs) (strides content.length n 0 n)
    (by rw [hst]; exact ⟨_, _, show strides _ _ _ _ = strides _ _ _ _ by simp [RangeEnd.at], rfl, rfl⟩)
  refine ⟨text, N, h2, ?_⟩
  have h1 : Records .hex text _ := h1
  rw [hst, strides_tile _ _ hn, List.map_map] at h1
  refine cast (congrArg (Records .hex text) (List.map_congr_left fun i _ => ?_)) h1
  simp only [Function.comp, Seg.bytes]
  congr 1
  rw [← List.length_drop, List.take_eq_take_iff]
  omega

/-- Three million. -/
theorem numeral_3M : Numeral "3M".toList 3000000 := by
  refine ⟨.num ⟨.plain, [['3']], .times 2 true false⟩, ⟨⟨by simp, by simp⟩, ?_, ?_, by simp, ?_⟩, by simp [Expr.Plain], by simp [Expr.Calm], by simp [Expr.Narrow], by decide, ?_⟩
  · intro x hx
    simp only [List.flatten_cons, List.flatten_nil, List.append_nil, List.mem_singleton] at hx
    subst hx
    exact ⟨3, by decide, by decide⟩
  · intro _ x hx
    cases hx
    decide
  · intro n u b h
    cases h
    decide
  · exact ⟨[], [], by simp, by decide, by simp [Spaced]⟩

/-- Pieces of three million bytes, with blocks of 2^21 bytes. -/
example (content : Bytes) (s : Nat → Option Nat) (hs : ∀ i, s i ≠ none) (hl : content.length < 2 ^ 48) :
    ∃ text N, (∀ fuel, N < fuel → ({ host none with files := fun _ => some (content, s), fuel := fuel } : Host).run (piecesArgs "FILE" "3M") = (text, none)) ∧
      Records .hex text (pieces 3000000 content) :=
  C37_pieces { host none with files := fun _ => some (content, s) } "FILE" "3M" 3000000 numeral_3M (by decide) content s rfl (show 0 < 2 ^ 21 by decide) rfl hs hl

/-- A file of `k` bytes, read in blocks of 64 bytes without short reads. -/
def inBlocks (k : Nat) : Host := { host none with block := 64, files := fun _ => some ((List.range k).map UInt8.ofNat, fun _ => some 64) }

/-- **Counterexample** (see `C29_full_reads_counterexample`): slices with gaps on a regular file of several blocks, where the block is not a multiple of their distance.  `nd --width 3,0..1`
aborts on a file of six blocks; of a file of 600 bytes it prints only 193 of the 200 slices, without an error.  Slices without gaps, or at a distance that divides the block, are printed. -/
theorem C37_gaps_counterexample :
    ((inBlocks 384).run { inputs := ["FILE"], width := some "3,0..1", outFormat := some "b" }).2 = some .panic ∧
    ((inBlocks 600).run { inputs := ["FILE"], width := some "3,0..1", outFormat := some "b" }).2 = none ∧
    ((inBlocks 600).run { inputs := ["FILE"], width := some "3,0..1", outFormat := some "b" }).1.length = 193 ∧ (strides 600 3 0 1).length = 200 ∧
    (inBlocks 600).run { inputs := ["FILE"], width := some "4,0..1", outFormat := some "b" } = ((List.range 150).map fun i => UInt8.ofNat (4 * i), none) ∧
    (inBlocks 600).run { inputs := ["FILE"], width := some "3,0..3", outFormat := some "b" } = ((List.range 600).map UInt8.ofNat, none) := by
  decide +kernel

end Nd.Props
