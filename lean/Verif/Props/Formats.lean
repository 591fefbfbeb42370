import Verif.Conformance.Host
import Verif.Props.OptionText
import Verif.Spec.Record
/-!
# C38, C39: format signatures and the standard input
-/
namespace Nd.Props
open Nd Nd.Spec Nd.WalkSlicer

theorem splitComma_intercalate : ∀ l : List Char, [','].intercalate (splitComma l) = l
  | [] => rfl
  | c :: cs => by
    have ih := splitComma_intercalate cs
    unfold splitComma
    split
    · rename_i h
      subst h
      cases hs : splitComma cs with
      | nil => exact absurd hs (splitComma_ne_nil cs)
      | cons x xs =>
        rw [hs] at ih
        simp only [List.intercalate, List.intersperse_cons_cons, List.flatten_cons, List.nil_append, List.singleton_append] at ih ⊢
        rw [ih]
    · cases hs : splitComma cs with
      | nil => exact absurd hs (splitComma_ne_nil cs)
      | cons x xs =>
        rw [hs] at ih
        cases xs with
        | nil =>
          simp only [List.intercalate, List.intersperse_singleton, List.flatten_cons, List.flatten_nil, List.append_nil] at ih ⊢
          rw [ih]
        | cons y ys =>
          simp only [List.intercalate, List.intersperse_cons_cons, List.flatten_cons, List.cons_append] at ih ⊢
          rw [ih]

/-- The signatures of the formats that can be written. -/
def writable : List String := ["b", "nnb", "n,n,b", "x", "xxx", "x,x", "x,x,x", "d", "ddx", "d,d", "d,d,x", "nnx", "n,n", "n,n,x"]

/-- A column of a signature is one letter, or an operator with something after it. -/
theorem column_cases {s : List Char} {c : ColumnFormat} (h : ColumnFormat.fromStr s = .ok c) :
    (s = ['n'] ∧ c = .none) ∨ (s = ['b'] ∧ c = .binary) ∨ (s = ['d'] ∧ c = .decimal) ∨ (s = ['x'] ∧ c = .hexadecimal) ∨ c = .struct s := by
  unfold ColumnFormat.fromStr at h
  split at h
  · cases h
  · cases h; simp
  · cases h; simp
  · cases h; simp
  · cases h; simp
  · split at h
    · cases h; simp
    · cases h
  · cases h

theorem new_ok {o s b : List Char} {cols : Nat} {f : InoutFormat} (h : InoutFormat.new o s b cols = .ok f) :
    ColumnFormat.fromStr o = .ok f.offset ∧ ColumnFormat.fromStr s = .ok f.span ∧ ColumnFormat.fromStr b = .ok f.body ∧ f.cols = cols := by
  unfold InoutFormat.new at h
  cases h1 : ColumnFormat.fromStr o with
  | error e => rw [h1] at h; cases h
  | ok x =>
    cases h2 : ColumnFormat.fromStr s with
    | error e => rw [h1, h2] at h; cases h
    | ok y =>
      cases h3 : ColumnFormat.fromStr b with
      | error e => rw [h1, h2, h3] at h; cases h
      | ok z =>
        rw [h1, h2, h3] at h
        cases h
        exact ⟨rfl, rfl, rfl, rfl⟩

/-- **C38**: an accepted `--out-format` can be written if and only if it is one of fourteen signatures; all others end the program with a panic. -/
theorem C38_writable (sig : String) (f : InoutFormat) (h : InoutFormat.fromStr sig.toList = .ok f) : (∃ k, f.formatting = .ok k) ↔ sig ∈ writable := by
  constructor
  · rintro ⟨k, hk⟩
    have key : ∀ l : List Char, InoutFormat.fromStr l = .ok f → l ∈ writable.map String.toList := by
      intro l h
      unfold InoutFormat.fromStr InoutFormat.fromStrWithColumns at h
      split at h
      · cases h
      split at h
      · rename_i h1
        rcases h1 with rfl | rfl <;> decide
      split at h
      · rename_i h1
        rcases h1 with rfl | rfl <;> decide
      split at h
      · rename_i h1
        rcases h1 with rfl | rfl <;> decide
      split at h
      · rename_i h1
        subst h1
        decide
      simp only at h
      split at h
      · cases h
      have hl := splitComma_intercalate l
      have hne := splitComma_ne_nil l
      obtain ⟨h1, h2, h3, _⟩ := new_ok h
      have hcol : f.isBinary = true ∨ (f.offset = .hexadecimal ∧ f.span = .hexadecimal ∧ f.body = .hexadecimal) ∨ (f.offset = .none ∧ f.span = .none ∧ f.body = .hexadecimal) ∨
          (f.offset = .decimal ∧ f.span = .decimal ∧ f.body = .hexadecimal) := by
        unfold InoutFormat.formatting at hk
        split at hk
        · exact Or.inl ‹_›
        · split at hk
          · exact Or.inr (Or.inl ⟨‹_›, ‹_›, ‹_›⟩)
          · exact Or.inr (Or.inr (Or.inl ⟨‹_›, ‹_›, ‹_›⟩))
          · exact Or.inr (Or.inr (Or.inr ⟨‹_›, ‹_›, ‹_›⟩))
          · cases hk
      have hcol : (f.offset = .none ∧ f.span = .none ∧ f.body = .binary) ∨ (f.offset = .hexadecimal ∧ f.span = .hexadecimal ∧ f.body = .hexadecimal) ∨
          (f.offset = .none ∧ f.span = .none ∧ f.body = .hexadecimal) ∨ (f.offset = .decimal ∧ f.span = .decimal ∧ f.body = .hexadecimal) := by
        rcases hcol with h | h
        · left
          simpa [InoutFormat.isBinary, InoutFormat.isGapless, and_assoc] using h
        · exact Or.inr h
      have inv : ∀ {s : List Char} {c : ColumnFormat}, ColumnFormat.fromStr s = .ok c → (c = .none → s = ['n']) ∧ (c = .binary → s = ['b']) ∧ (c = .decimal → s = ['d']) ∧
          (c = .hexadecimal → s = ['x']) := by
        intro s c hc
        rcases column_cases hc with ⟨rfl, rfl⟩ | ⟨rfl, rfl⟩ | ⟨rfl, rfl⟩ | ⟨rfl, rfl⟩ | rfl <;> simp
      generalize hg : splitComma l = parts at *
      rcases hcol with ⟨c1, c2, c3⟩ | ⟨c1, c2, c3⟩ | ⟨c1, c2, c3⟩ | ⟨c1, c2, c3⟩
      · have e1 := (inv h1).1 c1
        have e2 := (inv h2).1 c2
        have e3 := (inv h3).2.1 c3
        match parts, hne with
        | [_], _ => simp at e2
        | [_, _], _ => simp at e3
        | [_, _, _], _ =>
          simp at e1 e2 e3
          subst e1 e2 e3 hl
          decide
        | _ :: _ :: _ :: _ :: _, _ => simp at *
      · have e1 := (inv h1).2.2.2 c1
        have e2 := (inv h2).2.2.2 c2
        have e3 := (inv h3).2.2.2 c3
        match parts, hne with
        | [_], _ =>
          simp at e1
          subst e1 hl
          decide
        | [_, _], _ =>
          simp at e1 e2
          subst e1 e2 hl
          decide
        | [_, _, _], _ =>
          simp at e1 e2 e3
          subst e1 e2 e3 hl
          decide
        | _ :: _ :: _ :: _ :: _, _ => simp at *
      · have e1 := (inv h1).1 c1
        have e2 := (inv h2).1 c2
        have e3 := (inv h3).2.2.2 c3
        match parts, hne with
        | [_], _ => simp at e2
        | [_, _], _ =>
          simp at e1 e2
          subst e1 e2 hl
          decide
        | [_, _, _], _ =>
          simp at e1 e2 e3
          subst e1 e2 e3 hl
          decide
        | _ :: _ :: _ :: _ :: _, _ => simp at *
      · have e1 := (inv h1).2.2.1 c1
        have e2 := (inv h2).2.2.1 c2
        have e3 := (inv h3).2.2.2 c3
        match parts, hne with
        | [_], _ => simp at e2
        | [_, _], _ =>
          simp at e1 e2
          subst e1 e2 hl
          decide
        | [_, _, _], _ =>
          simp at e1 e2 e3
          subst e1 e2 e3 hl
          decide
        | _ :: _ :: _ :: _ :: _, _ => simp at *
    obtain ⟨s, hs, he⟩ := List.mem_map.1 (key _ h)
    rw [← String.toList_inj.1 he]
    exact hs
  · intro hs
    have : ∀ s ∈ writable, ∃ k, ((InoutFormat.fromStr s.toList).bind InoutFormat.formatting) = .ok k := by
      intro s hs
      simp only [writable, List.mem_cons, List.not_mem_nil, or_false] at hs
      rcases hs with rfl | rfl | rfl | rfl | rfl | rfl | rfl | rfl | rfl | rfl | rfl | rfl | rfl | rfl <;> exact ⟨_, rfl⟩
    obtain ⟨k, hk⟩ := this sig hs
    rw [h] at hk
    exact ⟨k, hk⟩

example : (InoutFormat.fromStr "d,d".toList).toOption = some ⟨.decimal, .decimal, .hexadecimal, 16⟩ ∧ "d,d" ∈ writable := by decide

/-- Signatures like `n`, `b,b` and `@xx` are accepted, but cannot be written or read: the program panics after the options have been parsed. -/
theorem C38_panic_counterexample : ∀ s ∈ ["n", "b,b", "d,x", "@xx", "x,x,b"], ∃ f, InoutFormat.fromStr s.toList = .ok f ∧ f.formatting = .error .panic := by
  intro s hs
  simp only [List.mem_cons, List.not_mem_nil, or_false] at hs
  rcases hs with rfl | rfl | rfl | rfl | rfl <;> exact ⟨_, rfl, rfl⟩

theorem C38_panic_input_counterexample : ∀ s ∈ ["x,x,b", "b,x", "@xx", "x,b,x"], ∃ f, InoutFormat.fromStr s.toList = .ok f ∧ f.isBinary = false ∧ f.fields = .error .panic := by
  intro s hs
  simp only [List.mem_cons, List.not_mem_nil, or_false] at hs
  rcases hs with rfl | rfl | rfl | rfl <;> exact ⟨_, rfl, rfl, rfl⟩

/-- An empty column is not an error, it is a panic. -/
theorem C38_empty_counterexample : InoutFormat.fromStr "x,,x".toList = .error .panic := by decide

/-- **C38**: the documented formats.  `x` and `d` are written and read with the headers in hexadecimal and decimal; `b` is neither formatted nor parsed; the arrays
of `nnx` are read without looking at the headers. -/
theorem C38_documented :
    (∃ f, InoutFormat.fromStr "x".toList = .ok f ∧ f.isGapless = false ∧ f.fields = .ok (.hex, .hex) ∧ ∃ k, f.formatting = .ok k ∧ k.style = .hhh) ∧
    (∃ f, InoutFormat.fromStr "d".toList = .ok f ∧ f.isGapless = false ∧ f.fields = .ok (.dec, .dec) ∧ ∃ k, f.formatting = .ok k ∧ k.style = .ddh) ∧
    (∃ f, InoutFormat.fromStr "b".toList = .ok f ∧ f.isBinary = true ∧ ∃ k, f.formatting = .ok k ∧ k.style = .binary) ∧
    (∃ f, InoutFormat.fromStr "nnx".toList = .ok f ∧ f.isBinary = false ∧ f.isGapless = true ∧ f.fields = .ok (.hex, .hex)) :=
  ⟨⟨_, rfl, rfl, rfl, _, rfl, rfl⟩, ⟨_, rfl, rfl, rfl, _, rfl, rfl⟩, ⟨_, rfl, rfl, _, rfl, rfl⟩, ⟨_, rfl, rfl, rfl, rfl⟩⟩

/-- **C38**: a format that is given by its columns is read if the offset and the length are `n`, `d` or `x` and the array is `n` or `x`.  The first column says how the offset
is read, the second one how the length is read.  An array that is not mentioned is `x`. -/
theorem C38_read : ∀ o ∈ ['n', 'd', 'x'], ∀ s ∈ ['n', 'd', 'x'], ∀ sig ∈ [[o, ',', s], [o, ',', s, ',', 'x'], [o, ',', s, ',', 'n']],
    ((InoutFormat.fromStr sig).bind InoutFormat.fields).toOption = some (if o = 'd' then .dec else .hex, if s = 'd' then .dec else .hex) := by decide

open Conformance in
/-- The offset `10` is read as a decimal number, the length `0b` as a hexadecimal one. -/
example : ({ host none with files := fun _ => some (bytes! "10 0b | 61 62 63 64 65 66 67 68 69 6a 6b\n", fun _ => some 100) } : Host).run
    { inputs := ["data"], inFormat := some "d,x", outFormat := some "b" } = (List.replicate 10 0 ++ bytes! "abcdefghijk", none) := by decide +kernel

/-- `nnx` is written with headers, as if it were `xxx` (marked FIXME in `test.md`). -/
theorem C38_nnx_counterexample : (InoutFormat.fromStr "nnx".toList).toOption.map InoutFormat.formatting = (InoutFormat.fromStr "xxx".toList).toOption.map InoutFormat.formatting := by rfl

/-- The explicit format `x` pads the lines to 16 columns, the default one to the width of the slices. -/
theorem C38_columns_counterexample : (InoutFormat.fromStr "x".toList).toOption.map InoutFormat.cols = some 16 ∧ (Host.defaultFormat "xxx" 4).cols = 4 := by decide

/-! ## The standard input -/

/-- The names that a call reads. -/
def readNames (a : Args) : List String := (if a.inputs = [] then ["-"] else a.inputs) ++ a.patch.toList ++ a.guide.toList

/-- **C39**: a call with input files is not accepted if it reads the standard input twice. -/
theorem C39_stdin_partial (h : Host) (a : Args) (hin : a.inputs ≠ []) (p : Pipeline InoutFormat) (hp : h.prepare a = .ok p) :
    ((readNames a).filter fun x => x = "-" ∨ x = "/dev/stdin").length ≤ 1 := by
  unfold Host.prepare at hp
  split at hp
  · cases hp
  · split at hp
    · cases hp
    · rename_i hc
      unfold readNames
      rw [if_neg hin]
      have : ∀ l : List String, l.countP Args.isStdin = (l.filter fun x => x = "-" ∨ x = "/dev/stdin").length := by
        intro l
        rw [List.countP_eq_length_filter]
        congr 1
        refine List.filter_congr fun x _ => ?_
        rw [Bool.eq_iff_iff]
        simp [Args.isStdin]
      rw [← this, List.append_assoc, List.countP_append]
      unfold Args.countStdin Args.countStdinOfOptions at hc
      omega

/-- Without input files, the standard input is read for the stream; it can be given again for the patch. -/
theorem C39_stdin_counterexample : ((Conformance.host none).prepare { patch := some "-" }).toOption.isSome = true ∧
    ((readNames { patch := some "-" }).filter fun x => x = "-" ∨ x = "/dev/stdin").length = 2 := by decide +kernel

example : ((Conformance.host none).prepare { inputs := ["-"], patch := some "patch.txt" }).toOption.isSome = true ∧
    ((Conformance.host none).prepare { inputs := ["-"], patch := some "-" }).toOption.isSome = false := by decide +kernel

/-- **C39**: with `--inplace` the standard input is not accepted as an input: nothing is written and the call fails. -/
theorem C39_inplace (h : Host) (split : Bytes → List Bytes) (sched : String → Nat → Option Nat) (rest : String → Bytes × (Nat → Option Nat)) (a : Args) (disk : Disk) (f : String)
    (hf : f ∈ a.inputs) (hs : f = "-" ∨ f = "/dev/stdin") :
    h.runInplace split sched rest a disk = ([], false) := by
  unfold Host.runInplace Host.runInplaceWith
  split
  · rfl
  · have : 0 < a.countStdin := List.countP_pos_iff.2 ⟨f, hf, by rcases hs with rfl | rfl <;> decide⟩
    rw [if_pos this]

open Conformance in
example : ((host none).prepare { inputs := ["-"], inplace := true }).toOption.isSome = true := by decide +kernel

/-! ## `--out-format` and `--patch-back` -/

/-- A command that prints what it receives if it receives the records in decimal. -/
def decimalOnly (b : Bytes) : Bytes := if b.take 4 = [48, 32, 54, 32] then [48, 32, 49, 32, 124, 32, 54, 56, 10] else []

open Conformance in
/-- `--out-format d` is ignored by `--patch-back`: the command receives hexadecimal records. -/
theorem C31_out_format_counterexample :
    let h : Host := { host none with commands := fun _ b => (decimalOnly b, fun _ => some 100) }
    h.run { inputs := ["hello.txt"], outFormat := some "d" } = (bytes! "0 6 | 48 65 6c 6c 6f 0a                               | Hello.          \n", none) ∧
    decimalOnly (bytes! "0 6 | 48 65 6c 6c 6f 0a                               | Hello.          \n") ≠ [] ∧
    h.run { inputs := ["hello.txt"], outFormat := some "d", patchBack := some "filter" } = (bytes! "Hello\n", none) := by decide +kernel

/-! ## `/dev/zero` patched with the input -/

/-- Where the last record ends. -/
def lastEnd : Nat → List Rec → Nat
  | p, [] => p
  | _, r :: rs => lastEnd (r.offset + r.span) rs

theorem lastEnd_le : ∀ (recs : List Rec) (p : Nat), Ordered p recs → p ≤ lastEnd p recs
  | [], _, _ => Nat.le_refl _
  | r :: rs, p, ⟨h1, h2⟩ => by
    have := lastEnd_le rs _ h2
    simp only [lastEnd]
    omega

theorem splice_zeros (filler : Byte) : ∀ (recs : List Rec) (p n : Nat), Ordered p recs → lastEnd p recs < p + n →
    splice p (List.replicate n filler) recs = place filler p recs ++ List.replicate (p + n - lastEnd p recs) filler
  | [], p, n, _, _ => by simp [splice, place, lastEnd]
  | r :: rs, p, n, ⟨h1, h2⟩, hl => by
    have hle := lastEnd_le rs _ h2
    simp only [lastEnd] at hl
    simp only [splice, place, lastEnd, List.length_replicate]
    rw [if_pos (by omega), List.take_replicate, List.drop_replicate, splice_zeros filler rs _ _ h2 (by omega)]
    simp only [List.append_assoc]
    congr 2
    · omega
    · congr 3
      omega

/-- **C06**: the records of `--in-format x` give what patching enough fillers with them gives, up to the end of the last record (README: "the stream is equivalent
to `/dev/zero` patched with the input file"). -/
theorem C06_dev_zero (filler : Byte) (recs : List Rec) (n : Nat) (h : Ordered 0 recs) (hn : lastEnd 0 recs < n) :
    splice 0 (List.replicate n filler) recs = place filler 0 recs ++ List.replicate (n - lastEnd 0 recs) filler := by
  have := splice_zeros filler recs 0 n h (by omega)
  rwa [Nat.zero_add] at this

example : splice 0 (List.replicate 12 0) [⟨2, 3, [1, 2]⟩, ⟨7, 1, [9, 9, 9]⟩] = ([0, 0, 1, 2, 0, 0, 9, 9, 9] ++ [0, 0, 0, 0] : Bytes) ∧
    place 0 0 [⟨2, 3, [1, 2]⟩, ⟨7, 1, [9, 9, 9]⟩] = ([0, 0, 1, 2, 0, 0, 9, 9, 9] : Bytes) := by decide

end Nd.Props
