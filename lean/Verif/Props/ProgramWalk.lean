import Verif.Props.ProgramSmall
/-!
# C37, --walk on files of any length
-/
namespace Nd.Props
open Nd Nd.Spec Conformance

/-- `b[0]` -/
def lengthExpr : Expr := .idx ['b'] zeroLit

theorem lengthExpr_walkable : Walkable 1 lengthExpr := by
  refine ⟨⟨⟨'b', [], rfl, by decide, by simp⟩, zeroLit_ok⟩, by simp [lengthExpr, zeroLit, Expr.Plain, Expr.signed], ⟨0, by decide, by decide⟩, ?_⟩
  intro n k hm
  have : (n, k) = (['b'], 0) := by simpa [lengthExpr, Expr.elements, zeroLit, Expr.lit, show Literal.value ⟨.zero, [['0']], .one⟩ = 0 by decide] using hm
  cases this
  exact ⟨1, by decide, by decide⟩

theorem lengthExpr_listed : Listed [lengthExpr] byteExpr :=
  ⟨[byteExpr], .cons ⟨[], _, by simp, rfl, [], _, by simp, rfl, [], _, by simp, rfl, [], [], by simp, rfl, by simp [Spaced]⟩ .nil, Or.inl (by simp [byteExpr, List.intercalate])⟩

theorem walks_length : ∀ (records : List Bytes) (p : Nat), (∀ r ∈ records, LengthByte r) → Walks (Lengths [lengthExpr]) p records.flatten (Spec.adjacent p (records.map List.length))
  | [], p, _ => .nil p
  | r :: rs, p, h => by
    obtain ⟨b, rest, rfl, hb, hl⟩ := h _ (List.mem_cons_self ..)
    have hv : lengthExpr.value (streamEnv (b :: (rest ++ rs.flatten))) = some (b.toNat : Int) := by
      have h0 : zeroLit.value (streamEnv (b :: (rest ++ rs.flatten))) = some 0 := by simp [zeroLit, Expr.value, show Literal.value ⟨.zero, [['0']], .one⟩ = 0 by decide, fit]
      have he := element_byte b (by omega) (rest ++ rs.flatten)
      simp only [lengthExpr, Expr.value]
      rw [h0]
      simp [streamEnv, elementSize, he, List.lookup]
    have := Walks.cut (len := Lengths [lengthExpr]) p (((b :: rest) :: rs).flatten) [(b :: rest).length] (Spec.adjacent (p + (b :: rest).length) (rs.map List.length)) (by simp) ?_ (by simp) ?_
    · simpa [Spec.adjacent] using this
    · refine .cons ⟨?_, by simp, by simp [lengthExpr, zeroLit, Expr.Narrow]⟩ .nil
      rw [← hb]
      exact hv
    · simp only [List.sum_cons, List.sum_nil, Nat.add_zero, List.flatten_cons, List.drop_left]
      exact walks_length rs _ fun r hr => h r (List.mem_cons_of_mem _ hr)

/-- `nd --walk 'b[0]' FILE` -/
def strollArgs : Args := { inputs := ["FILE"], walk := some (String.ofList byteExpr) }

def strollJob : Job := { slicer := .walk [lengthExpr] }

theorem stroll_asks : Asks strollArgs strollJob where
  inFormat := .none
  outFormat := .none
  filler := .none
  joint := .none
  cut := .none
  pad := .none
  slicer := .walk (by rw [String.toList_ofList]; exact lengthExpr_listed)
  invert := .none
  extend := .none
  merge := .none
  lines := .none
  output := Or.inl rfl
  patchBack := rfl

/-- A file of records of at most 127 bytes whose first byte is their length, of any size, read in any portions: the call prints a line for every record. -/
example (records : List Bytes) (hr : ∀ r ∈ records, LengthByte r) (hl : records.flatten.length < 2 ^ 48) (s : Nat → Option Nat) (hs : ∀ i, s i ≠ none) :
    ∃ text N, (∀ fuel, N < fuel → ({ host none with files := fun _ => some (records.flatten, s), fuel := fuel } : Host).run strollArgs = (text, none)) ∧
      Records .hex text ((placed 0 records).map fun x => { offset := x.1, span := x.2.length, data := x.2 }) := by
  have hst : strollJob.stream [records.flatten] = records.flatten := by
    simp [strollJob, Job.stream, Job.filtered, Joint.join, Spec.cat, Spec.pad, alignTo_one]
  have hs' : Surroundings { host none with files := fun _ => some (records.flatten, s) } strollArgs strollJob [(records.flatten, s)] [records.flatten] [s] := by
    refine { release := rfl, inplace := rfl, block := show 0 < 2 ^ 21 by decide, opened := .cons rfl .nil, stdin := by decide, listed := by simp, patch := trivial,
             decodes := .cons rfl .nil, text := fun h => absurd rfl h, pad := ⟨Nat.zero_le _, Nat.zero_le _⟩, aligned := ?_, joined := ?_, stream := by rw [hst]; exact hl,
             slicer := ⟨?_, by simp [strollJob]⟩, regex := trivial,
             fits := Or.inl (Or.inr (Or.inr (Or.inl ⟨[lengthExpr], 1, s, rfl, ⟨rfl, rfl, rfl, rfl, rfl⟩, ⟨rfl, Or.inl rfl, rfl, rfl, rfl⟩, ⟨by simp, ?_⟩, rfl, fun i k _ => ?_⟩))) }
    · simpa [strollJob, Joint.word, alignTo_one] using hl
    · simpa [strollJob, Joint.join, Spec.cat, alignTo_one] using hl
    · intro t ht
      cases ht
      rw [String.toList_ofList]
      exact ⟨_, new_byte _⟩
    · intro e he
      rw [List.mem_singleton.1 he]
      exact lengthExpr_walkable
    · show 1 ≤ min (max 1 k) (2 ^ 21)
      omega
  have hW := walks_length records 0 hr
  obtain ⟨text, N, h1, _, h2⟩ := C37_success_partial _ _ _ _ _ _ stroll_asks hs' (by simpa using hs) (Spec.adjacent 0 (records.map List.length)) (by rw [hst]; exact ⟨_, _, hW, rfl, rfl⟩)
  refine ⟨text, N, fun fuel hf => h2 fuel hf, ?_⟩
  have h1 : Records .hex text _ := h1
  rw [hst] at h1
  have hsl : slicesOf records.flatten (Spec.adjacent 0 (records.map List.length)) = placed 0 records := adjacent_slices records []
  rw [← hsl]
  have hin := slices_inside (j := strollJob) (B := 2 ^ 21) (reads := [s]) (content := records.flatten) ⟨_, _, hW, rfl, rfl⟩ (by have := hs'.fits; rw [hst] at this; exact this.imp id And.right)
  simp only [slicesOf, List.map_map]
  refine cast (congrArg (Records .hex text) (List.map_congr_left fun x hx => ?_)) h1
  have := hin x hx
  simp only [Seg.tail] at this
  simp only [Seg.bytes, Function.comp, List.length_take, List.length_drop]
  rw [Nat.min_eq_left (by omega)]

end Nd.Props
