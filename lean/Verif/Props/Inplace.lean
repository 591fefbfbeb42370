import Verif.Model.Inplace
import Verif.Props.Bytes
/-!
# C09: `--inplace` never damages the file
-/
namespace Nd.Props
open Nd Nd.Spec

/-- What the file should hold afterwards, if the pipeline succeeds on it. -/
def newContent (run : String → Bytes → List Bytes × Option Err) (σ : Disk) (f : String) : Option Bytes :=
  match σ f with
  | none => none
  | some old => if (run f old).2.isNone then some (run f old).1.flatten else none

/-- No input is the temporary file of another one. -/
def Separate (l : List String) : Prop := ∀ a ∈ l, ∀ b ∈ l, a ≠ tmpName b

theorem tmpName_ne (f : String) : tmpName f ≠ f := by
  intro h
  have := congrArg (fun s => s.toList.length) h
  simp [tmpName] at this

theorem tmpName_inj {a b : String} (h : tmpName a = tmpName b) : a = b := (String.append_left_inj _).1 h

/-! ## The order -/

theorem mem_dedupNames {x : String} : ∀ l : List String, x ∈ dedupNames l ↔ x ∈ l
  | [] => by simp [dedupNames]
  | [y] => by simp [dedupNames]
  | y :: z :: l => by
    rw [dedupNames]
    split
    · rename_i h
      rw [mem_dedupNames (z :: l), h]; simp
    · rw [List.mem_cons, mem_dedupNames (z :: l), List.mem_cons (a := x) (b := y)]

theorem dedupNames_sorted : ∀ l : List String, l.Pairwise (fun a b => a ≤ b) → (dedupNames l).Pairwise (fun a b => a ≤ b ∧ a ≠ b)
  | [], _ => by simp [dedupNames]
  | [y], _ => by simp [dedupNames]
  | y :: z :: l, h => by
    rw [dedupNames]
    rw [List.pairwise_cons] at h
    split
    · exact dedupNames_sorted _ h.2
    · rename_i hne
      rw [List.pairwise_cons]
      refine ⟨fun a ha => ?_, dedupNames_sorted _ h.2⟩
      rw [mem_dedupNames] at ha
      refine ⟨h.1 a ha, fun hya => hne ?_⟩
      subst hya
      rcases List.mem_cons.1 ha with h1 | h1
      · exact h1
      · exact String.le_antisymm (h.1 z (by simp)) ((List.pairwise_cons.1 h.2).1 y h1)

/-- Each input is processed once, in the order of the names. -/
theorem inplaceOrder_spec (inputs : List String) :
    (inplaceOrder inputs).Pairwise (fun a b => a ≤ b ∧ a ≠ b) ∧ ∀ f, f ∈ inplaceOrder inputs ↔ f ∈ inputs := by
  refine ⟨dedupNames_sorted _ ?_, fun f => ?_⟩
  · have := stableSort_pairwise (le := fun a b : String => decide (a ≤ b)) (fun a b c h1 h2 => by simp at *; exact String.le_trans h1 h2)
      (fun a b => by simpa using String.le_total a b) inputs
    simpa using this
  · rw [inplaceOrder, mem_dedupNames]
    exact (stableSort_perm _ _).mem_iff

theorem inplaceOrder_nodup (inputs : List String) : (inplaceOrder inputs).Nodup :=
  (inplaceOrder_spec inputs).1.imp (fun h => h.2)

/-! ## One file -/

theorem applyAll_append (σ : Disk) (a b : List FsOp) : applyAll σ (a ++ b) = applyAll (applyAll σ a) b := List.foldl_append

theorem set_ne {σ : Disk} {n m : String} {c : Option Bytes} (h : m ≠ n) : σ.set n c m = σ m := by simp [Disk.set, h]

theorem set_eq {σ : Disk} {n : String} {c : Option Bytes} : σ.set n c n = c := by simp [Disk.set]

/-- Writing touches the temporary file only. -/
theorem writes_frame (t n : String) (hn : n ≠ t) : ∀ (ops : List FsOp) (σ : Disk),
    (∀ o ∈ ops, o = .create t ∨ ∃ d, o = .append t d) → applyAll σ ops n = σ n
  | [], _, _ => rfl
  | o :: ops, σ, h => by
    have ih := writes_frame t n hn ops (o.apply σ) (fun o ho => h o (by simp [ho]))
    show applyAll (o.apply σ) ops n = σ n
    rw [ih]
    rcases h o (by simp) with rfl | ⟨d, rfl⟩ <;> simp [FsOp.apply, set_ne hn]

theorem appends_eq (t : String) : ∀ (chunks : List Bytes) (σ : Disk) (c : Bytes), σ t = some c →
    applyAll σ (chunks.map (.append t)) t = some (c ++ chunks.flatten)
  | [], σ, c, h => by simpa [applyAll] using h
  | d :: chunks, σ, c, h => by
    show applyAll (FsOp.apply σ (.append t d)) (chunks.map (.append t)) t = _
    rw [appends_eq t chunks _ (c ++ d) (by simp [FsOp.apply, set_eq, h])]
    simp

/-- The operations on one file before the renaming. -/
def writeOps (t : String) (chunks : List Bytes) : List FsOp := .create t :: chunks.map (.append t)

theorem writeOps_mem (t : String) (chunks : List Bytes) : ∀ o ∈ writeOps t chunks, o = .create t ∨ ∃ d, o = .append t d := by
  intro o ho
  simp only [writeOps, List.mem_cons, List.mem_map] at ho
  rcases ho with h | ⟨d, _, h⟩
  · exact Or.inl h
  · exact Or.inr ⟨d, h.symm⟩

/-- After the renaming. -/
theorem replaced (f : String) (chunks : List Bytes) (σ : Disk) (n : String) :
    applyAll σ (writeOps (tmpName f) chunks ++ [.rename (tmpName f) f]) n =
      if n = f then some chunks.flatten else if n = tmpName f then none else σ n := by
  rw [applyAll_append]
  show FsOp.apply _ (.rename (tmpName f) f) n = _
  simp only [FsOp.apply]
  have h1 : applyAll σ (writeOps (tmpName f) chunks) (tmpName f) = some chunks.flatten := by
    show applyAll (FsOp.apply σ (.create (tmpName f))) (chunks.map (.append (tmpName f))) (tmpName f) = _
    rw [appends_eq _ _ _ [] (by simp [FsOp.apply, set_eq])]
    simp
  by_cases hf : n = f
  · subst hf
    rw [set_ne (Ne.symm (tmpName_ne n)), set_eq, h1, if_pos rfl]
  · rw [if_neg hf]
    by_cases ht : n = tmpName f
    · subst ht
      rw [set_eq, if_pos rfl]
    · rw [if_neg ht, set_ne ht, set_ne hf]
      exact writes_frame _ _ ht _ _ (writeOps_mem _ _)

/-! ## All files -/

/-- The first `i` inputs hold their complete new content, the others their old one, and nothing else has changed except for temporary
files. -/
structure Intact (run : String → Bytes → List Bytes × Option Err) (l : List String) (σ σ' : Disk) (i : Nat) : Prop where
  le : i ≤ l.length
  done : ∀ f ∈ l.take i, newContent run σ f ≠ none ∧ σ' f = newContent run σ f
  todo : ∀ f ∈ l.drop i, σ' f = σ f
  other : ∀ n, n ∉ l → (∀ f ∈ l, n ≠ tmpName f) → σ' n = σ n

theorem newContent_congr {run : String → Bytes → List Bytes × Option Err} {σ σ' : Disk} {f : String} (h : σ f = σ' f) :
    newContent run σ f = newContent run σ' f := by simp [newContent, h]

theorem Separate.tail {f : String} {l : List String} (h : Separate (f :: l)) : Separate l :=
  fun a ha b hb => h a (by simp [ha]) b (by simp [hb])

theorem Intact.cons {run : String → Bytes → List Bytes × Option Err} {f : String} {l : List String} {σ σ' : Disk} {i : Nat} {old : Bytes}
    (hd : (f :: l).Nodup) (hs : Separate (f :: l)) (hold : σ f = some old) (hok : (run f old).2 = none)
    (h : Intact run l (applyAll σ (writeOps (tmpName f) (run f old).1 ++ [.rename (tmpName f) f])) σ' i) : Intact run (f :: l) σ σ' (i + 1) := by
  rw [List.nodup_cons] at hd
  have hsame : ∀ n, n ≠ f → n ≠ tmpName f → applyAll σ (writeOps (tmpName f) (run f old).1 ++ [.rename (tmpName f) f]) n = σ n := by
    intro n h1 h2
    rw [replaced, if_neg h1, if_neg h2]
  have hmem : ∀ n ∈ l, n ≠ f ∧ n ≠ tmpName f := fun n hn => ⟨fun h => hd.1 (h ▸ hn), hs n (by simp [hn]) f (by simp)⟩
  have hnew : newContent run σ f = some (run f old).1.flatten := by simp [newContent, hold, hok]
  refine ⟨by simpa using h.le, ?_, ?_, ?_⟩
  · intro g hg
    rw [List.take_succ_cons, List.mem_cons] at hg
    rcases hg with rfl | hg
    · refine ⟨by simp [hnew], ?_⟩
      rw [h.other g hd.1 (fun b hb => hs g (by simp) b (by simp [hb])), replaced, if_pos rfl, hnew]
    · have hgl := List.mem_of_mem_take hg
      have := h.done g hg
      rw [newContent_congr (hsame g (hmem g hgl).1 (hmem g hgl).2)] at this
      exact this
  · intro g hg
    rw [List.drop_succ_cons] at hg
    have hgl := List.mem_of_mem_drop hg
    rw [h.todo g hg, hsame g (hmem g hgl).1 (hmem g hgl).2]
  · intro n hn ht
    simp only [List.mem_cons, not_or] at hn
    rw [h.other n hn.2 (fun b hb => ht b (by simp [hb])), hsame n hn.1 (ht f (by simp))]

theorem intact_frame {run : String → Bytes → List Bytes × Option Err} {f : String} {l : List String} {σ σ' : Disk}
    (hs : Separate (f :: l)) (h : ∀ n, n ≠ tmpName f → σ' n = σ n) : Intact run (f :: l) σ σ' 0 :=
  ⟨by simp, by simp, fun g hg => h g (hs g (by simpa using hg) f (by simp)), fun n _ ht => h n (ht f (by simp))⟩

theorem inplace_prefix (run : String → Bytes → List Bytes × Option Err) :
    ∀ (l : List String) (σ : Disk), l.Nodup → Separate l → ∀ k, ∃ i, Intact run l σ (applyAll σ ((inplaceOps (fun _ => run) l σ).1.take k)) i
  | [], σ, _, _, k => ⟨0, by simp, by simp, by simp, by simp [inplaceOps, applyAll]⟩
  | f :: l, σ, hd, hs, k => by
    have hframe : ∀ k (chunks : List Bytes) n, n ≠ tmpName f → applyAll σ ((writeOps (tmpName f) chunks).take k) n = σ n := by
      intro k chunks n hn
      exact writes_frame _ _ hn _ _ (fun o ho => writeOps_mem _ _ o (List.mem_of_mem_take ho))
    rw [inplaceOps]
    cases hold : σ f with
    | none => exact ⟨0, intact_frame hs (by simp [applyAll])⟩
    | some old =>
      simp only
      cases hr : (run f old).2 with
      | some e => exact ⟨0, intact_frame hs (hframe k _)⟩
      | none =>
        simp only
        rw [show (FsOp.create (tmpName f) :: (run f old).1.map (.append (tmpName f))) = writeOps (tmpName f) (run f old).1 from rfl]
        by_cases hk : k ≤ (writeOps (tmpName f) (run f old).1).length
        · refine ⟨0, intact_frame hs (fun n hn => ?_)⟩
          rw [List.append_assoc, List.take_append_of_le_length hk]
          exact hframe k _ n hn
        · obtain ⟨i, hi⟩ := inplace_prefix run l (applyAll σ (writeOps (tmpName f) (run f old).1 ++ [.rename (tmpName f) f]))
            (List.nodup_cons.1 hd).2 hs.tail (k - ((writeOps (tmpName f) (run f old).1).length + 1))
          refine ⟨i + 1, Intact.cons hd hs hold hr ?_⟩
          rw [← applyAll_append] at hi
          rw [List.take_append, List.take_of_length_le (by simp; omega)]
          simpa using hi

theorem inplace_all (run : String → Bytes → List Bytes × Option Err) :
    ∀ (l : List String) (σ : Disk), l.Nodup → Separate l →
      ∃ i, Intact run l σ (applyAll σ (inplaceOps (fun _ => run) l σ).1) i ∧ (∀ f, l[i]? = some f → newContent run σ f = none) ∧
        ((inplaceOps (fun _ => run) l σ).2 = true ↔ i = l.length)
  | [], σ, _, _ => ⟨0, ⟨by simp, by simp, by simp, by simp [inplaceOps, applyAll]⟩, by simp, by simp [inplaceOps]⟩
  | f :: l, σ, hd, hs => by
    rw [inplaceOps]
    cases hold : σ f with
    | none => exact ⟨0, intact_frame hs (by simp [applyAll]), by simp [newContent, hold], by simp⟩
    | some old =>
      simp only
      cases hr : (run f old).2 with
      | some e =>
        refine ⟨0, intact_frame hs (fun n hn => ?_), by simp [newContent, hold, hr], by simp⟩
        exact writes_frame _ _ hn _ _ (writeOps_mem _ _)
      | none =>
        simp only
        rw [show (FsOp.create (tmpName f) :: (run f old).1.map (.append (tmpName f))) = writeOps (tmpName f) (run f old).1 from rfl]
        obtain ⟨i, hi, h2, h3⟩ := inplace_all run l (applyAll σ (writeOps (tmpName f) (run f old).1 ++ [.rename (tmpName f) f]))
          (List.nodup_cons.1 hd).2 hs.tail
        refine ⟨i + 1, Intact.cons hd hs hold hr ?_, ?_, by simpa using h3⟩
        · rw [← applyAll_append] at hi
          exact hi
        · intro g hg
          rw [List.getElem?_cons_succ] at hg
          have hgl : g ∈ l := List.mem_of_getElem? hg
          have := h2 g hg
          rwa [newContent_congr (σ' := σ)] at this
          rw [replaced, if_neg (fun (h : g = f) => (List.nodup_cons.1 hd).1 (h ▸ hgl)), if_neg (hs g (by simp [hgl]) f (by simp))]

theorem tmp_gone (run : String → Bytes → List Bytes × Option Err) (f : String) :
    ∀ (l : List String) (σ : Disk), (∀ g ∈ l, tmpName f ≠ g) → σ (tmpName f) = none ∨ f ∈ l → (inplaceOps (fun _ => run) l σ).2 = true →
      applyAll σ (inplaceOps (fun _ => run) l σ).1 (tmpName f) = none
  | [], σ, _, h, _ => by simpa [inplaceOps, applyAll] using h
  | g :: l, σ, hs, h, ht => by
    rw [inplaceOps] at ht ⊢
    cases hold : σ g with
    | none => simp [hold] at ht
    | some old =>
      simp only [hold] at ht ⊢
      cases hr : (run g old).2 with
      | some e => simp [hr] at ht
      | none =>
        simp only [hr] at ht ⊢
        rw [applyAll_append]
        refine tmp_gone run f l _ (fun g hg => hs g (by simp [hg])) ?_ ht
        by_cases hfg : f = g
        · left
          subst hfg
          have := replaced f (run f old).1 σ (tmpName f)
          rw [if_neg (tmpName_ne f), if_pos rfl] at this
          exact this
        · rcases h with h | h
          · left
            have := replaced g (run g old).1 σ (tmpName f)
            rw [if_neg (hs g (by simp)), if_neg (fun h => hfg (tmpName_inj h)), h] at this
            exact this
          · right
            rcases List.mem_cons.1 h with h | h
            · exact absurd h hfg
            · exact h

/-! ## The disk on which the files of the options are found -/

/-- The disk on which the streams for the input `f` are constructed: the inputs before it have been processed and its temporary file has been created. -/
def turn (run : Disk → String → Bytes → List Bytes × Option Err) (l : List String) (σ : Disk) (f : String) : Disk :=
  FsOp.apply (applyAll σ (inplaceOps run (l.takeWhile (· ≠ f)) σ).1) (.create (tmpName f))

/-- What is written for each of the inputs when it comes to it. -/
def here (run : Disk → String → Bytes → List Bytes × Option Err) (l : List String) (σ : Disk) (f : String) (old : Bytes) : List Bytes × Option Err := run (turn run l σ f) f old

theorem inplaceOps_congr {run run' : Disk → String → Bytes → List Bytes × Option Err} : ∀ {l : List String} {σ : Disk}, (∀ f ∈ l, ∀ σ old, run σ f old = run' σ f old) →
    inplaceOps run l σ = inplaceOps run' l σ
  | [], _, _ => rfl
  | f :: l, σ, h => by
    rw [inplaceOps, inplaceOps]
    cases σ f with
    | none => rfl
    | some old =>
      simp only
      rw [h f (by simp), inplaceOps_congr fun g hg => h g (by simp [hg])]

/-- Looking at the disk makes no difference to what is written. -/
theorem inplaceOps_here (run : Disk → String → Bytes → List Bytes × Option Err) : ∀ (l : List String) (σ : Disk), l.Nodup →
    inplaceOps run l σ = inplaceOps (fun _ => here run l σ) l σ
  | [], _, _ => rfl
  | f :: l, σ, hd => by
    rw [List.nodup_cons] at hd
    have hf : here run (f :: l) σ f = run (FsOp.apply σ (.create (tmpName f))) f := by
      funext old
      simp [here, turn, inplaceOps, applyAll]
    rw [inplaceOps, inplaceOps]
    cases hold : σ f with
    | none => rfl
    | some old =>
      simp only [hf]
      cases hr : (run (FsOp.apply σ (.create (tmpName f))) f old).2 with
      | some e => rfl
      | none =>
        simp only
        have key : ∀ σ', σ' = applyAll σ (.create (tmpName f) :: (run (FsOp.apply σ (.create (tmpName f))) f old).1.map (.append (tmpName f)) ++ [.rename (tmpName f) f]) →
            inplaceOps run l σ' = inplaceOps (fun _ => here run (f :: l) σ) l σ' := by
          intro σ' hσ
          refine (inplaceOps_here run l σ' hd.2).trans (inplaceOps_congr fun g hg _ old' => ?_)
          have hne : f ≠ g := fun h => hd.1 (h ▸ hg)
          unfold here turn
          rw [List.takeWhile_cons_of_pos (by simpa using hne), inplaceOps]
          simp only [hold, hr]
          rw [applyAll_append, ← hσ]
        rw [key _ rfl]

theorem Separate.sub {l l' : List String} (h : Separate l) (hl : ∀ f ∈ l', f ∈ l) : Separate l' := fun a ha b hb => h a (hl a ha) b (hl b hb)

/-- When it comes to `f`, the files that are neither inputs nor temporary files are as they were, and so are the inputs from `f` on. -/
theorem turn_same (run : Disk → String → Bytes → List Bytes × Option Err) (l : List String) (σ : Disk) (hd : l.Nodup) (hs : Separate l) (f : String) (hf : f ∈ l) (n : String)
    (hn : n ∉ l.takeWhile (· ≠ f)) (ht : ∀ g ∈ l, n ≠ tmpName g) : turn run l σ f n = σ n := by
  have hsub : ∀ g ∈ l.takeWhile (· ≠ f), g ∈ l := fun g hg => (List.takeWhile_sublist _).subset hg
  have hd' := hd.sublist (List.takeWhile_sublist (· ≠ f))
  obtain ⟨i, hi, _⟩ := inplace_all (here run (l.takeWhile (· ≠ f)) σ) (l.takeWhile (· ≠ f)) σ hd' (hs.sub hsub)
  rw [← inplaceOps_here run _ σ hd'] at hi
  unfold turn
  rw [FsOp.apply, set_ne (ht f hf)]
  exact hi.other n hn fun g hg => ht g (hsub g hg)

/-! ## The property -/

theorem Separate.order {inputs : List String} (h : Separate inputs) : Separate (inplaceOrder inputs) := by
  intro a ha b hb
  rw [(inplaceOrder_spec inputs).2] at ha hb
  exact h a ha b hb

/-- **C09**, at every moment: after any number of operations (a crash, or an operation that fails) the inputs up to some point hold their
complete new content, the others their old one, and no file other than the temporary ones has changed. -/
theorem C09_crash_partial (run : Disk → String → Bytes → List Bytes × Option Err) (inputs : List String) (σ : Disk) (hs : Separate inputs) (k : Nat) :
    ∃ i, Intact (here run (inplaceOrder inputs) σ) (inplaceOrder inputs) σ (applyAll σ ((inplaceOps run (inplaceOrder inputs) σ).1.take k)) i := by
  have := inplace_prefix (here run (inplaceOrder inputs) σ) _ σ (inplaceOrder_nodup inputs) hs.order k
  rwa [← inplaceOps_here run _ σ (inplaceOrder_nodup inputs)] at this

/-- In particular each input holds its old or its complete new content. -/
theorem C09_old_or_new_partial (run : Disk → String → Bytes → List Bytes × Option Err) (inputs : List String) (σ : Disk) (hs : Separate inputs) (k : Nat)
    (f : String) (hf : f ∈ inputs) :
    applyAll σ ((inplaceOps run (inplaceOrder inputs) σ).1.take k) f = σ f ∨
    (newContent (here run (inplaceOrder inputs) σ) σ f ≠ none ∧ applyAll σ ((inplaceOps run (inplaceOrder inputs) σ).1.take k) f = newContent (here run (inplaceOrder inputs) σ) σ f) := by
  obtain ⟨i, h⟩ := C09_crash_partial run inputs σ hs k
  rw [← (inplaceOrder_spec inputs).2, ← List.take_append_drop i (inplaceOrder inputs), List.mem_append] at hf
  rcases hf with hf | hf
  · exact Or.inr (h.done f hf)
  · exact Or.inl (h.todo f hf)

/-- **C09**, at the end: the inputs before the first one that is missing or on which the pipeline fails hold their new content, the others
are untouched; the program reports success exactly if there is no such input, and then no temporary file is left. -/
theorem C09_end_partial (run : Disk → String → Bytes → List Bytes × Option Err) (inputs : List String) (σ : Disk) (hs : Separate inputs) :
    (∃ i, Intact (here run (inplaceOrder inputs) σ) (inplaceOrder inputs) σ (applyAll σ (inplaceOps run (inplaceOrder inputs) σ).1) i ∧
      ∀ f, (inplaceOrder inputs)[i]? = some f → newContent (here run (inplaceOrder inputs) σ) σ f = none) ∧
    ((inplaceOps run (inplaceOrder inputs) σ).2 = true ↔ ∀ f ∈ inputs, newContent (here run (inplaceOrder inputs) σ) σ f ≠ none) ∧
    ((inplaceOps run (inplaceOrder inputs) σ).2 = true → ∀ f ∈ inputs,
      applyAll σ (inplaceOps run (inplaceOrder inputs) σ).1 f = newContent (here run (inplaceOrder inputs) σ) σ f ∧
      applyAll σ (inplaceOps run (inplaceOrder inputs) σ).1 (tmpName f) = none) := by
  obtain ⟨i, h1, h2, h3⟩ := inplace_all (here run (inplaceOrder inputs) σ) _ σ (inplaceOrder_nodup inputs) hs.order
  have htmp := fun f => tmp_gone (here run (inplaceOrder inputs) σ) f (inplaceOrder inputs) σ
  rw [← inplaceOps_here run _ σ (inplaceOrder_nodup inputs)] at h1 h3 htmp
  have hmem := (inplaceOrder_spec inputs).2
  have hall : (inplaceOps run (inplaceOrder inputs) σ).2 = true → ∀ f ∈ inputs, newContent (here run (inplaceOrder inputs) σ) σ f ≠ none ∧
      applyAll σ (inplaceOps run (inplaceOrder inputs) σ).1 f = newContent (here run (inplaceOrder inputs) σ) σ f := by
    intro ht f hf
    have hi := h3.1 ht
    exact h1.done f (by rw [hi, List.take_length]; exact (hmem f).2 hf)
  refine ⟨⟨i, h1, h2⟩, ⟨fun ht f hf => (hall ht f hf).1, fun h => ?_⟩, fun ht f hf => ⟨(hall ht f hf).2, ?_⟩⟩
  · rw [h3]
    have hle := h1.le
    rcases Nat.lt_or_ge i (inplaceOrder inputs).length with hlt | hge
    · exact absurd (h2 _ (List.getElem?_eq_getElem hlt)) (h _ ((hmem _).1 (List.getElem_mem hlt)))
    · omega
  · exact htmp f (fun g hg => Ne.symm (hs g ((hmem g).1 hg) f hf)) (Or.inr ((hmem f).2 hf)) ht

/-- **C09**: the files that the options name are read as they were at the beginning, if they are neither inputs nor temporary files; and no input has changed when it comes to it. -/
theorem C09_turn (run : Disk → String → Bytes → List Bytes × Option Err) (inputs : List String) (σ : Disk) (hs : Separate inputs) (f : String) (hf : f ∈ inputs) (n : String)
    (hn : n = f ∨ n ∉ inputs) (ht : ∀ g ∈ inputs, n ≠ tmpName g) : turn run (inplaceOrder inputs) σ f n = σ n := by
  have hmem := (inplaceOrder_spec inputs).2
  refine turn_same run _ σ (inplaceOrder_nodup inputs) hs.order f ((hmem f).2 hf) n (fun h => ?_) fun g hg => ht g ((hmem g).1 hg)
  rcases hn with rfl | hn
  · have := List.all_eq_true.1 (List.all_takeWhile (p := (· ≠ n)) (l := inplaceOrder inputs)) n h
    simp at this
  · exact hn ((hmem n).1 ((List.takeWhile_sublist _).subset h))

/-- With the streams of the pipeline in place: the new content is what the stream delivers. -/
theorem C09_new_content {S : ByteSrc σ} {F M} (split : Bytes → List Bytes) (hsplit : ∀ b, (split b).flatten = b) (B fuel : Nat)
    (spawn : String → Bytes → Except Err σ) (files : Disk) (f : String) (old : Bytes) (hold : files f = some old)
    (s : σ) (hspawn : spawn f old = .ok s) (w : Nat) (content : Bytes) (hd : Delivers S F M s w content) (hf : w + 1 < fuel) :
    newContent (streamRun split S B fuel spawn) files f = some content ∨
    (newContent (streamRun split S B fuel spawn) files f = none ∧ ∃ e, F e) := by
  unfold newContent streamRun
  rw [hold]
  simp only [hspawn]
  rcases C08_copy_exact B fuel s w content hd hf with h | ⟨e, out, he, h, _⟩
  · left; simp [h, hsplit]
  · right; exact ⟨by simp [h], e, he⟩

/-! ## Instances and counterexamples -/

/-- Adds a zero at the end, in two writes; fails on empty files. -/
def appendZero (_ : String) (old : Bytes) : List Bytes × Option Err := if old = [] then ([], some .invalid) else ([old, [0]], none)

/-- Three files, the second one being empty. -/
def threeFiles : Disk := fun n => if n = "a" then some [1] else if n = "b" then some [] else if n = "c" then some [3] else none

example : Separate ["c", "a", "b", "a"] := by unfold Separate tmpName; decide +kernel

theorem order_example : inplaceOrder ["c", "a", "b", "a"] = ["a", "b", "c"] := by decide +kernel

/-- `a` is replaced, the pipeline fails on `b` and leaves `b.tmp` behind, `c` is not touched. -/
example : let r := inplaceOps (fun _ => appendZero) (inplaceOrder ["c", "a", "b", "a"]) threeFiles
    r.2 = false ∧ applyAll threeFiles r.1 "a" = some [1, 0] ∧ applyAll threeFiles r.1 "b" = some [] ∧ applyAll threeFiles r.1 "c" = some [3] ∧
    applyAll threeFiles r.1 "b.tmp" = some [] := by
  rw [order_example]
  decide +kernel

/-- A file of three bytes copied with one-byte writes, aligned to 4. -/
example (files : Disk) (h : files "a" = some [1, 2, 3]) :
    newContent (streamRun (fun b => b.map ([·])) (RawStream.byteSrc 3 6) 3 6 (fun _ old => .ok (RawStream.new 3 (Reader.open old fun _ => some 2) 4 0xff))) files "a" =
      some [1, 2, 3, 0xff] := by
  rcases C09_new_content (S := RawStream.byteSrc 3 6) (fun b => b.map ([·])) (fun b => by induction b <;> simp_all) 3 6
    (fun _ old => .ok (RawStream.new 3 (Reader.open old fun _ => some 2) 4 0xff)) files "a" [1, 2, 3] h _ rfl 3 _
    (raw_delivers 3 6 4 0xff [1, 2, 3] (fun _ => some 2) (by decide) (by decide) (by decide)) (by decide) with h1 | ⟨_, e, he⟩
  · exact h1
  · obtain ⟨_, s, hs, i, hi⟩ := he
    simp at hs
    subst hs
    simp at hi

/-- The files `a` and `a.tmp`. -/
def withTmp : Disk := fun n => if n = "a" then some [1] else if n = "a.tmp" then some [7] else none

/-- If one of the inputs is called like the temporary file of another, it is lost. -/
theorem C09_tmp_input_counterexample :
    let r := inplaceOps (fun _ => appendZero) ["a", "a.tmp"] withTmp
    r.2 = false ∧ applyAll withTmp r.1 "a" = some [1, 0] ∧ applyAll withTmp r.1 "a.tmp" = none := by decide +kernel

/-- A file that is not an input but is called like a temporary file is lost. -/
theorem C09_tmp_lost_counterexample :
    let r := inplaceOps (fun _ => appendZero) ["a"] withTmp
    r.2 = true ∧ withTmp "a.tmp" = some [7] ∧ applyAll withTmp r.1 "a.tmp" = none := by decide +kernel

end Nd.Props
