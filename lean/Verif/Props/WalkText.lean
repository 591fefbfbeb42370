import Verif.Spec.WalkText
import Verif.Props.Walk
import Verif.Props.SimplifyArray
/-!
# C27: the lengths of `--walk` in terms of the text of the expressions
-/
namespace Nd.Props
open Nd Nd.Spec Nd.Eval Nd.WalkSlicer

/-! ## The evaluation looks only at the elements that occur -/

theorem evalLoopM_flat {A : Nat → Int64 → Bool} {f : Nat → Int64 → Int64} {get : Unit → Nat → Int64 → Except Err (Int64 × Unit)} (hg : ∀ id i, A id i = true → get () id i = .ok (f id i, ())) :
    ∀ (t : Tree), t.clean true = true → t.within A = true → ∀ (v : Int64), t.eval f = some v → ∀ (rest : List Tok) (st : List Int64),
      evalLoopM get (t.flat ++ rest) () st = evalLoopM get rest () (v :: st)
  | .val x, _, _, v, hv, rest, st => by cases hv; rfl
  | .var _ _, h, _, _, _, _, _ => by cases h
  | .arr _ _, h, _, _, _, _, _ => by cases h
  | .idx id c t, h, hw, v, hv, rest, st => by
    obtain ⟨k, rfl⟩ : ∃ k, t = .val k := by cases t <;> first | exact ⟨_, rfl⟩ | cases h
    have := hg id k hw
    cases hv
    simp only [Tree.flat, List.cons_append, List.nil_append, evalLoopM, evalStepM, evalStep, this, Except.map]
    rfl
  | .pre c t, h, hw, v, hv, rest, st => by
    obtain ⟨x, h1, h2⟩ := (eval_pre f _ _ v).1 hv
    rw [Tree.flat, List.append_assoc, evalLoopM_flat hg t h hw x h1]
    simp only [List.cons_append, List.nil_append, evalLoopM, evalStepM, evalStep, h2, Except.map]
  | .op c l r, h, hw, v, hv, rest, st => by
    simp only [Tree.clean, Bool.and_eq_true] at h
    simp only [Tree.within, Bool.and_eq_true] at hw
    simp only [Tree.eval] at hv
    cases e1 : l.eval f with
    | none => rw [e1] at hv; cases hv
    | some x =>
      cases e2 : r.eval f with
      | none => rw [e1, e2] at hv; cases hv
      | some y =>
        rw [e1, e2] at hv
        rw [Tree.flat, List.append_assoc, List.append_assoc, evalLoopM_flat hg l h.1 hw.1 x e1, evalLoopM_flat hg r h.2 hw.2 y e2]
        simp only [Option.bind_some] at hv
        cases ha : applyOp c x y with
        | error e => rw [ha] at hv; cases hv
        | ok z =>
          rw [ha] at hv
          cases hv
          simp only [List.cons_append, List.nil_append, evalLoopM, evalStepM, evalStep, ha, Except.map]

/-! ## The arrays -/

theorem element_range (size i : Nat) (stream : Bytes) (h : size = 1 ∨ size = 2 ∨ size = 4 ∨ size = 8) : -2 ^ 63 ≤ element size i stream ∧ element size i stream < 2 ^ 63 := by
  unfold element
  split
  · omega
  · rename_i hl
    have := leNat_lt ((stream.drop (i * size)).take size)
    rw [List.length_take, List.length_drop, Nat.min_eq_left (by omega)] at this
    simp only
    rcases h with rfl | rfl | rfl | rfl <;> split <;> omega

theorem size_lookup {n : List Char} {size : Nat} (h : elementSize n = some size) : WalkSlicer.vars.lookup n = some (size, true) ∧ (size = 1 ∨ size = 2 ∨ size = 4 ∨ size = 8) := by
  unfold elementSize at h
  simp only [List.lookup, WalkSlicer.vars] at h ⊢
  split at h
  · cases h; simp
  · split at h
    · cases h; simp
    · split at h
      · cases h; simp
      · split at h
        · cases h; simp
        · cases h

theorem stream_agrees (stream : Bytes) : Agrees WalkSlicer.vars (streamEnv stream) fun size i => Int64.ofInt (element size i.toInt.toNat stream) := by
  refine ⟨(fun n v h => by cases h), fun n i v h => ?_⟩
  simp only [streamEnv] at h
  split at h
  · cases hn : elementSize n with
    | none => rw [hn] at h; cases h
    | some size =>
      rw [hn] at h
      cases h
      obtain ⟨h1, h2⟩ := size_lookup hn
      obtain ⟨h3, h4⟩ := element_range size i.toInt.toNat stream h2
      simp only [ident, h1, Option.getD_some]
      exact Int64.toInt_ofInt_of_le (by omega) (by omega)
  · cases h

theorem lone_index {e : Expr} (h : e.Lone) {n : List Char} {k : Nat} (hm : (n, k) ∈ e.elements) : k < 2 ^ 63 := by
  induction e with
  | num _ => cases hm
  | var _ => cases hm
  | idx m i _ =>
    obtain ⟨j, hj, hlt⟩ := h
    simp only [Expr.elements, hj, Option.getD_some, List.mem_singleton, Prod.mk.injEq] at hm
    omega
  | par e ih => exact ih h hm
  | un u e ih => exact ih h.1 hm
  | bin o l r ihl ihr =>
    rcases List.mem_append.1 hm with hm | hm
    · exact ihl h.1 hm
    · exact ihr h.2.1 hm

/-- The value of one expression. -/
theorem lone_length {H : Nat} {e : Expr} (hc : e.InC) (hp : e.Plain) (hk : Known WalkSlicer.vars e) (ht : e.Lone) (hr : e.Reaches H) {cs : List Char} (hs : Spaced e.lexemes cs) {rpn : List Tok}
    (ha : rpnNew WalkSlicer.vars cs = .ok rpn) {stream : Bytes} (hn : e.Narrow (streamEnv stream)) {l : Nat} (hv : e.value (streamEnv stream) = some (l : Int)) (hl : 0 < l) :
    ∃ v, value H stream rpn = .ok v ∧ 0 < v ∧ v.toInt.toNat = l := by
  obtain ⟨w, h1, h2⟩ := tree_value _ _ _ (stream_agrees stream) e hn _ hv
  obtain ⟨t', rfl, h3, h4, h5⟩ := lone_compiled hc hp hk ht hs _ ha
  have hw : t'.within (fun size i => decide (¬ i < 0 ∧ i.toInt.toNat * size + size ≤ H ∧ (size = 1 ∨ size = 2 ∨ size = 4 ∨ size = 8))) = true := by
    refine h4 _ (within_tree _ _ ht fun n k hm => ?_)
    obtain ⟨size, h6, h7⟩ := hr n k hm
    obtain ⟨h8, h9⟩ := size_lookup h6
    have hk : k < 2 ^ 63 := lone_index ht hm
    have hi : (Int64.ofNat k).toInt = k := by rw [Int64.toInt_ofNat']; exact bmod_fit (by omega) (by omega)
    have hneg : ¬ Int64.ofNat k < 0 := by
      rw [Int64.lt_iff_toInt_lt, hi]
      show ¬ (k : Int) < 0
      omega
    simp only [ident, h8, Option.getD_some, decide_eq_true_eq, hi, Int.toNat_natCast]
    exact ⟨hneg, h7, h9⟩
  have := evalLoopM_flat (A := fun size i => decide (¬ i < 0 ∧ i.toInt.toNat * size + size ≤ H ∧ (size = 1 ∨ size = 2 ∨ size = 4 ∨ size = 8)))
    (get := lookAt H stream) (fun id i h => by unfold lookAt; rw [if_pos (of_decide_eq_true h)]) t' h3 hw w (h5 w h1) [] []
  rw [List.append_nil] at this
  refine ⟨w, by simp [value, evalRpnM, this, evalLoopM, Except.map], ?_, by omega⟩
  rw [Int64.lt_iff_toInt_lt, h2]
  show (0 : Int) < l
  omega

/-! ## Commas -/

theorem comma_literal (l : Literal) (hl : l.Ok) : ',' ∉ l.text := by
  intro hc
  unfold Literal.text at hc
  rcases List.mem_append.1 hc with hc | hc
  · rcases List.mem_append.1 hc with hc | hc
    · cases hr : l.radix with
      | plain | zero => simp [hr, Radix.text] at hc
      | bin u | oct u | dec u | hex u => cases u <;> simp [hr, Radix.text] at hc
    · rcases mem_intercalate hc with h | h
      · cases h
      · obtain ⟨d, hd, _⟩ := hl.digits _ h
        exact absurd hd (by rw [show digitVal ',' = none by decide]; simp)
  · cases hs : l.scale with
    | one => simp [hs, Scale.text] at hc
    | times n u b =>
      have hlet : Scale.letter n u ≠ ',' := by unfold Scale.letter; split <;> decide
      cases b <;> simp [hs, Scale.text] at hc <;> exact hlet hc.symm

theorem comma_lexemes (e : Expr) (h : e.InC) : ∀ x ∈ e.lexemes, ',' ∉ x := by
  have name : ∀ n, Expr.IsName n → ',' ∉ n := by
    rintro n ⟨c, cs, rfl, hc, hcs⟩ hm
    rcases List.mem_cons.1 hm with rfl | hm
    · exact absurd hc (by decide)
    · exact absurd (hcs _ hm) (by decide)
  induction e with
  | num l => intro x hx; simp [Expr.lexemes] at hx; subst hx; exact comma_literal l h
  | var n => intro x hx; simp [Expr.lexemes] at hx; subst hx; exact name _ h
  | idx n e ih =>
    intro x hx
    simp only [Expr.lexemes, List.mem_append, List.mem_cons, List.not_mem_nil, or_false] at hx
    rcases hx with ((rfl | rfl) | hx) | rfl
    · exact name _ h.1
    · decide
    · exact ih h.2 x hx
    · decide
  | par e ih =>
    intro x hx
    simp only [Expr.lexemes, List.mem_append, List.mem_cons, List.not_mem_nil, or_false] at hx
    rcases hx with (rfl | hx) | rfl
    · decide
    · exact ih h x hx
    · decide
  | un u e ih =>
    intro x hx
    simp only [Expr.lexemes, List.mem_cons] at hx
    rcases hx with rfl | hx
    · cases u <;> decide
    · exact ih h.1 x hx
  | bin o l r ihl ihr =>
    intro x hx
    simp only [Expr.lexemes, List.mem_append, List.mem_cons] at hx
    rcases hx with hx | rfl | hx
    · exact ihl h.1 x hx
    · cases o <;> decide
    · exact ihr h.2.1 x hx

theorem comma_spaced : ∀ {xs : List (List Char)} {cs : List Char}, (∀ x ∈ xs, ',' ∉ x) → Spaced xs cs → ',' ∉ cs
  | [], cs, _, h => fun hm => by rcases h _ hm with h | h | h | h <;> cases h
  | x :: xs, cs, hx, h => by
    obtain ⟨w, rest, h1, rfl, h2⟩ := h
    intro hm
    simp only [List.mem_append] at hm
    rcases hm with (hm | hm) | hm
    · rcases h1 _ hm with h | h | h | h <;> cases h
    · exact hx x (by simp) hm
    · exact comma_spaced (fun y hy => hx y (by simp [hy])) h2 hm

theorem splitComma_none : ∀ {cs : List Char}, ',' ∉ cs → splitComma cs = [cs]
  | [], _ => rfl
  | c :: cs, h => by
    simp only [List.mem_cons, not_or] at h
    rw [splitComma, if_neg (fun e => h.1 e.symm), splitComma_none h.2]

theorem splitComma_append : ∀ {cs : List Char} (rest : List Char), ',' ∉ cs → splitComma (cs ++ ',' :: rest) = cs :: splitComma rest
  | [], rest, _ => by rw [List.nil_append, splitComma, if_pos rfl]
  | c :: cs, rest, h => by
    simp only [List.mem_cons, not_or] at h
    rw [List.cons_append, splitComma, if_neg (fun e => h.1 e.symm), splitComma_append rest h.2]

theorem splitComma_join : ∀ {texts : List (List Char)}, texts ≠ [] → (∀ t ∈ texts, ',' ∉ t) → splitComma ([','].intercalate texts) = texts
  | [], h, _ => absurd rfl h
  | [t], _, h => by
    have : [','].intercalate [t] = t := by simp [List.intercalate]
    rw [this]
    exact splitComma_none (h t (by simp))
  | t :: u :: ts, _, h => by
    have : [','].intercalate (t :: u :: ts) = t ++ ',' :: [','].intercalate (u :: ts) := by simp [List.intercalate]
    rw [this, splitComma_append _ (h t (by simp)), splitComma_join (by simp) fun x hx => h x (by simp [hx])]

theorem join_last : ∀ {texts : List (List Char)}, (∀ t ∈ texts, t ≠ [] ∧ ',' ∉ t) → ([','].intercalate texts).getLast? ≠ some ','
  | [], _ => by simp [List.intercalate]
  | [t], h => by
    have : [','].intercalate [t] = t := by simp [List.intercalate]
    rw [this]
    exact fun hc => (h t (by simp)).2 (List.mem_of_getLast? hc)
  | t :: u :: ts, h => by
    have : [','].intercalate (t :: u :: ts) = (t ++ [',']) ++ [','].intercalate (u :: ts) := by simp [List.intercalate]
    have hne : [','].intercalate (u :: ts) ≠ [] := by
      have hu := (h u (by simp)).1
      cases u with
      | nil => exact absurd rfl hu
      | cons c cs => cases ts <;> simp [List.intercalate]
    rw [this, List.getLast?_append_of_ne_nil _ hne]
    exact join_last fun x hx => h x (by simp [hx])

theorem stripComma_join {texts : List (List Char)} (h : ∀ t ∈ texts, t ≠ [] ∧ ',' ∉ t) {exprs : List Char}
    (he : exprs = [','].intercalate texts ∨ exprs = [','].intercalate texts ++ [',']) : stripComma exprs = [','].intercalate texts := by
  rcases he with rfl | rfl
  · unfold stripComma
    rw [if_neg (join_last h)]
  · unfold stripComma
    rw [if_pos (by simp)]
    simp

theorem forall₂_right {R : α → β → Prop} {as : List α} {bs : List β} (h : List.Forall₂ R as bs) {b : β} (hb : b ∈ bs) : ∃ a ∈ as, R a b := by
  induction h with
  | nil => cases hb
  | cons h _ ih =>
    rcases List.mem_cons.1 hb with rfl | hb
    · exact ⟨_, by simp, h⟩
    · obtain ⟨a, h1, h2⟩ := ih hb
      exact ⟨a, by simp [h1], h2⟩

/-- The expressions are compiled one by one. -/
theorem new_listed {es : List Expr} (hne : es ≠ []) (hc : ∀ e ∈ es, e.InC) {exprs : List Char} (hl : Listed es exprs) {s : σ} {st : WalkSlicer σ} (hst : WalkSlicer.new s exprs = .ok st) :
    List.Forall₂ (fun (e : Expr) rpn => ∃ text, Spaced e.lexemes text ∧ rpnNew WalkSlicer.vars text = .ok rpn) es st.fetchers := by
  obtain ⟨texts, ht, he⟩ := hl
  have hcl : ∀ t ∈ texts, t ≠ [] ∧ ',' ∉ t := by
    intro t hm
    obtain ⟨e, he, hs⟩ := forall₂_right ht hm
    refine ⟨?_, comma_spaced (comma_lexemes e (hc e he)) hs⟩
    rintro rfl
    exact (trim_expr e (hc e he) _ hs).2 (by simp [trim])
  have htn : texts ≠ [] := by
    rintro rfl
    cases ht
    exact hne rfl
  unfold WalkSlicer.new at hst
  rw [stripComma_join hcl he, splitComma_join htn fun t h => (hcl t h).2] at hst
  cases hm : texts.mapM (rpnNew WalkSlicer.vars) with
  | error e => rw [hm] at hst; cases hst
  | ok fs =>
    rw [hm] at hst
    cases hst
    clear * - ht hm
    induction ht generalizing fs with
    | nil => cases hm; exact .nil
    | @cons e t es ts h _ ih =>
      rw [List.mapM_cons] at hm
      cases h1 : rpnNew WalkSlicer.vars t with
      | error e => rw [h1] at hm; cases hm
      | ok rpn =>
        cases h2 : ts.mapM (rpnNew WalkSlicer.vars) with
        | error e => rw [h1, h2] at hm; cases hm
        | ok rpns =>
          rw [h1, h2] at hm
          cases hm
          exact .cons ⟨t, h, h1⟩ (ih rpns h2)

theorem lit_known {vars : Vars} {e : Expr} {k : Nat} (h : e.lit = some k) : Known vars e := by
  induction e with
  | num _ => trivial
  | par e ih => exact ih h
  | _ => cases h

theorem known_reaches {H : Nat} {e : Expr} (h : e.Lone) (hr : e.Reaches H) : Known WalkSlicer.vars e := by
  induction e with
  | num _ => trivial
  | var _ => exact h.elim
  | idx n i _ =>
    obtain ⟨k, hk, _⟩ := h
    obtain ⟨size, h1, _⟩ := hr n k (by simp [Expr.elements, hk])
    refine ⟨⟨size, (size_lookup h1).1⟩, ?_⟩
    exact lit_known hk
  | par e ih => exact ih h hr
  | un u e ih => exact ih h.1 hr
  | bin o l r ihl ihr => exact ⟨ihl h.1 fun n k hm => hr n k (List.mem_append_left _ hm), ihr h.2.1 fun n k hm => hr n k (List.mem_append_right _ hm)⟩

/-- The expressions that `--walk` is known to evaluate correctly. -/
def Walkable (H : Nat) (e : Expr) : Prop := e.InC ∧ e.Plain ∧ e.Lone ∧ e.Reaches H

/-- The lengths computed by `--walk` are the values of the expressions as C defines them, with the elements of the remaining stream (signed, little-endian) as the values of `b[k]`, `h[k]`, `i[k]` and `l[k]`. -/
theorem C27_lengths_partial {H : Nat} {es : List Expr} (hne : es ≠ []) (hw : ∀ e ∈ es, Walkable H e) {exprs : List Char} (hl : Listed es exprs) {s : σ} {st : WalkSlicer σ}
    (hst : WalkSlicer.new s exprs = .ok st) {stream : Bytes} {ls : List Nat} (h : Lengths es stream ls) : Lens H st.fetchers stream ls := by
  have hf := new_listed hne (fun e he => (hw e he).1) hl hst
  generalize st.fetchers = rpns at hf
  clear hst hl hne
  unfold Lengths at h
  unfold Lens
  induction hf generalizing ls with
  | nil => cases h; exact .nil
  | @cons e rpn es rpns h1 _ ih =>
    cases h with
    | cons h2 h3 =>
      obtain ⟨text, h4, h5⟩ := h1
      obtain ⟨a, b, c, d⟩ := hw e (by simp)
      exact .cons (lone_length a b (known_reaches c d) c d h4 h5 h2.2.2 h2.1 h2.2.1) (ih (fun e he => hw e (by simp [he])) h3)

theorem walks_mono {len len' : Bytes → List Nat → Prop} (h : ∀ s ls, len s ls → len' s ls) {p : Nat} {stream : Bytes} {segs : List Seg} (hw : Walks len p stream segs) : Walks len' p stream segs := by
  induction hw with
  | nil p => exact .nil p
  | cut p stream ls segs h1 h2 h3 _ ih => exact .cut p stream ls segs h1 (h _ _ h2) h3 ih

/-- **C27** for a file of any size in terms of the text of the expressions: `nd --walk EXPR,... FILE` cuts the file into groups of slices; the lengths of the slices in a group are the values of the
expressions where the group starts.

Partial: the expressions are `Walkable` (the simplifier changes or rejects others, see C17), all lengths are positive and the file ends where a group ends, and every `read()` returns at least `H` bytes
before the end of the file, where the expressions look at the first `H` bytes of a group. -/
theorem C27_text_partial (B fuel H : Nat) (filler : Byte) (content : Bytes) (sched : Nat → Option Nat) (hB : 0 < B) (hs : ∀ i k, sched i = some k → H ≤ min (max 1 k) B)
    (hf : enough 1 [(content, sched)] < fuel) (es : List Expr) (hne : es ≠ []) (hw : ∀ e ∈ es, Walkable H e) (exprs : List Char) (hl : Listed es exprs)
    (st : WalkSlicer (CatStream (Buffered Reader))) (hst : WalkSlicer.new (CatStream.new B (rawStreams B 1 filler [(content, sched)])) exprs = .ok st)
    (segs : List Seg) (hW : Walks (Lengths es) 0 content segs) :
    SegReads (WalkSlicer.segSrc (CatStream.byteSrc (RawStream.byteSrc B fuel) B fuel) B fuel) (Abort (IoErr [sched])) st (slicesOf content segs) ∧
    ∀ f : Formatting, content.length < 2 ^ 64 →
      Reads (ScatterDrain.byteSrc (WalkSlicer.segSrc (CatStream.byteSrc (RawStream.byteSrc B fuel) B fuel) B fuel) f B fuel) (Abort (IoErr [sched])) (ScatterDrain.through B st)
        ((slicesOf content segs).flatMap f.line) :=
  C27_file_partial B fuel H filler content sched hB hs hf exprs st hst segs (walks_mono (fun _ _ => C27_lengths_partial hne hw hl hst) hW)

/-- The same for any number of files that are shorter than a block in total, for all schedules. -/
theorem C27_small_text_partial (B fuel H : Nat) (filler : Byte) (files : Files) (hB : (files.map Prod.fst).flatten.length < B) (hnf : files ≠ []) (hf : enough 1 files < fuel)
    (es : List Expr) (hne : es ≠ []) (hw : ∀ e ∈ es, Walkable H e) (exprs : List Char) (hl : Listed es exprs)
    (st : WalkSlicer (CatStream (Buffered Reader))) (hst : WalkSlicer.new (CatStream.new B (rawStreams B 1 filler files)) exprs = .ok st)
    (segs : List Seg) (hW : Walks (Lengths es) 0 (files.map Prod.fst).flatten segs) :
    SegReads (WalkSlicer.segSrc (CatStream.byteSrc (RawStream.byteSrc B fuel) B fuel) B fuel) (Abort (IoErr (files.map Prod.snd))) st (slicesOf (files.map Prod.fst).flatten segs) ∧
    ∀ f : Formatting, (files.map Prod.fst).flatten.length < 2 ^ 64 →
      Reads (ScatterDrain.byteSrc (WalkSlicer.segSrc (CatStream.byteSrc (RawStream.byteSrc B fuel) B fuel) B fuel) f B fuel) (Abort (IoErr (files.map Prod.snd))) (ScatterDrain.through B st)
        ((slicesOf (files.map Prod.fst).flatten segs).flatMap f.line) :=
  C27_small_partial B fuel H filler files hB hnf hf exprs st hst segs (walks_mono (fun _ _ => C27_lengths_partial hne hw hl hst) hW)

/-! ## Examples -/

/-- The literal `0`. -/
def zeroLit : Expr := .num ⟨.zero, [['0']], .one⟩

theorem zeroLit_ok : zeroLit.InC := by
  refine ⟨⟨by simp, by simp⟩, ?_, by simp, by simp [Literal.body, List.intercalate], by simp⟩
  intro x hx
  simp only [List.flatten_cons, List.flatten_nil, List.append_nil, List.mem_singleton] at hx
  subst hx
  exact ⟨0, by decide, by decide⟩

/-- `h[0]` -/
def sizeExpr : Expr := .idx ['h'] zeroLit
/-- `(b[2] & 7) * 2` -/
def nibbleExpr : Expr := .bin .mul (.par (.bin .and (.idx ['b'] (digit '2')) (digit '7'))) (digit '2')

theorem sizeExpr_walkable : Walkable 4 sizeExpr := by
  refine ⟨⟨⟨'h', [], rfl, by decide, by simp⟩, zeroLit_ok⟩, by simp [sizeExpr, zeroLit, Expr.Plain, Expr.signed], ⟨0, by decide, by decide⟩, ?_⟩
  intro n k hm
  have : (n, k) = (['h'], 0) := by simpa [sizeExpr, Expr.elements, zeroLit, Expr.lit, show Literal.value ⟨.zero, [['0']], .one⟩ = 0 by decide] using hm
  cases this
  exact ⟨2, by decide, by decide⟩

theorem nibbleExpr_walkable : Walkable 4 nibbleExpr := by
  have e2 : (digit '2').lit = some 2 := by decide
  have e7 : (digit '7').lit = some 7 := by decide
  refine ⟨⟨⟨⟨⟨'b', [], rfl, by decide, by simp⟩, digit_ok '2' (by decide)⟩, digit_ok '7' (by decide), by decide, by decide⟩, digit_ok '2' (by decide), by decide, by decide⟩,
    by simp [nibbleExpr, digit, Expr.Plain, Expr.signed, BinOp.prec, Expr.level], ?_, ?_⟩
  · refine ⟨⟨⟨2, e2, by decide⟩, trivial, Or.inr rfl, (fun h => by cases h), (fun h => by cases h), fun h => by cases h⟩, trivial, Or.inr rfl, (fun h => by cases h), fun _ => ?_, fun h => by cases h⟩
    exact Or.inr (Or.inr (Or.inr (Or.inl ⟨Or.inl ⟨Or.inl (by simp [Expr.isElement, e2]), 7, e7, by decide, rfl⟩, rfl⟩)))
  · intro n k hm
    have : (n, k) = (['b'], 2) := by
      have h7 : (digit '7').elements = [] := rfl
      have h2 : (digit '2').elements = [] := rfl
      simpa [nibbleExpr, Expr.elements, e2, h7, h2] using hm
    cases this
    exact ⟨1, by decide, by decide⟩

/-- `h[0], (b[2]&7)*2` -/
def recordExprs : List Char := ['h', '[', '0', ']', ',', ' ', '(', 'b', '[', '2', ']', '&', '7', ')', '*', '2']

theorem recordExprs_listed : Listed [sizeExpr, nibbleExpr] recordExprs := by
  refine ⟨[['h', '[', '0', ']'], [' ', '(', 'b', '[', '2', ']', '&', '7', ')', '*', '2']], .cons ?_ (.cons ?_ .nil), Or.inl (by simp [recordExprs, List.intercalate])⟩
  · exact ⟨[], _, by simp, rfl, [], _, by simp, rfl, [], _, by simp, rfl, [], [], by simp, rfl, by simp [Spaced]⟩
  · exact ⟨[' '], _, by simp [IsSpace], rfl, [], _, by simp, rfl, [], _, by simp, rfl, [], _, by simp, rfl, [], _, by simp, rfl, [], _, by simp, rfl, [], _, by simp, rfl,
      [], _, by simp, rfl, [], _, by simp, rfl, [], [], by simp, rfl, by simp [Spaced]⟩

theorem record_new (s : σ) : ∃ st, WalkSlicer.new s recordExprs = .ok st := by
  have h : ((splitComma (stripComma recordExprs)).mapM (rpnNew WalkSlicer.vars)).isOk = true := by decide +kernel
  unfold WalkSlicer.new
  cases hm : (splitComma (stripComma recordExprs)).mapM (rpnNew WalkSlicer.vars) with
  | error e => rw [hm] at h; cases h
  | ok fs => exact ⟨_, rfl⟩

theorem record_lengths (stream : Bytes) (a b : Nat) (h : sizeExpr.value (streamEnv stream) = some (a : Int) ∧ 0 < a) (h' : nibbleExpr.value (streamEnv stream) = some (b : Int) ∧ 0 < b) :
    Lengths [sizeExpr, nibbleExpr] stream [a, b] :=
  .cons ⟨h.1, h.2, by simp [sizeExpr, zeroLit, Expr.Narrow]⟩ (.cons ⟨h'.1, h'.2, by simp [nibbleExpr, digit, Expr.Narrow, Expr.isCompare]⟩ .nil)

/-- Records with a header whose first two bytes are the size of the header and whose third byte is half the size of the rest, in blocks of four bytes. -/
example (st : WalkSlicer (CatStream (Buffered Reader))) (hst : WalkSlicer.new (CatStream.new 4 (rawStreams 4 1 0 [([3, 0, 10, 7, 7, 7, 7, 4, 0, 1, 99, 8, 8], fun _ => some 4)])) recordExprs = .ok st) :
    SegReads (WalkSlicer.segSrc (CatStream.byteSrc (RawStream.byteSrc 4 100) 4 100) 4 100) (Abort (IoErr [fun _ => some 4])) st [(0, [3, 0, 10]), (3, [7, 7, 7, 7]), (7, [4, 0, 1, 99]), (11, [8, 8])] := by
  have hW : Walks (Lengths [sizeExpr, nibbleExpr]) 0 ([3, 0, 10, 7, 7, 7, 7, 4, 0, 1, 99, 8, 8] : Bytes) [⟨0, 3⟩, ⟨3, 4⟩, ⟨7, 4⟩, ⟨11, 2⟩] :=
    .cut 0 _ [3, 4] [⟨7, 4⟩, ⟨11, 2⟩] (by decide) (record_lengths _ _ _ (by decide +kernel) (by decide +kernel)) (by decide)
      (.cut 7 _ [4, 2] [] (by decide) (record_lengths _ _ _ (by decide +kernel) (by decide +kernel)) (by decide) (.nil _))
  exact (C27_text_partial 4 100 4 0 [3, 0, 10, 7, 7, 7, 7, 4, 0, 1, 99, 8, 8] (fun _ => some 4) (by decide) (by intro i k h; cases h; decide) (by simp [enough]) [sizeExpr, nibbleExpr] (by simp)
    (by intro e he; simp only [List.mem_cons, List.not_mem_nil, or_false] at he; rcases he with rfl | rfl; exact sizeExpr_walkable; exact nibbleExpr_walkable)
    recordExprs recordExprs_listed st hst _ hW).1

end Nd.Props
