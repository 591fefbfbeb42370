import Verif.Proof.Template
import Verif.Props.Drain
import Verif.Props.Simplify
import Verif.Props.Inplace
import Verif.Props.Pipeline
/-!
# C30: the names of the files
-/
namespace Nd.Props
open Nd Nd.Spec Nd.Eval

/-- The formatting library formats according to `fmt` with the format `f`. -/
def Formats (N : NumFmts φ) (fmt : List Char → Int → List Char) (f : List Char) : Prop :=
  ∃ spec, N.parse f = .ok spec ∧ ∀ v : Int64, N.fmt spec v = .ok (fmt f v.toInt)

/-- A value that can be part of a template.  Expressions are of the classes of C17 and are accepted by the simplifier. -/
def ValueOk : Template.Value → Prop
  | .offset | .index => True
  | .expr e text => e.InC ∧ e.Plain ∧ e.Tame ∧ (∀ x ∈ e.names, x = ['n'] ∨ x = ['l']) ∧ Spaced e.lexemes text ∧
      Template.Inside text ∧ ':' ∉ text ∧ ∃ rpn, rpnNew ScatterContext.vars ('(' :: text ++ [')']) = .ok rpn

/-- A piece that can be part of a template. -/
def PieceOk (N : NumFmts φ) (fmt : List Char → Int → List Char) : Template.Piece → Prop
  | .text cs => '{' ∉ cs
  | .value v none => ValueOk v ∧ Formats N fmt []
  | .value v (some f) => ValueOk v ∧ Template.Inside f ∧ Formats N fmt f

/-- Comparisons in the template do not overflow for the slice. -/
def PieceNarrow (n l : Nat) : Template.Piece → Prop
  | .value (.expr e _) _ => e.Narrow (Template.env n l)
  | _ => True

theorem vars_lookup (n : List Char) (i : Nat) (a : Bool) (h : ScatterContext.vars.lookup n = some (i, a)) :
    (n = ['n'] ∧ i = 0 ∧ a = false) ∨ (n = ['l'] ∧ i = 1 ∧ a = false) := by
  simp only [ScatterContext.vars, List.lookup] at h
  split at h
  · rename_i hx; simp at hx h; exact Or.inl ⟨hx, h.1.symm, h.2⟩
  · split at h
    · rename_i hx; simp at hx h; exact Or.inr ⟨hx, h.1.symm, h.2⟩
    · cases h

theorem vars_distinct : Distinct ScatterContext.vars := by
  intro n m i a b hn hm
  rcases vars_lookup n i a hn with ⟨rfl, h1, _⟩ | ⟨rfl, h1, _⟩ <;> rcases vars_lookup m i b hm with ⟨rfl, h2, _⟩ | ⟨rfl, h2, _⟩ <;> first | rfl | omega

theorem tame_known {e : Expr} (ht : e.Tame) (h : ∀ x ∈ e.names, x = ['n'] ∨ x = ['l']) : Known ScatterContext.vars e := by
  induction e with
  | num _ => trivial
  | var n =>
    rcases h n (by simp [Expr.names]) with rfl | rfl
    · exact ⟨0, rfl⟩
    · exact ⟨1, rfl⟩
  | idx n e ih => exact ht.elim
  | par e ih => exact ih ht h
  | un u e ih => exact ih ht.1 h
  | bin o l r ihl ihr =>
    exact ⟨ihl ht.1 fun x hx => h x (by simp [Expr.names, hx]), ihr ht.2.1 fun x hx => h x (by simp [Expr.names, hx])⟩

theorem spaced_paren : ∀ (xs : List (List Char)) (cs : List Char), Spaced xs cs → Spaced (xs ++ [[')']]) (cs ++ [')'])
  | [], cs, h => ⟨cs, [], h, by simp, by simp [Spaced]⟩
  | x :: xs, cs, h => by
    obtain ⟨w, rest, h1, rfl, h2⟩ := h
    exact ⟨w, rest ++ [')'], h1, by simp, spaced_paren xs rest h2⟩

theorem small_toInt {n : Nat} (h : n < 2 ^ 63) : (Int64.ofNat n).toInt = n := by
  rw [Int64.toInt_ofNat']
  exact bmod_fit (by omega) (by omega)

theorem template_agrees {n l : Nat} (hn : n < 2 ^ 63) (hl : l < 2 ^ 63) : Agrees ScatterContext.vars (Template.env n l) (ScatterContext.lookup n l) where
  plain x v h := by
    simp only [Template.env] at h
    split at h
    · rename_i hx
      subst hx
      cases h
      exact small_toInt hn
    · split at h
      · rename_i hx
        subst hx
        cases h
        exact small_toInt hl
      · cases h
  array x i v h := by cases h

/-- The compiled expression has the value. -/
theorem value_rpn (v : Template.Value) (h : ValueOk v) : ∃ rpn, rpnNew ScatterContext.vars v.source = .ok rpn ∧
    ∀ n l, n < 2 ^ 63 → l < 2 ^ 63 → PieceNarrow n l (.value v none) → ∀ x, v.eval n l = some x →
      ∃ w, evalRpn (ScatterContext.lookup n l) rpn = .ok w ∧ w.toInt = x := by
  cases v with
  | offset =>
    refine ⟨[(.var 0 1, 0)], by decide +kernel, fun n l hn hl _ x hx => ⟨1 * Int64.ofNat n, rfl, ?_⟩⟩
    cases hx
    rw [Int64.one_mul, small_toInt hn]
  | index =>
    refine ⟨[(.var 1 1, 0)], by decide +kernel, fun n l hn hl _ x hx => ⟨1 * Int64.ofNat l, rfl, ?_⟩⟩
    cases hx
    rw [Int64.one_mul, small_toInt hl]
  | expr e text =>
    obtain ⟨hc, hp, ht, hnames, hs, _, _, rpn, hrpn⟩ := h
    refine ⟨rpn, hrpn, fun n l hn hl hnar x hx => ?_⟩
    exact C17_value_partial ScatterContext.vars vars_distinct (.par e) hc hp (tame_known ht hnames) ht ('(' :: text ++ [')'])
      ⟨[], text ++ [')'], by simp, by simp, spaced_paren _ _ hs⟩ (Template.env n l) (ScatterContext.lookup n l) (template_agrees hn hl) hnar x hx rpn hrpn

theorem source_inside {v : Template.Value} (h : ValueOk v) : '}' ∉ v.source ∧ '\n' ∉ v.source := by
  cases v with
  | offset => exact ⟨by decide, by decide⟩
  | index => exact ⟨by decide, by decide⟩
  | expr e text =>
    obtain ⟨_, _, _, _, _, h1, _⟩ := h
    simp only [Template.Value.source, List.cons_append, List.mem_cons, List.mem_append, List.not_mem_nil, or_false]
    exact ⟨fun h => by rcases h with h | h | h; exacts [absurd h (by decide), h1.1 h, absurd h (by decide)],
      fun h => by rcases h with h | h | h; exacts [absurd h (by decide), h1.2 h, absurd h (by decide)]⟩

/-- A value with its format, up to the end of the template. -/
theorem elems_value {N : NumFmts φ} {fmt : List Char → Int → List Char} {v : Template.Value} (hv : ValueOk v) (f : List Char) (hf : Formats N fmt f)
    (pre args rest : List Char) (hpre : '{' ∉ pre) (hargs : '}' ∉ args ∧ '\n' ∉ args) (hstrip : (args = [] ∧ f = []) ∨ args = ':' :: f) (fuel : Nat) :
    ∃ rpn spec, Template.elems N ScatterContext.vars (fuel + 1) (pre ++ '{' :: (v.source ++ args ++ '}' :: rest)) =
        (Template.elems N ScatterContext.vars fuel rest).map (fun t => { fixed := pre, var := some (rpn, spec) } :: t) ∧
      (∀ w : Int64, N.fmt spec w = .ok (fmt f w.toInt)) ∧
      ∀ n l, n < 2 ^ 63 → l < 2 ^ 63 → PieceNarrow n l (.value v none) → ∀ x, v.eval n l = some x →
        ∃ w, evalRpn (ScatterContext.lookup n l) rpn = .ok w ∧ w.toInt = x := by
  obtain ⟨rpn, h1, h2⟩ := value_rpn v hv
  obtain ⟨spec, h3, h4⟩ := hf
  refine ⟨rpn, spec, ?_, h4, h2⟩
  have hin := source_inside hv
  have hb := Template.findBrace_eq pre (v.source ++ args) rest hpre (by simp [hin.1, hargs.1]) (by simp [hin.2, hargs.2])
  have hr : args = [] ∨ ∃ r, args = ':' :: r := by
    rcases hstrip with ⟨h, _⟩ | h
    · exact Or.inl h
    · exact Or.inr ⟨f, h⟩
  have hsplit := Template.splitArgs_eq v (fun e text he => by subst he; exact hv.2.2.2.2.2.2.1) args hr
  have hs : Template.stripFirst args = .ok f := by
    rcases hstrip with ⟨rfl, rfl⟩ | rfl
    · rfl
    · rfl
  rw [Template.elems, hb]
  simp only [hsplit, h1, hs, h3, ok_bind]
  cases Template.elems N ScatterContext.vars fuel rest <;> rfl

/-- How a template is parsed. -/
theorem elems_pieces {N : NumFmts φ} {fmt : List Char → Int → List Char} : ∀ (ps : List Template.Piece) (pre : List Char) (fuel : Nat),
    (∀ p ∈ ps, PieceOk N fmt p) → '{' ∉ pre → (Template.source ps).length < fuel →
    ∃ t, Template.elems N ScatterContext.vars fuel (pre ++ Template.source ps) = .ok t ∧
      (Template.hasVariable t = ps.any fun p => p matches .value _ _) ∧
      ∀ n l, n < 2 ^ 63 → l < 2 ^ 63 → (∀ p ∈ ps, PieceNarrow n l p) → ∀ nm, Template.name fmt n l ps = some nm →
        Template.render N (ScatterContext.lookup n l) t = .ok (pre ++ nm)
  | [], pre, fuel + 1, _, hpre, _ => by
    refine ⟨[{ fixed := pre, var := none }], ?_, rfl, fun n l _ _ _ nm h => ?_⟩
    · rw [Template.elems]
      simp only [Template.source, List.flatMap_nil, List.append_nil, Template.findBrace_none pre hpre]
    · cases h
      rfl
  | .text cs :: ps, pre, fuel, hok, hpre, hlen => by
    have hcs : '{' ∉ cs := hok (.text cs) (by simp)
    obtain ⟨t, h1, h2, h3⟩ := elems_pieces ps (pre ++ cs) fuel (fun p hp => hok p (by simp [hp])) (by simp [hpre, hcs]) (by simp [Template.source] at hlen ⊢; omega)
    refine ⟨t, by rw [← h1]; simp [Template.source, Template.Piece.source], by rw [h2]; simp, fun n l hn hl hnar nm h => ?_⟩
    simp only [Template.name, Template.Piece.name, Option.bind_some, Option.map_eq_some_iff] at h
    obtain ⟨nm', h, rfl⟩ := h
    rw [h3 n l hn hl (fun p hp => hnar p (by simp [hp])) nm' h]
    simp
  | .value v f :: ps, pre, fuel + 1, hok, hpre, hlen => by
    obtain ⟨t, h1, h2, h3⟩ := elems_pieces ps [] fuel (fun p hp => hok p (by simp [hp])) (by simp) (by cases f <;> simp [Template.source, Template.Piece.source] at hlen ⊢ <;> omega)
    have key : ∃ rpn spec, Template.elems N ScatterContext.vars (fuel + 1) (pre ++ ((Template.Piece.value v f).source ++ Template.source ps)) =
          (Template.elems N ScatterContext.vars fuel (Template.source ps)).map (fun t => { fixed := pre, var := some (rpn, spec) } :: t) ∧
        (∀ w : Int64, N.fmt spec w = .ok (fmt (f.getD []) w.toInt)) ∧
        ∀ n l, n < 2 ^ 63 → l < 2 ^ 63 → PieceNarrow n l (.value v none) → ∀ x, v.eval n l = some x →
          ∃ w, evalRpn (ScatterContext.lookup n l) rpn = .ok w ∧ w.toInt = x := by
      have ho := hok (.value v f) (by simp)
      cases f with
      | none =>
        obtain ⟨rpn, spec, h, h'⟩ := elems_value ho.1 [] ho.2 pre [] (Template.source ps) hpre ⟨by simp, by simp⟩ (Or.inl ⟨rfl, rfl⟩) fuel
        exact ⟨rpn, spec, by rw [← h]; simp [Template.Piece.source], h'⟩
      | some f =>
        obtain ⟨rpn, spec, h, h'⟩ := elems_value ho.1 f ho.2.2 pre (':' :: f) (Template.source ps) hpre
          ⟨by simp [ho.2.1.1], by simp [ho.2.1.2]⟩ (Or.inr rfl) fuel
        exact ⟨rpn, spec, by rw [← h]; simp [Template.Piece.source], h'⟩
    obtain ⟨rpn, spec, h4, h5, h6⟩ := key
    refine ⟨{ fixed := pre, var := some (rpn, spec) } :: t, ?_, by simp [Template.hasVariable], fun n l hn hl hnar nm h => ?_⟩
    · rw [List.nil_append] at h1
      show Template.elems N ScatterContext.vars (fuel + 1) (pre ++ ((Template.Piece.value v f).source ++ Template.source ps)) = _
      rw [h4, h1]
      rfl
    · simp only [Template.name, Template.Piece.name, Option.bind_eq_some_iff, Option.map_eq_some_iff] at h
      obtain ⟨x, ⟨y, hy, rfl⟩, nm', h, rfl⟩ := h
      have hn1 : PieceNarrow n l (.value v none) := by
        have := hnar (.value v f) (by simp)
        cases v <;> exact this
      obtain ⟨w, hw, rfl⟩ := h6 n l hn hl hn1 y hy
      have h3' := h3 n l hn hl (fun p hp => hnar p (by simp [hp])) nm' h
      rw [Template.render]
      simp only [hw, h5 w, h3', List.nil_append, ok_bind, List.append_assoc]

/-- **C30**, the names: if the template contains a value, then the slice with offset `n` and index `l` goes to the file with the documented name. -/
theorem C30_names_partial {N : NumFmts φ} {fmt : List Char → Int → List Char} (ps : List Template.Piece) (hok : ∀ p ∈ ps, PieceOk N fmt p)
    (hval : ∃ v f, Template.Piece.value v f ∈ ps) (fs : FileSys (List Char)) :
    ∃ render, ScatterContext.new N fs (Template.source ps) = .ok (ScatterContext.openTemplate fs render) ∧
      ∀ n l, n < 2 ^ 63 → l < 2 ^ 63 → (∀ p ∈ ps, PieceNarrow n l p) → ∀ nm, Template.name fmt n l ps = some nm → render n l = .ok nm := by
  obtain ⟨t, h1, h2, h3⟩ := elems_pieces ps [] ((Template.source ps).length + 1) hok (by simp) (by omega)
  refine ⟨fun n l => Template.render N (ScatterContext.lookup n l) t, ?_, fun n l hn hl hnar nm h => by simpa using h3 n l hn hl hnar nm h⟩
  have hv : Template.hasVariable t = true := by
    rw [h2, List.any_eq_true]
    obtain ⟨v, f, h⟩ := hval
    exact ⟨_, h, rfl⟩
  rw [List.nil_append] at h1
  rw [ScatterContext.new, Template.fromStr, h1, ok_bind, if_pos hv]

/-- **C30**, the name of a plain file: a template without values is taken literally. -/
theorem C30_plain_name (N : NumFmts φ) (cs : List Char) (h : '{' ∉ cs) (fs : FileSys (List Char)) :
    ScatterContext.new N fs cs = .ok (ScatterContext.openFile fs cs) := by
  have h1 : Template.fromStr N ScatterContext.vars cs = .ok [{ fixed := cs, var := none }] := by
    rw [Template.fromStr, Template.elems, Template.findBrace_none cs h]
  rw [ScatterContext.new, h1, ok_bind]
  simp [Template.hasVariable, Template.render, ok_bind]

/-- **C30**: `--output TEMPLATE`.  After the run every file whose documented name belongs to at least one slice contains exactly the slices with that name, in order,
whatever it contained before; all other files are unchanged.

Partial: drains behind streams that lend slices more than once (`exact`, see C29), and expressions outside the classes of C17. -/
theorem C30_output_partial {S : SegSrc σ} {K F} (hK : K.exact = true) (f : Formatting) (fuel : Nat)
    (s : σ) (w : Nat) (content : Bytes) (segs : List Seg) (h : SegDelivers S K F s w content segs)
    (hlen : content.length < 2 ^ 64) (hf : w + 1 < fuel) (fs : FileSys (List Char))
    {N : NumFmts φ} {fmt : List Char → Int → List Char} (ps : List Template.Piece) (hok : ∀ p ∈ ps, PieceOk N fmt p) (hval : ∃ v f, Template.Piece.value v f ∈ ps)
    (nm : Nat → Nat → List Char)
    (hr : ∀ line x, (slicesOf content segs)[line]? = some x →
      x.1 < 2 ^ 63 ∧ line < 2 ^ 63 ∧ (∀ p ∈ ps, PieceNarrow x.1 line p) ∧ Template.name fmt x.1 line ps = some (nm x.1 line)) :
    ∃ c₀, ScatterContext.new N fs (Template.source ps) = .ok c₀ ∧
      ((∃ e, F e ∧ ScatterDrain.scatter S f fuel (ScatterDrain.new s) c₀ = .error e) ∨
      ∃ c, ScatterDrain.scatter S f fuel (ScatterDrain.new s) c₀ = .ok c ∧
        ∀ name, c.fs name = if shareOf f nm name 0 (slicesOf content segs) = [] then fs name
          else some (shareOf f nm name 0 (slicesOf content segs)).flatten) := by
  obtain ⟨render, h1, h2⟩ := C30_names_partial ps hok hval fs
  refine ⟨_, h1, C30_template_partial hK f fuel s w content segs h hlen hf fs render nm fun line x hx => ?_⟩
  obtain ⟨h3, h4, h5, h6⟩ := hr line x hx
  exact h2 _ _ h3 h4 h5 _ h6

/-- With a file nothing is printed. -/
theorem C30_prints_nothing {ν : Type} [DecidableEq ν] (S : SegSrc σ) (f : Formatting) (fuel B k : Nat) (s : ScatterDrain σ × ScatterContext ν) :
    (consumeStream (ScatterDrain.scatterSrc S f fuel) B (k + 1) s).1 = [] ∧
    ((consumeStream (ScatterDrain.scatterSrc S f fuel) B (k + 1) s).2 = none ↔ ∃ c, ScatterDrain.scatter S f fuel s.1 s.2 = .ok c) := by
  rw [consumeStream]
  simp only [ScatterDrain.scatterSrc]
  cases h : ScatterDrain.scatter S f fuel s.1 s.2 with
  | error e => simp
  | ok c => simp

/-! ## Examples -/

/-- A library that knows only the default format, decimal digits. -/
def decimals : NumFmts Unit where
  parse f := if f = [] then .ok () else .error .invalid
  fmt _ v := .ok (toString v.toInt).toList

theorem decimals_formats : Formats decimals (fun _ v => (toString v).toList) [] := ⟨(), rfl, fun _ => rfl⟩

/-- `dump_{(l & 1)}.{n}` -/
def samplePieces : List Template.Piece :=
  [.text "dump_".toList, .value (.expr (.bin .and (.var ['l']) (digit '1')) "l & 1".toList) none, .text ".".toList, .value .offset none]

theorem samplePieces_ok : Template.source samplePieces = "dump_{(l & 1)}.{n}".toList ∧ ∀ p ∈ samplePieces, PieceOk decimals (fun _ v => (toString v).toList) p := by
  refine ⟨by decide +kernel, ?_⟩
  have hl : Expr.IsName ['l'] := ⟨'l', [], rfl, by decide, by simp⟩
  intro p hp
  simp only [samplePieces, List.mem_cons, List.not_mem_nil, or_false] at hp
  rcases hp with rfl | rfl | rfl | rfl
  · show _ ∉ _; decide +kernel
  · refine ⟨⟨⟨hl, digit_ok '1' (by decide), by decide, by decide⟩, ?_, ?_, ?_, ?_, ⟨by decide +kernel, by decide +kernel⟩, by decide +kernel, ?_⟩, decimals_formats⟩
    · simp [Expr.Plain, digit, BinOp.prec, Expr.level]
    · simp [Expr.Tame, digit, Expr.additive, Expr.multiplicative, Expr.isCompare, Expr.Soft, Expr.names, Expr.plainArith]
    · simp [Expr.names, digit]
    · exact ⟨[], _, by simp, rfl, [' '], _, by simp [IsSpace], rfl, [' '], [], by simp [IsSpace], rfl, by simp [Spaced]⟩
    · have h : (rpnNew ScatterContext.vars ('(' :: "l & 1".toList ++ [')'])).isOk = true := by decide +kernel
      cases h' : rpnNew ScatterContext.vars ('(' :: "l & 1".toList ++ [')']) with
      | ok rpn => exact ⟨rpn, rfl⟩
      | error e => rw [h'] at h; cases h
  · show _ ∉ _; decide +kernel
  · exact ⟨trivial, decimals_formats⟩

/-- `nd --width 2 --output 'dump_{(l & 1)}.{n}'` (no headers) on a five-byte file. -/
example (sched : Nat → Option Nat) (fs : FileSys (List Char)) : ∃ p st c₀, ConstSlicerParams.fromRaw 2 2 .whole = .ok p ∧
    ConstSlicer.new (RawStream.new (2 ^ 21) (Reader.open [1, 2, 3, 4, 5] sched) 1 0) p = .ok st ∧
    ScatterContext.new decimals fs "dump_{(l & 1)}.{n}".toList = .ok c₀ ∧
    ((∃ e, IoErr [sched] e ∧ ScatterDrain.scatter (ConstSlicer.segSrc (RawStream.byteSrc (2 ^ 21) 6)) ⟨.binary, 0⟩ 7 (ScatterDrain.new st) c₀ = .error e) ∨
      ∃ c, ScatterDrain.scatter (ConstSlicer.segSrc (RawStream.byteSrc (2 ^ 21) 6)) ⟨.binary, 0⟩ 7 (ScatterDrain.new st) c₀ = .ok c ∧
        c.fs "dump_0.0".toList = some [1, 2] ∧ c.fs "dump_1.2".toList = some [3, 4] ∧ c.fs "dump_0.4".toList = some [5] ∧ c.fs "other".toList = fs "other".toList) := by
  obtain ⟨p, st, h1, h2, _, h3⟩ := width_delivers .any (file_amply (2 ^ 21) 6 0 [1, 2, 3, 4, 5] sched (by decide) (by decide)) (fun _ => NlMargin.any) 2 2 .whole 0 2
    (by decide) (by decide) (by decide) (by decide) (by decide) (by decide) (by decide)
  obtain ⟨c₀, h4, h5⟩ := C30_output_partial (by decide) ⟨.binary, 0⟩ 7 st _ _ _ h3 (by decide) (by decide) fs samplePieces samplePieces_ok.2
    ⟨.offset, none, by simp [samplePieces]⟩ (fun n l => if l = 0 then "dump_0.0".toList else if l = 1 then "dump_1.2".toList else "dump_0.4".toList)
    (fun line x hx => by
      rw [show slicesOf _ _ = [(0, [1, 2]), (2, [3, 4]), (4, [5])] from by decide] at hx
      have hnar : ∀ n l, ∀ p ∈ samplePieces, PieceNarrow n l p := by
        intro n l p hp
        simp only [samplePieces, List.mem_cons, List.not_mem_nil, or_false] at hp
        rcases hp with rfl | rfl | rfl | rfl
        · trivial
        · exact ⟨trivial, trivial, fun h => by cases h⟩
        · trivial
        · trivial
      match line with
      | 0 => cases hx; exact ⟨by decide, by decide, hnar _ _, by decide +kernel⟩
      | 1 => cases hx; exact ⟨by decide, by decide, hnar _ _, by decide +kernel⟩
      | 2 => cases hx; exact ⟨by decide, by decide, hnar _ _, by decide +kernel⟩
      | _ + 3 => cases hx)
  rw [samplePieces_ok.1] at h4
  refine ⟨p, st, c₀, h1, h2, h4, h5.imp id fun ⟨c, h, hc⟩ => ⟨c, h, ?_, ?_, ?_, ?_⟩⟩
  · rw [hc]; rfl
  · rw [hc]; rfl
  · rw [hc]; rfl
  · rw [hc]; rfl

/-! ## What goes wrong -/

/-- **Counterexample**: the character after the name is dropped, whatever it is: `{n08x}` is accepted, and means `{n:8x}`. -/
theorem C30_dropped_counterexample (N : NumFmts φ) (fs : FileSys (List Char)) :
    ScatterContext.new N fs "f{n08x}".toList = ScatterContext.new N fs "f{n:8x}".toList := by
  rfl

/-- **Counterexample**: if it is not ASCII, the program panics. -/
theorem C30_dropped_panics_counterexample (N : NumFmts φ) (fs : FileSys (List Char)) :
    ScatterContext.new N fs "f{né}".toList = .error .panic := by
  rfl

/-- `nd --inplace --width 2 --output out FILE` (no headers). -/
def inplaceOutput (_ : String) (old : Bytes) : Except Err (ScatterDrain (ConstSlicer (Buffered Reader)) × ScatterContext (List Char)) := do
  let p ← ConstSlicerParams.fromRaw 100 2 .whole
  let st ← ConstSlicer.new (RawStream.new 2000 (Reader.open old fun _ => some 3) 1 0) p
  .ok (ScatterDrain.new st, ← ScatterContext.new decimals (fun _ => none) "out".toList)

/-- **Counterexample** (C09): the options are accepted together, the slices go to the other file, and the input is replaced by an empty file. -/
theorem C09_output_counterexample :
    (∃ p, Pipeline.fromArgs (fun _ _ => ()) { inplace := true, output := some "out" } = .ok p) ∧
    let disk : Disk := fun n => if n = "a" then some [1, 2, 3, 4, 5] else none
    let r := inplaceOps (fun _ => streamRun (fun bs => [bs]) (ScatterDrain.scatterSrc (ConstSlicer.segSrc (RawStream.byteSrc 2000 100)) ⟨.binary, 0⟩ 100) 2000 100 inplaceOutput) ["a"] disk
    r.2 = true ∧ applyAll disk r.1 "a" = some [] := by
  refine ⟨?_, by decide +kernel⟩
  rw [C32_accepts _ _ (by simp)]
  exact ⟨by decide, by decide, by decide, by simp, by simp⟩

end Nd.Props
