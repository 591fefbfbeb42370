import Verif.Proof.Sole
import Verif.Props.Expr
import Verif.Model.MapperParse
import Verif.Spec.Anchored
/-!
# C18: S..E expressions
-/
namespace Nd.Props
open Nd Nd.Spec Nd.Eval

/-! ## Lexemes contain no dots -/

theorem digit_dot {c : Char} {d : Nat} (h : digitVal c = some d) : c ≠ '.' := by
  rintro rfl
  have : digitVal '.' = none := by decide
  rw [this] at h; cases h

theorem literal_dot {l : Literal} (h : l.Ok) : '.' ∉ l.text := by
  unfold Literal.text Literal.body
  have h1 : '.' ∉ l.radix.text := by
    cases l.radix with
    | plain => simp [Radix.text]
    | zero => simp [Radix.text]
    | bin c => cases c <;> simp [Radix.text]
    | oct c => cases c <;> simp [Radix.text]
    | dec c => cases c <;> simp [Radix.text]
    | hex c => cases c <;> simp [Radix.text]
  have h2 : ∀ gs : List (List Char), '.' ∉ gs.flatten → '.' ∉ ['_'].intercalate gs := by
    intro gs
    induction gs with
    | nil => intro _; simp [List.intercalate]
    | cons g gs ih =>
      intro hg
      cases gs with
      | nil => simpa [List.intercalate] using hg
      | cons g' gs =>
        have hg' : '.' ∉ g ∧ '.' ∉ (g' :: gs).flatten := by
          rw [List.flatten_cons, List.mem_append] at hg
          exact ⟨fun h => hg (Or.inl h), fun h => hg (Or.inr h)⟩
        have := ih hg'.2
        simp only [List.intercalate, List.intersperse_cons_cons, List.flatten_cons, List.mem_append, not_or] at this ⊢
        exact ⟨hg'.1, by simp, this⟩
  have h3 : '.' ∉ l.groups.flatten := by
    intro hm
    obtain ⟨d, hd, _⟩ := h.digits _ hm
    exact digit_dot hd rfl
  have h4 : '.' ∉ l.scale.text := by
    cases hs : l.scale with
    | one => simp [Scale.text]
    | times n u b =>
      obtain ⟨h5, h6⟩ := h.scale n u b hs
      have : n = 1 ∨ n = 2 ∨ n = 3 ∨ n = 4 := by omega
      rcases this with rfl | rfl | rfl | rfl <;> cases u <;> cases b <;> simp [Scale.text, Scale.letter]
  simp only [List.mem_append, not_or]
  exact ⟨⟨h1, h2 _ h3⟩, h4⟩

theorem name_dot {n : List Char} (h : Expr.IsName n) : '.' ∉ n := by
  obtain ⟨c, cs, rfl, h1, h2⟩ := h
  simp only [List.mem_cons, not_or]
  refine ⟨?_, ?_⟩
  · rintro rfl; revert h1; decide
  · intro hm; have := h2 _ hm; revert this; decide

theorem lexemes_dot (e : Expr) (h : e.InC) : ∀ x ∈ e.lexemes, '.' ∉ x := by
  induction e with
  | num l => intro x hx; simp only [Expr.lexemes, List.mem_singleton] at hx; subst hx; exact literal_dot h
  | var n => intro x hx; simp only [Expr.lexemes, List.mem_singleton] at hx; subst hx; exact name_dot h
  | idx n e ih =>
    intro x hx
    simp only [Expr.lexemes, List.mem_append, List.mem_cons, List.not_mem_nil, or_false] at hx
    rcases hx with ((rfl | rfl) | hx) | rfl
    · exact name_dot h.1
    · simp
    · exact ih h.2 x hx
    · simp
  | par e ih =>
    intro x hx
    simp only [Expr.lexemes, List.mem_append, List.mem_cons, List.not_mem_nil, or_false] at hx
    rcases hx with (rfl | hx) | rfl
    · simp
    · exact ih h x hx
    · simp
  | un u e ih =>
    intro x hx
    simp only [Expr.lexemes, List.mem_cons] at hx
    rcases hx with rfl | hx
    · cases u <;> simp [UnOp.text]
    · exact ih h.1 x hx
  | bin o l r ihl ihr =>
    intro x hx
    simp only [Expr.lexemes, List.mem_append, List.mem_cons] at hx
    rcases hx with hx | rfl | hx
    · exact ihl h.1 x hx
    · cases o <;> simp [BinOp.text]
    · exact ihr h.2.1 x hx

theorem spaced_dot : ∀ (xs : List (List Char)) (cs : List Char), (∀ x ∈ xs, '.' ∉ x) → Spaced xs cs → '.' ∉ cs
  | [], cs, _, h => fun hm => by
    rcases h '.' hm with h | h | h | h <;> revert h <;> decide
  | x :: xs, cs, hx, h => by
    obtain ⟨w, rest, h1, rfl, h2⟩ := h
    simp only [List.mem_append, not_or]
    refine ⟨⟨fun hm => ?_, hx x (by simp)⟩, spaced_dot xs rest (fun y hy => hx y (by simp [hy])) h2⟩
    rcases h1 '.' hm with h | h | h | h <;> revert h <;> decide

theorem splitDots_plain : ∀ (a : List Char), '.' ∉ a → splitDots a = [a]
  | [], _ => rfl
  | c :: rest, h => by
    simp only [List.mem_cons, not_or] at h
    rw [splitDots, splitDots_plain rest h.2]
    rintro _ rfl
    exact absurd rfl h.1

theorem splitDots_two : ∀ (a b : List Char), '.' ∉ a → '.' ∉ b → splitDots (a ++ '.' :: '.' :: b) = [a, b]
  | [], b, _, hb => by rw [List.nil_append, splitDots, splitDots_plain b hb]
  | c :: rest, b, ha, hb => by
    simp only [List.mem_cons, not_or] at ha
    rw [List.cons_append, splitDots, splitDots_two rest b ha.2 hb]
    rintro _ rfl
    exact absurd rfl ha.1

/-! ## Trees -/

theorem closed_tree (e : Expr) (h : e.Closed) (vars : Vars) : toTree vars e = toTree [] e := by
  induction e with
  | num l => rfl
  | var n => exact h.elim
  | idx n e ih => exact h.elim
  | par e ih => exact ih h
  | un u e ih => simp only [toTree, ih h]
  | bin o l r ihl ihr => simp only [toTree, ihl h.1, ihr h.2]

theorem closed_known (e : Expr) (h : e.Closed) (vars : Vars) : Known vars e := by
  induction e with
  | num l => trivial
  | var n => exact h.elim
  | idx n e ih => exact h.elim
  | par e ih => exact ih h
  | un u e ih => exact ih h
  | bin o l r ihl ihr => exact ⟨ihl h.1, ihr h.2⟩

theorem closed_fine (e : Expr) (h : e.Closed) (hc : e.Calm) (ρ : Env) (v : Int) (hv : e.value ρ = some v) (vars : Vars) : (toTree vars e).Fine := by
  rw [closed_tree e h]
  exact (fine_const e hc v (by rw [h.value Env.none ρ]; exact hv)).1

def End.index : End → Nat
  | .first => 0
  | .last => 1

theorem agrees_bounds : Agrees anchorVars (bounds 0 0) (fun _ _ => 0) := by
  refine ⟨fun n v h => ?_, fun n i v h => by cases h⟩
  simp only [bounds] at h
  split at h
  · cases h; rfl
  · split at h
    · cases h; rfl
    · cases h

theorem linear_sole {x : End} {s : Bool} {e : Expr} (h : e.Linear x.name s) (hc : e.Calm) (hn : e.Narrow (bounds 0 0)) (v : Int) (hv : e.value (bounds 0 0) = some v) :
    (∃ c, Sole (End.index x) (fun _ _ => 0) (if s then 1 else -1) c (toTree anchorVars e)) ∧ (toTree anchorVars e).flipped = false := by
  have const : ∀ (e : Expr) (v : Int), e.Closed → e.Calm → e.Narrow (bounds 0 0) → e.value (bounds 0 0) = some v →
      (toTree anchorVars e).Fine ∧ ∃ w, (toTree anchorVars e).eval (fun _ _ => 0) = some w := by
    intro e v h hc hn hv
    obtain ⟨w, h1, _⟩ := tree_value anchorVars (bounds 0 0) _ agrees_bounds e hn v hv
    exact ⟨closed_fine e h hc _ v hv _, w, h1⟩
  induction h generalizing v with
  | var =>
    cases x with
    | first => exact ⟨⟨0, .var 1 (by decide)⟩, rfl⟩
    | last => exact ⟨⟨0, .var 1 (by decide)⟩, rfl⟩
  | par _ ih => exact ih hc hn v hv
  | @plus s e _ ih =>
    obtain ⟨y, hy⟩ := value_un hv
    obtain ⟨⟨c, h1⟩, hfl⟩ := ih hc.1 hn y hy
    exact ⟨⟨c, .pos h1 hfl⟩, rfl⟩
  | @minus s e _ ih =>
    obtain ⟨y, hy⟩ := value_un hv
    obtain ⟨⟨c, h1⟩, hfl⟩ := ih hc.1 hn y hy
    exact ⟨⟨-c, .neg h1 (by cases s <;> rfl) rfl⟩, rfl⟩
  | @addLeft s l r _ hcl ih =>
    obtain ⟨⟨p, hp⟩, q, hq⟩ := value_bin hv
    obtain ⟨⟨c, h1⟩, hfl⟩ := ih hc.1 hn.1 p hp
    obtain ⟨h2, w, h3⟩ := const r q hcl hc.2 hn.2.1 hq
    exact ⟨⟨_, .left (o := '+') rfl h1 h2 h3 (by cases s <;> rfl) rfl⟩, rfl⟩
  | @addRight s l r hcl _ ih =>
    obtain ⟨⟨p, hp⟩, q, hq⟩ := value_bin hv
    obtain ⟨⟨c, h1⟩, hfl⟩ := ih hc.2 hn.2.1 q hq
    obtain ⟨h2, w, h3⟩ := const l p hcl hc.1 hn.1 hp
    exact ⟨⟨_, .right (o := '+') rfl h1 h2 h3 (by cases s <;> rfl) rfl⟩, rfl⟩
  | @subLeft s l r _ hcl ih =>
    obtain ⟨⟨p, hp⟩, q, hq⟩ := value_bin hv
    obtain ⟨⟨c, h1⟩, hfl⟩ := ih hc.1 hn.1 p hp
    obtain ⟨h2, w, h3⟩ := const r q hcl hc.2 hn.2.1 hq
    exact ⟨⟨_, .left (o := '-') rfl h1 h2 h3 (by cases s <;> rfl) rfl⟩, rfl⟩
  | @subRight s l r hcl _ ih =>
    obtain ⟨⟨p, hp⟩, q, hq⟩ := value_bin hv
    obtain ⟨⟨c, h1⟩, hfl⟩ := ih hc.2 hn.2.1 q hq
    obtain ⟨h2, w, h3⟩ := const l p hcl hc.1 hn.1 hp
    exact ⟨⟨_, .right (o := '-') rfl h1 h2 h3 (by cases s <;> rfl) rfl⟩, rfl⟩

theorem linear_known {x : End} {s : Bool} {e : Expr} (h : e.Linear x.name s) : Known anchorVars e := by
  induction h with
  | var => cases x with
    | first => exact ⟨0, rfl⟩
    | last => exact ⟨1, rfl⟩
  | par _ ih => exact ih
  | plus _ ih => exact ih
  | minus _ ih => exact ih
  | addLeft _ hc ih => exact ⟨ih, closed_known _ hc _⟩
  | addRight hc _ ih => exact ⟨closed_known _ hc _, ih⟩
  | subLeft _ hc ih => exact ⟨ih, closed_known _ hc _⟩
  | subRight hc _ ih => exact ⟨closed_known _ hc _, ih⟩

theorem lexemes_pos (e : Expr) (h : e.InC) : ∃ x xs, e.lexemes = x :: xs ∧ x ≠ [] := by
  induction e with
  | num l =>
    refine ⟨_, _, rfl, ?_⟩
    obtain ⟨g, gs, hg⟩ : ∃ g gs, l.groups = g :: gs := by
      cases hg : l.groups with
      | nil => exact absurd hg h.nonempty.1
      | cons g gs => exact ⟨g, gs, rfl⟩
    have hne : g ≠ [] := h.nonempty.2 g (by rw [hg]; simp)
    obtain ⟨c, g', rfl⟩ : ∃ c g', g = c :: g' := by cases g with
      | nil => exact absurd rfl hne
      | cons c g' => exact ⟨c, g', rfl⟩
    unfold Literal.text Literal.body
    rw [hg]
    cases gs <;> simp [List.intercalate]
  | var n => obtain ⟨c, cs, rfl, _⟩ := h; exact ⟨_, _, rfl, by simp⟩
  | idx n e ih => obtain ⟨⟨c, cs, rfl, _⟩, _⟩ := h; exact ⟨_, _, rfl, by simp⟩
  | par e ih => exact ⟨_, _, rfl, by simp⟩
  | un u e ih => exact ⟨_, _, rfl, by cases u <;> simp [UnOp.text]⟩
  | bin o l r ihl ihr =>
    obtain ⟨x, xs, h1, h2⟩ := ihl h.1
    exact ⟨x, _, by rw [Expr.lexemes, h1, List.cons_append], h2⟩

theorem spaced_ne {e : Expr} (h : e.InC) {cs : List Char} (hs : Spaced e.lexemes cs) : cs ≠ [] := by
  obtain ⟨x, xs, h1, h2⟩ := lexemes_pos e h
  rw [h1] at hs
  obtain ⟨w, rest, _, rfl, _⟩ := hs
  cases x with
  | nil => exact absurd rfl h2
  | cons => simp

/-! ## The property -/

theorem side_parse {d x : End} {cs : List Char} {k : Int} (h : Side d cs x k) : SegmentMapperAnchor.fromStr cs d.name = .ok ⟨End.index x, k⟩ ∧ '.' ∉ cs := by
  cases h with
  | empty => cases d <;> exact ⟨rfl, by simp⟩
  | const e _ _ hcl hc hp hcalm hn hs hv =>
    refine ⟨?_, spaced_dot _ _ (lexemes_dot e hc) hs⟩
    unfold SegmentMapperAnchor.fromStr rpnNew
    obtain ⟨w, h1, rfl⟩ := tree_value anchorVars (bounds 0 0) _ agrees_bounds e hn k hv
    rw [if_neg (spaced_ne hc hs), parse_expr anchorVars e hc hp (closed_known e hcl _) cs hs, ok_bind, canonize_const _ _ (closed_fine e hcl hcalm _ _ hv _) w h1, ok_bind]
    rfl
  | linear e _ _ _ hl hc hp hcalm hn hs hv =>
    refine ⟨?_, spaced_dot _ _ (lexemes_dot e hc) hs⟩
    unfold SegmentMapperAnchor.fromStr rpnNew
    obtain ⟨⟨c, hS⟩, _⟩ := linear_sole hl hcalm hn k hv
    obtain ⟨w, h1, rfl⟩ := tree_value anchorVars (bounds 0 0) _ agrees_bounds e hn k hv
    have hcw : w = c := by rw [hS.eval rfl] at h1; cases h1; rfl
    subst hcw
    obtain ⟨ts, h2, h3⟩ := canonize_sole (by cases x <;> decide) hS
    rw [if_neg (spaced_ne hc hs), parse_expr anchorVars e hc hp (linear_known hl) cs hs, ok_bind, h2, ok_bind, h3]
    unfold plusTokens
    by_cases hw : w = 0
    · subst hw; rw [if_pos rfl]; rfl
    · rw [if_neg hw]; rfl

/-- `S..E`: each side may be empty, a constant expression, or `s` or `e` with any constants added and subtracted, in any order, with parentheses and unary signs, as long
as `s` or `e` is itself added.  The expression is accepted and maps the slice [a, b) to the chosen ends plus the constants.

The conditions in `Side` say that the constants are expressions that are evaluated correctly, see `C16_value_partial`. -/
theorem C18_range {left right : List Char} {x y : End} {j k : Int} (hl : Side .first left x j) (hr : Side .last right y k) :
    ∃ m, SegmentMapper.fromStr (left ++ '.' :: '.' :: right) = .ok m ∧ ∀ a b : Int, m.evaluate (a, b) (a, b) = (x.plus j a b, y.plus k a b) := by
  obtain ⟨h1, h2⟩ := side_parse hl
  obtain ⟨h3, h4⟩ := side_parse hr
  refine ⟨⟨⟨End.index x, j⟩, ⟨End.index y, k⟩⟩, ?_, ?_⟩
  · unfold SegmentMapper.fromStr
    rw [splitDots_two left right h2 h4]
    simp only [parseParts, Nat.zero_add, if_true, show ¬ (0 : Nat) = 1 by decide, if_false]
    rw [show ['s'] = End.name .first from rfl, show ['e'] = End.name .last from rfl, h1, ok_bind, h3]
    rfl
  · intro a b
    cases x <;> cases y <;> rfl

/-- The constants are what the expression adds to the end of the slice: its value in the environment of the slice. -/
theorem C18_sum {x : End} {e : Expr} (h : e.Linear x.name true) (a b k v : Int) (hk : e.value (bounds 0 0) = some k) (hv : e.value (bounds a b) = some v) :
    v = x.plus k a b := by
  have := h.value a b k v hk hv
  simpa using this

/-- `--cut`, `--slice`-like options keep the parsed ends with the offsets clipped at the ends of the stream. -/
theorem C18_stream {left right : List Char} {x y : End} {j k : Int} (hl : Side .first left x j) (hr : Side .last right y k) :
    RangeMapper.fromStr (left ++ '.' :: '.' :: right) =
      .ok ⟨(match x with | .first => .fromStart j.toNat | .last => .fromEnd (-j).toNat), (match y with | .first => .fromStart k.toNat | .last => .fromEnd (-k).toNat)⟩ := by
  obtain ⟨h1, h2⟩ := side_parse hl
  obtain ⟨h3, h4⟩ := side_parse hr
  unfold RangeMapper.fromStr SegmentMapper.fromStr
  rw [splitDots_two left right h2 h4]
  simp only [parseParts, Nat.zero_add, if_true, show ¬ (0 : Nat) = 1 by decide, if_false]
  rw [show ['s'] = End.name .first from rfl, show ['e'] = End.name .last from rfl, h1, ok_bind, h3]
  cases x <;> cases y <;> rfl

theorem splitDots_ne : ∀ (cs : List Char), splitDots cs ≠ []
  | [] => by simp [splitDots]
  | c :: rest => by
    unfold splitDots
    split
    · contradiction
    · simp
    · split <;> simp

theorem parseParts_length : ∀ (i : Nat) (xs : List (List Char)) (as : List SegmentMapperAnchor), parseParts i xs = .ok as → as.length = xs.length
  | _, [], _, h => by cases h; rfl
  | i, x :: xs, as, h => by
    unfold parseParts at h
    cases h1 : SegmentMapperAnchor.fromStr x (if i = 1 then ['e'] else ['s']) with
    | error => rw [h1] at h; cases h
    | ok a =>
      rw [h1, ok_bind] at h
      cases h2 : parseParts (i + 1) xs with
      | error => rw [h2] at h; cases h
      | ok bs =>
        rw [h2, ok_bind] at h
        cases h
        rw [List.length_cons, List.length_cons, parseParts_length _ _ _ h2]

/-- A text whose parts between two dots are `[l, r]`. -/
theorem splitDots_parts : ∀ (cs l : List Char) (ps : List (List Char)), splitDots cs = l :: ps →
    l <+: cs ∧ ¬ ['.', '.'] <:+: l ∧ (ps = [] → cs = l) ∧ (∀ r, ps = [r] → cs = l ++ '.' :: '.' :: r ∧ ¬ ['.', '.'] <:+: r)
  | [], l, ps, h => by
    rw [splitDots] at h
    cases h
    simp
  | [c], l, ps, h => by
    simp only [splitDots] at h
    cases h
    refine ⟨List.prefix_refl _, fun hi => ?_, fun _ => rfl, by simp⟩
    have := hi.length_le
    simp at this
  | c :: d :: rest, l, ps, h => by
    by_cases hd : c = '.' ∧ d = '.'
    · obtain ⟨rfl, rfl⟩ := hd
      rw [splitDots] at h
      cases h
      refine ⟨List.nil_prefix, by simp, fun h => absurd h (splitDots_ne rest), fun r hr => ?_⟩
      obtain ⟨_, h1, h2, _⟩ := splitDots_parts rest r [] hr
      rw [h2 rfl]
      exact ⟨rfl, h1⟩
    · have he : splitDots (c :: d :: rest) = match splitDots (d :: rest) with | [] => [[c]] | x :: xs => (c :: x) :: xs := by
        rw [splitDots]
        · rfl
        · rintro r h1 h2
          cases h2
          exact hd ⟨h1, rfl⟩
      rw [he] at h
      cases hx : splitDots (d :: rest) with
      | nil => exact absurd hx (splitDots_ne _)
      | cons x xs =>
        rw [hx] at h
        cases h
        obtain ⟨h0, h1, h2, h3⟩ := splitDots_parts (d :: rest) x _ hx
        refine ⟨List.cons_prefix_cons.2 ⟨rfl, h0⟩, fun hi => ?_, fun hn => by rw [h2 hn], fun r hr => ?_⟩
        · rcases List.infix_cons_iff.1 hi with hp | hp
          · obtain ⟨h6, ⟨y, h7⟩⟩ := List.cons_prefix_cons.1 hp
            rw [← h7] at h0
            exact hd ⟨h6.symm, (List.cons_prefix_cons.1 h0).1.symm⟩
          · exact h1 hp
        · obtain ⟨h4, h5⟩ := h3 r hr
          rw [h4]
          exact ⟨rfl, h5⟩

/-- **C18**: only texts with one pair of dots are accepted. -/
theorem C18_form {cs : List Char} {m : SegmentMapper} (h : SegmentMapper.fromStr cs = .ok m) : ∃ l r, cs = l ++ '.' :: '.' :: r ∧ ¬ ['.', '.'] <:+: l ∧ ¬ ['.', '.'] <:+: r := by
  unfold SegmentMapper.fromStr at h
  cases h1 : parseParts 0 (splitDots cs) with
  | error => rw [h1] at h; cases h
  | ok as =>
    rw [h1, ok_bind] at h
    have h2 := parseParts_length _ _ _ h1
    split at h
    · rename_i a b
      cases h3 : splitDots cs with
      | nil => exact absurd h3 (splitDots_ne _)
      | cons l ps =>
        rw [h3] at h2
        obtain ⟨_, h4, _, h5⟩ := splitDots_parts cs l ps h3
        match ps, h2 with
        | [r], _ =>
          obtain ⟨h6, h7⟩ := h5 r rfl
          exact ⟨l, r, h6, h4, h7⟩
    · cases h

/-! ## Examples -/

def digit (c : Char) : Expr := .num ⟨.plain, [[c]], .one⟩

theorem digit_ok (c : Char) (h : c ∈ "123456789".toList) : (digit c).InC := by
  have h1 : ∀ c ∈ "123456789".toList, (digitVal c).any (· < 10) = true := by decide
  have h2 : '0' ∉ "123456789".toList := by decide
  refine ⟨⟨by simp, by simp⟩, ?_, ?_, by simp, by simp⟩
  · intro x hx
    simp only [List.flatten_cons, List.flatten_nil, List.append_nil, List.mem_singleton] at hx
    subst hx
    exact digitVal_ok x 10 (h1 x h)
  · intro _ x hx
    simp only [Literal.body, List.intercalate] at hx
    simp at hx
    subst hx
    rintro rfl; exact h2 h

/-- `3-(1-s)` -/
def sampleLeft : Expr := .bin .sub (digit '3') (.par (.bin .sub (digit '1') (.var ['s'])))

/-- `e - 4*5` -/
def sampleRight : Expr := .bin .sub (.var ['e']) (.bin .mul (digit '4') (digit '5'))

theorem sampleLeft_side : Side .first "3-(1-s)".toList .first 2 := by
  have hs : sampleLeft.InC := ⟨digit_ok '3' (by decide), ⟨digit_ok '1' (by decide), ⟨'s', [], rfl, by decide, by simp⟩, by decide, by decide⟩, by decide, by decide⟩
  refine .linear sampleLeft _ .first 2 (.subRight (show (digit '3').Closed from trivial) (.par (.subRight (show (digit '1').Closed from trivial) .var))) hs ?_ ?_ ?_ ?_ (by decide)
  · simp [sampleLeft, Expr.Plain, digit, BinOp.prec]
  · simp [sampleLeft, Expr.Calm, digit]
  · simp [sampleLeft, Expr.Narrow, digit, Expr.isCompare]
  · exact ⟨[], _, by simp, rfl, [], _, by simp, rfl, [], _, by simp, rfl, [], _, by simp, rfl, [], _, by simp, rfl, [], _, by simp, rfl, [], [], by simp, rfl, by simp [Spaced]⟩

theorem sampleRight_side : Side .last "e - 4*5".toList .last (-20) := by
  have hs : sampleRight.InC := ⟨⟨'e', [], rfl, by decide, by simp⟩, ⟨digit_ok '4' (by decide), digit_ok '5' (by decide), by decide, by decide⟩, by decide, by decide⟩
  refine .linear sampleRight _ .last (-20) (.subLeft .var ⟨trivial, trivial⟩) hs ?_ ?_ ?_ ?_ (by decide)
  · simp [sampleRight, Expr.Plain, digit, BinOp.prec]
  · simp [sampleRight, Expr.Calm, digit]
  · simp [sampleRight, Expr.Narrow, digit, Expr.isCompare]
  · exact ⟨[], _, by simp, rfl, [' '], _, by simp [IsSpace], rfl, [' '], _, by simp [IsSpace], rfl, [], _, by simp, rfl, [], [], by simp, rfl, by simp [Spaced]⟩

/-- `3-(1-s)..e - 4*5` maps [100, 200) to [102, 180). -/
example : ∃ m, SegmentMapper.fromStr "3-(1-s)..e - 4*5".toList = .ok m ∧ m.evaluate (100, 200) (100, 200) = (102, 180) := by
  obtain ⟨m, h1, h2⟩ := C18_range sampleLeft_side sampleRight_side
  exact ⟨m, h1, h2 100 200⟩

example : SegmentMapper.fromStr "..".toList = .ok ⟨⟨0, 0⟩, ⟨1, 0⟩⟩ := by decide +kernel

example : SegmentMapper.fromStr "1..2..3".toList = .error .parse := by decide +kernel

example : SegmentMapper.fromStr "e - s..e".toList = .error .parse := by decide +kernel

/-- Outside of this class, a unary plus cancels the negation of a sum: `+((-(s+1))*1)` is accepted as `s+1`; it is `-s-1` and should be rejected. -/
theorem C18_plus_counterexample : SegmentMapper.fromStr "+((-(s+1))*1)..e".toList = .ok ⟨⟨0, 1⟩, ⟨1, 0⟩⟩ := by decide +kernel

/-- A product of `s` with itself is accepted as `s`. -/
theorem C18_square_counterexample : SegmentMapper.fromStr "s*s..e".toList = .ok ⟨⟨0, 0⟩, ⟨1, 0⟩⟩ := by decide +kernel

end Nd.Props
