import Verif.Proof.Keep
import Verif.Props.Anchored
import Verif.Spec.Simplify
/-!
# C17: simplification does not change the value of an expression
-/
namespace Nd.Props
open Nd Nd.Spec Nd.Eval

theorem bare_leaf (vars : Vars) {e : Expr} (h : e.bare = true) : (toTree vars e).leaf = true := by
  induction e with
  | num _ => rfl
  | var _ => rfl
  | par e ih => exact ih h
  | _ => cases h

theorem lit_tree (vars : Vars) {e : Expr} {v : Nat} (h : e.lit = some v) : toTree vars e = .val (Int64.ofNat v) := by
  induction e with
  | num l => cases h; rfl
  | par e ih => exact ih h
  | _ => cases h

theorem element_tree (vars : Vars) {e : Expr} (h : e.isElement = true) : ∃ id k, toTree vars e = .arr id (.val k) := by
  induction e with
  | idx n i _ =>
    obtain ⟨k, hk⟩ := Option.isSome_iff_exists.1 h
    exact ⟨_, _, by rw [toTree, lit_tree vars hk]⟩
  | par e ih => exact ih h
  | _ => cases h

theorem soft_mild (vars : Vars) {e : Expr} (h : e.Soft) : (toTree vars e).Mild true := by
  induction e with
  | num _ => trivial
  | var _ => trivial
  | idx _ _ _ => trivial
  | par e ih => exact ih h
  | un u e ih =>
    cases u with
    | plus => exact Or.inr (Or.inr ⟨rfl, Or.inl rfl, bare_leaf vars h⟩)
    | minus => exact Or.inr (Or.inr ⟨rfl, Or.inr rfl, bare_leaf vars h⟩)
    | tilde => exact Or.inl ⟨rfl, ih h⟩
    | bang => exact Or.inl ⟨rfl, ih h⟩
  | bin o l r ihl ihr =>
    cases o with
    | sub =>
      refine ⟨ihl h.1, ihr h.2.1, Or.inr ⟨rfl, rfl, ?_⟩⟩
      rcases Bool.or_eq_true _ _ ▸ h.2.2 with h | h
      · exact Tree.leaf_tip (bare_leaf vars h)
      · obtain ⟨id, k, h⟩ := element_tree vars h
        rw [h]
        rfl
    | lt => exact Or.inr (Or.inl rfl)
    | le => exact Or.inr (Or.inl rfl)
    | gt => exact Or.inr (Or.inl rfl)
    | ge => exact Or.inr (Or.inl rfl)
    | _ =>
      have h := h rfl
      exact ⟨ihl h.1, ihr h.2, Or.inl (by decide)⟩

/-- Different names have different identifiers. -/
def Distinct (vars : Vars) : Prop := ∀ n m i a b, vars.lookup n = some (i, a) → vars.lookup m = some (i, b) → n = m

theorem known_names {vars : Vars} {e : Expr} (h : Known vars e) : ∀ n ∈ e.names, ∃ i a, vars.lookup n = some (i, a) := by
  induction e with
  | num _ => intro n hn; cases hn
  | var m =>
    intro n hn
    simp only [Expr.names, List.mem_singleton] at hn
    subst hn
    obtain ⟨i, h⟩ := h
    exact ⟨i, false, h⟩
  | idx m e ih =>
    intro n hn
    obtain ⟨⟨i, h1⟩, h2⟩ := h
    rcases List.mem_cons.1 hn with rfl | hn
    · exact ⟨i, true, h1⟩
    · exact ih h2 n hn
  | par e ih => exact ih h
  | un u e ih => exact ih h
  | bin o l r ihl ihr =>
    intro n hn
    rcases List.mem_append.1 hn with hn | hn
    · exact ihl h.1 n hn
    · exact ihr h.2 n hn

/-- The identifiers of the names that occur. -/
def idents (vars : Vars) (e : Expr) (i : Nat) : Prop := ∃ n ∈ e.names, ident vars n = i

theorem tame_good {vars : Vars} (hd : Distinct vars) {e : Expr} (hk : Known vars e) (h : e.Tame) (g : Bool) (hg : g = false → e.plainArith = true) :
    (toTree vars e).Good false true g (idents vars e) := by
  induction e generalizing g with
  | num _ => trivial
  | var n => exact ⟨rfl, n, by simp [Expr.names], rfl⟩
  | idx _ _ _ => exact h.elim
  | par e ih => exact ih hk h g hg
  | un u e ih =>
    have := ih hk h.1 g hg
    cases u with
    | plus => exact Or.inr (Or.inr (Or.inr ⟨rfl, rfl, bare_leaf vars (h.2 rfl), this⟩))
    | minus => exact Or.inl ⟨rfl, this⟩
    | tilde => exact Or.inr (Or.inl ⟨rfl, this⟩)
    | bang => exact Or.inr (Or.inl ⟨rfl, this⟩)
  | bin o l r ihl ihr =>
    obtain ⟨hl, hr, hadd, hmul, hcmp⟩ := h
    have subl : ∀ i, idents vars l i → idents vars (.bin o l r) i := fun i ⟨n, h1, h2⟩ => ⟨n, List.mem_append_left _ h1, h2⟩
    have subr : ∀ i, idents vars r i → idents vars (.bin o l r) i := fun i ⟨n, h1, h2⟩ => ⟨n, List.mem_append_right _ h1, h2⟩
    have one : ∀ {g₁ g₂ : Bool} {V₁ V₂ : Nat → Prop}, (toTree vars l).Good false true g₁ V₁ → (toTree vars r).Good false true g₂ V₂ → ((toTree vars l).bare || (toTree vars r).bare) = true :=
      fun h _ => by rw [h.plain.2]; rfl
    -- arithmetic
    have plain : Expr.isCompare o = false → (toTree vars l).Good false true g (idents vars l) ∧ (toTree vars r).Good false true g (idents vars r) := by
      intro ho
      have h1 : g = false → l.plainArith = true ∧ r.plainArith = true := by
        intro hg'
        have := hg hg'
        simp only [Expr.plainArith, Bool.and_eq_true] at this
        exact ⟨this.1.2, this.2⟩
      exact ⟨ihl hk.1 hl g fun h => (h1 h).1, ihr hk.2 hr g fun h => (h1 h).2⟩
    have add : ∀ c, isAddsub c = true → Expr.isCompare o = false → Expr.additive o = true → (Tree.op c (toTree vars l) (toTree vars r)).Good false true g (idents vars (.bin o l r)) := by
      intro c hc ho ha
      obtain ⟨h1, h2⟩ := plain ho
      exact (Tree.good_op_add hc).2 ⟨h1.mono subl, h2.mono subr, soft_mild vars (hadd ha), (fun h => by cases h), one h1 h2⟩
    have mul : ∀ c, isAddsub c = false → isComm1 c = true → Expr.isCompare o = false → Expr.multiplicative o = true →
        (Tree.op c (toTree vars l) (toTree vars r)).Good false true g (idents vars (.bin o l r)) := by
      intro c hc hc' ho hm
      obtain ⟨h1, h2⟩ := plain ho
      simp only [Tree.Good, hc, hc', if_true]
      refine ⟨one h1 h2, fun _ => Or.inl ⟨h1.plain.2, h2.plain.2⟩, idents vars l, idents vars r, subl, subr, ?_, h1, h2⟩
      rintro i ⟨n, hn, rfl⟩ ⟨m, hm', he⟩
      obtain ⟨j, a, hj⟩ := known_names hk.1 n hn
      obtain ⟨j', b, hj'⟩ := known_names hk.2 m hm'
      have : j' = j := by simpa [ident, hj, hj'] using he
      subst this
      have := hd n m j' a b hj hj'
      subst this
      exact hmul hm n hn hm'
    have rest : ∀ c, isAddsub c = false → isComm1 c = false → Expr.isCompare o = false → (Tree.op c (toTree vars l) (toTree vars r)).Good false true g (idents vars (.bin o l r)) := by
      intro c hc hc' ho
      obtain ⟨h1, h2⟩ := plain ho
      simp only [Tree.Good, hc, hc']
      exact ⟨one h1 h2, fun _ => Or.inl ⟨h1.plain.2, h2.plain.2⟩, h1.mono subl, h2.mono subr⟩
    have cmp : ∀ c, isAddsub c = true → Expr.isCompare o = true → (Tree.op c (toTree vars l) (toTree vars r)).Good false true false (idents vars (.bin o l r)) := by
      intro c hc ho
      obtain ⟨h1, h2⟩ := hcmp ho
      have h1 := ihl hk.1 hl false fun _ => h1
      have h2 := ihr hk.2 hr false fun _ => h2
      exact (Tree.good_op_add hc).2 ⟨h1.mono subl, h2.mono subr, soft_mild vars (hadd (by cases o <;> first | rfl | cases ho)), (fun h => by cases h), one h1 h2⟩
    have hgt : Expr.isCompare o = true → g = true := by
      intro ho
      cases g with
      | true => rfl
      | false =>
        have := hg rfl
        simp [Expr.plainArith, ho] at this
    have minus : ∀ t : Tree, t.Good false true false (idents vars (.bin o l r)) → (Tree.op '+' t (.val (-1))).Good false true false (idents vars (.bin o l r)) :=
      fun t ht => (Tree.good_op_add rfl).2 ⟨ht, trivial, trivial, (fun h => by cases h), by simp [Tree.bare, Tree.within]⟩
    have ge : ∀ t : Tree, t.Good false true false (idents vars (.bin o l r)) → Expr.isCompare o = true → (Tree.pre 'G' t).Good false true g (idents vars (.bin o l r)) :=
      fun t ht ho => Or.inr (Or.inr (Or.inl ⟨rfl, hgt ho, ht⟩))
    cases o with
    | mul => exact mul _ rfl rfl rfl rfl
    | and => exact mul _ rfl rfl rfl rfl
    | or => exact mul _ rfl rfl rfl rfl
    | xor => exact mul _ rfl rfl rfl rfl
    | add => exact add _ rfl rfl rfl
    | sub => exact add _ rfl rfl rfl
    | div => exact rest _ rfl rfl rfl
    | rem => exact rest _ rfl rfl rfl
    | shl => exact rest _ rfl rfl rfl
    | shr => exact rest _ rfl rfl rfl
    | gt => exact ge _ (minus _ (cmp _ rfl rfl)) rfl
    | ge => exact ge _ (cmp _ rfl rfl) rfl
    | lt => exact ge _ (minus _ (cmp _ rfl rfl)) rfl
    | le => exact ge _ (cmp _ rfl rfl) rfl

/-- The value of an expression with variables is the same before and after the internal simplification: if the expression as parsed has a value for given values of
the variables and the simplifier returns, then the simplified expression has the same value.  For every expression tree of the class `Tame`, every choice of white space,
all values of the variables.

Partial: expressions outside `Tame`, some of which the simplifier changes or aborts on (counterexamples below), and `Plain` (see C16). -/
theorem C17_same_partial (vars : Vars) (hd : Distinct vars) (e : Expr) (hc : e.InC) (hp : e.Plain) (hk : Known vars e) (ht : e.Tame) (cs : List Char) (hs : Spaced e.lexemes cs)
    (f : Nat → Int64 → Int64) (before after : List Tok) (hb : parse vars cs = .ok before) (ha : rpnNew vars cs = .ok after) (v : Int64) (hv : evalRpn f before = .ok v) :
    evalRpn f after = .ok v := by
  have hparse := parse_expr vars e hc hp hk cs hs
  rw [hparse] at hb
  cases hb
  have hg := tame_good hd hk ht true (fun h => by cases h)
  unfold rpnNew at ha
  rw [hparse, ok_bind] at ha
  obtain ⟨t', rfl, h1, _, h2⟩ := canonize_keep f true _ _ hg after ha
  rw [evalRpn_flat f _ hg.plain.1] at hv
  rw [evalRpn_flat f _ h1]
  cases he : (toTree vars e).eval f with
  | none => rw [he] at hv; cases hv
  | some w =>
    rw [he] at hv
    cases hv
    rw [h2 _ he]

/-- The value is that of the expression in C arithmetic. -/
theorem C17_value_partial (vars : Vars) (hd : Distinct vars) (e : Expr) (hc : e.InC) (hp : e.Plain) (hk : Known vars e) (ht : e.Tame) (cs : List Char) (hs : Spaced e.lexemes cs)
    (ρ : Env) (f : Nat → Int64 → Int64) (hag : Agrees vars ρ f) (hn : e.Narrow ρ) (v : Int) (hv : e.value ρ = some v) (rpn : List Tok) (ha : rpnNew vars cs = .ok rpn) :
    ∃ w, evalRpn f rpn = .ok w ∧ w.toInt = v := by
  obtain ⟨w, h1, h2⟩ := tree_value vars ρ f hag e hn v hv
  have hparse := parse_expr vars e hc hp hk cs hs
  have hg := tame_good hd hk ht true (fun h => by cases h)
  refine ⟨w, C17_same_partial vars hd e hc hp hk ht cs hs f _ rpn hparse ha w ?_, h2⟩
  rw [evalRpn_flat f _ hg.plain.1, h1]

/-! ## Examples -/

/-- Two variables and an array. -/
def sampleVars : Vars := [(['x'], 0, false), (['y'], 1, false), (['b'], 2, true)]

theorem sampleVars_distinct : Distinct sampleVars := by
  intro n m i a b hn hm
  have h : ∀ n i a, sampleVars.lookup n = some (i, a) → (n = ['x'] ∧ i = 0) ∨ (n = ['y'] ∧ i = 1) ∨ (n = ['b'] ∧ i = 2) := by
    intro n i a h
    simp only [sampleVars, List.lookup] at h
    split at h
    · rename_i hx; simp at hx h; exact Or.inl ⟨hx, h.1.symm⟩
    · split at h
      · rename_i hx; simp at hx h; exact Or.inr (Or.inl ⟨hx, h.1.symm⟩)
      · split at h
        · rename_i hx; simp at hx h; exact Or.inr (Or.inr ⟨hx, h.1.symm⟩)
        · cases h
  rcases h n i a hn with ⟨rfl, h1⟩ | ⟨rfl, h1⟩ | ⟨rfl, h1⟩ <;> rcases h m i b hm with ⟨rfl, h2⟩ | ⟨rfl, h2⟩ | ⟨rfl, h2⟩ <;> first | rfl | omega

/-- `-(3 - x/y) - x*2 + y >= (x&7)` -/
def sampleTame : Expr :=
  .bin .ge (.bin .add (.bin .sub (.un .minus (.par (.bin .sub (digit '3') (.bin .div (.var ['x']) (.var ['y']))))) (.bin .mul (.var ['x']) (digit '2'))) (.var ['y']))
    (.par (.bin .and (.var ['x']) (digit '7')))

theorem sampleTame_tame : sampleTame.InC ∧ sampleTame.Plain ∧ Known sampleVars sampleTame ∧ sampleTame.Tame ∧ Spaced sampleTame.lexemes "-(3-x/y)-x*2+y>=(x&7)".toList := by
  have hx : Expr.IsName ['x'] := ⟨'x', [], rfl, by decide, by simp⟩
  have hy : Expr.IsName ['y'] := ⟨'y', [], rfl, by decide, by simp⟩
  refine ⟨⟨⟨⟨⟨⟨digit_ok '3' (by decide), ⟨hx, hy, by decide, by decide⟩, by decide, by decide⟩, by decide⟩, ⟨hx, digit_ok '2' (by decide), by decide, by decide⟩, by decide, by decide⟩, hy, by decide, by decide⟩,
    ⟨hx, digit_ok '7' (by decide), by decide, by decide⟩, by decide, by decide⟩, ?_, ?_, ?_, ?_⟩
  · simp [sampleTame, Expr.Plain, digit, BinOp.prec, Expr.level]
  · simp [sampleTame, Known, digit, sampleVars, List.lookup]
  · simp [sampleTame, Expr.Tame, digit, Expr.additive, Expr.multiplicative, Expr.isCompare, Expr.Soft, Expr.names, Expr.plainArith]
  · exact ⟨[], _, by simp, rfl, [], _, by simp, rfl, [], _, by simp, rfl, [], _, by simp, rfl, [], _, by simp, rfl, [], _, by simp, rfl, [], _, by simp, rfl, [], _, by simp, rfl,
      [], _, by simp, rfl, [], _, by simp, rfl, [], _, by simp, rfl, [], _, by simp, rfl, [], _, by simp, rfl, [], _, by simp, rfl, [], _, by simp, rfl, [], _, by simp, rfl,
      [], _, by simp, rfl, [], _, by simp, rfl, [], _, by simp, rfl, [], [], by simp, rfl, by simp [Spaced]⟩

/-- The simplifier returns, and the tokens differ from those parsed. -/
theorem sampleTame_ok : (∃ rpn, rpnNew sampleVars "-(3-x/y)-x*2+y>=(x&7)".toList = .ok rpn) ∧ rpnNew sampleVars "-(3-x/y)-x*2+y>=(x&7)".toList ≠ parse sampleVars "-(3-x/y)-x*2+y>=(x&7)".toList := by
  have h : (rpnNew sampleVars "-(3-x/y)-x*2+y>=(x&7)".toList).isOk = true := by decide +kernel
  refine ⟨?_, by decide +kernel⟩
  cases h' : rpnNew sampleVars "-(3-x/y)-x*2+y>=(x&7)".toList with
  | ok rpn => exact ⟨rpn, rfl⟩
  | error e => rw [h'] at h; cases h

example (f : Nat → Int64 → Int64) (before after : List Tok) (hb : parse sampleVars "-(3-x/y)-x*2+y>=(x&7)".toList = .ok before)
    (ha : rpnNew sampleVars "-(3-x/y)-x*2+y>=(x&7)".toList = .ok after) (v : Int64) (hv : evalRpn f before = .ok v) : evalRpn f after = .ok v := by
  obtain ⟨h1, h2, h3, h4, h5⟩ := sampleTame_tame
  exact C17_same_partial sampleVars sampleVars_distinct sampleTame h1 h2 h3 h4 _ h5 f before after hb ha v hv

/-! ## What the simplifier gets wrong -/

/-- The value after simplification, `x = 5`, `y = 3`, `b[i] = 10 * i + 1`. -/
def after (text : String) : Except Err Int64 := do evalRpn (fun id i => if id = 0 then 5 else if id = 1 then 3 else 10 * i + 1) (← rpnNew sampleVars text.toList)

/-- Powers and bitwise combinations of a variable with itself are merged like sums: `x*x` becomes `x`, `2*x & x` becomes 0. -/
theorem C17_merge_counterexample : after "x*x" = .ok 5 ∧ after "(2*x)&x" = .ok 0 := by decide +kernel

/-- Different elements of an array are merged: `b[0] + b[1]` (1 + 11) becomes twice `b[0]`. -/
theorem C17_array_counterexample : after "b[0]+b[1]" = .ok 2 := by decide +kernel

/-- A difference in parentheses on the right of a sum: the signs are exchanged, `x + (x*y - y/x)` (5 + 15 - 0) becomes `x - x*y + y/x`. -/
theorem C17_rotate_counterexample : after "x + (x*y - y/x)" = .ok (-10) := by decide +kernel

/-- A unary plus before a negated sum drops the negation. -/
theorem C17_plus_counterexample : after "+((-(x+y))*1)" = .ok 8 := by decide +kernel

/-- A variable that vanishes next to an array element takes the element's index with it: `x*0 + b[1]` (11) becomes `b[0]`. -/
theorem C17_vanish_counterexample : after "x*0+b[1]" = .ok 1 := by decide +kernel

/-- The simplifier aborts on nested products, on complements or comparisons in sums. -/
theorem C17_abort_counterexample : after "x*(y*x)" = .error .panic ∧ after "(x*y)*2" = .error .panic ∧ after "!x+y" = .error .panic ∧ after "(x>=y)+1" = .error .panic := by
  decide +kernel

end Nd.Props
