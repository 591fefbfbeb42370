import Verif.Props.Simplify
/-!
# C17: expressions with an element of an array
-/
namespace Nd.Props
open Nd Nd.Spec Nd.Eval

/-- The elements of the tree are those of the expression. -/
theorem within_tree (vars : Vars) (A : Nat → Int64 → Bool) {e : Expr} (h : e.Lone) (hA : ∀ n k, (n, k) ∈ e.elements → A (ident vars n) (Int64.ofNat k) = true) : (toTree vars e).within A = true := by
  induction e with
  | num _ => rfl
  | var _ => rfl
  | idx n i _ =>
    obtain ⟨k, hk, _⟩ := h
    rw [toTree, lit_tree vars hk]
    exact hA n k (by simp [Expr.elements, hk])
  | par e ih => exact ih h hA
  | un u e ih => exact ih h.1 hA
  | bin o l r ihl ihr =>
    have h1 := ihl h.1 fun n k hm => hA n k (List.mem_append_left _ hm)
    have h2 := ihr h.2.1 fun n k hm => hA n k (List.mem_append_right _ hm)
    cases o <;> simp [toTree, binTree, Tree.within, h1, h2]

theorem elements_bare (vars : Vars) {e : Expr} (h : e.Lone) (he : e.elements = []) : (toTree vars e).bare = true :=
  within_tree vars _ h fun n k hm => by rw [he] at hm; cases hm

theorem ofNat_inj {v w : Nat} (hv : v < 2 ^ 63) (hw : w < 2 ^ 63) (h : Int64.ofNat v = Int64.ofNat w) : v = w := by
  have := congrArg Int64.toInt h
  rw [Int64.toInt_ofNat', Int64.toInt_ofNat', bmod_fit (by omega) (by omega), bmod_fit (by omega) (by omega)] at this
  omega

theorem effective_notId {o : BinOp} {v : Nat} (hv : v < 2 ^ 63) (h : Expr.effective o v = true) : Tree.notId (opToken o) (Int64.ofNat v) := by
  have zero : v ≠ 0 → Int64.ofNat v ≠ 0 := fun h0 h => h0 (ofNat_inj hv (by decide) h)
  have one : v ≠ 1 → Int64.ofNat v ≠ 1 := fun h0 h => h0 (ofNat_inj hv (by decide) h)
  have neg : Int64.ofNat v ≠ -1 := by
    intro h
    have := congrArg Int64.toInt h
    rw [Int64.toInt_ofNat', bmod_fit (by omega) (by omega)] at this
    have h1 : (-1 : Int64).toInt = -1 := by decide
    omega
  cases o <;> simp only [Expr.effective, decide_eq_true_eq, ne_eq, Bool.false_eq_true] at h <;> simp [Tree.notId, opToken, isAddsub, isId] <;>
    first | exact zero h | exact one h | exact neg

theorem op_tree (vars : Vars) {o : BinOp} (h : Expr.isCompare o = false) (l r : Expr) : toTree vars (.bin o l r) = .op (opToken o) (toTree vars l) (toTree vars r) := by
  cases o <;> first | rfl | cases h

theorem firm_tree (vars : Vars) {e : Expr} (h : e.Firm) : (toTree vars e).Firm := by
  induction e with
  | par e ih => exact ih h
  | bin o l r ihl ihr =>
    have side : ∀ {e : Expr}, (e.Firm → (toTree vars e).Firm) → (e.isElement = true ∨ Expr.additive o = false ∧ e.Firm) →
        ((toTree vars e).coefOf.isSome = true ∨ isAddsub (opToken o) = false ∧ (toTree vars e).Firm) := by
      intro e ih h
      rcases h with h | ⟨h1, h2⟩
      · obtain ⟨id, k, h⟩ := element_tree vars h
        rw [h]
        exact Or.inl rfl
      · exact Or.inr ⟨(by cases o <;> first | rfl | cases h1), ih h2⟩
    have lits : ∀ {e : Expr}, e.changes o → Expr.isCompare o = false ∧ opToken o ≠ '*' ∧ ∃ v, toTree vars e = .val v ∧ Tree.notId (opToken o) v := by
      rintro e ⟨v, h1, h2, h3⟩
      refine ⟨(by cases o <;> first | rfl | cases h3), (by cases o <;> first | decide | cases h3), _, lit_tree vars h1, effective_notId h2 h3⟩
    rcases h with ⟨h1, h2⟩ | ⟨h1, h2⟩
    · obtain ⟨a, b, c⟩ := lits h2
      rw [op_tree vars a]
      exact ⟨b, Or.inl ⟨side ihl h1, c⟩⟩
    · obtain ⟨a, b, c⟩ := lits h2
      rw [op_tree vars a]
      exact ⟨b, Or.inr ⟨side ihr h1, c⟩⟩
  | _ => exact h.elim

theorem scaled_tree (vars : Vars) {l r : Expr} (hl : l.Lone) (hr : r.Lone) (h : l.Scaled r) : Tree.Scaled (toTree vars l) (toTree vars r) := by
  have el : ∀ {l r : Expr}, l.isElement = true → r.positive → ∃ c v, (toTree vars l).coefOf = some c ∧ toTree vars r = .val v ∧ c * v ≠ 0 := by
    rintro l r h1 ⟨v, h2, h3, h4⟩
    obtain ⟨id, k, h⟩ := element_tree vars h1
    refine ⟨1, _, by rw [h]; rfl, lit_tree vars h2, ?_⟩
    rw [Int64.one_mul]
    exact fun h => h4 (ofNat_inj h3 (by decide) h)
  rcases h with ⟨h1, h2⟩ | ⟨h1, h2⟩ | ⟨h1, h2⟩ | ⟨h1, h2⟩ | ⟨h1, h2⟩
  · exact Or.inl ⟨elements_bare vars hl h1, elements_bare vars hr h2⟩
  · exact Or.inr (Or.inl (el h1 h2))
  · exact Or.inr (Or.inr (Or.inl (el h1 h2)))
  · exact Or.inr (Or.inr (Or.inr (Or.inl ⟨firm_tree vars h1, elements_bare vars hr h2⟩)))
  · exact Or.inr (Or.inr (Or.inr (Or.inr ⟨elements_bare vars hl h1, firm_tree vars h2⟩)))

theorem lone_good {vars : Vars} {e : Expr} (h : e.Lone) (g : Bool) (hg : g = false → e.plainArith = true) : (toTree vars e).Good true true g fun _ => False := by
  induction e generalizing g with
  | num _ => trivial
  | var n => exact h.elim
  | idx n i _ =>
    obtain ⟨k, hk, _⟩ := h
    rw [toTree, lit_tree vars hk]
    exact ⟨rfl, rfl, _, rfl⟩
  | par e ih => exact ih h g hg
  | un u e ih =>
    have := ih h.1 g hg
    cases u with
    | plus => exact Or.inr (Or.inr (Or.inr ⟨rfl, rfl, bare_leaf vars (h.2 rfl), this⟩))
    | minus => exact Or.inl ⟨rfl, this⟩
    | tilde => exact Or.inr (Or.inl ⟨rfl, this⟩)
    | bang => exact Or.inr (Or.inl ⟨rfl, this⟩)
  | bin o l r ihl ihr =>
    obtain ⟨hl, hr, hone, hadd, hmul, hcmp⟩ := h
    have one : ((toTree vars l).bare || (toTree vars r).bare) = true := by
      rw [Bool.or_eq_true]
      exact hone.imp (elements_bare vars hl) (elements_bare vars hr)
    cases ho : Expr.isCompare o with
    | false =>
      have h1 : g = false → l.plainArith = true ∧ r.plainArith = true := by
        intro hg'
        have := hg hg'
        simp only [Expr.plainArith, Bool.and_eq_true] at this
        exact ⟨this.1.2, this.2⟩
      have gl := ihl hl g fun h => (h1 h).1
      have gr := ihr hr g fun h => (h1 h).2
      rw [op_tree vars ho]
      cases ha : Expr.additive o with
      | true => exact (Tree.good_op_add (by cases o <;> first | rfl | (cases ho; done) | (cases ha; done))).2 ⟨gl, gr, soft_mild vars (hadd ha), (fun h => by cases h), one⟩
      | false =>
        have hc : isAddsub (opToken o) = false := by cases o <;> first | rfl | cases ha
        simp only [Tree.Good, hc]
        refine ⟨one, fun he => scaled_tree vars hl hr (hmul (by cases o <;> first | rfl | cases he)), ?_⟩
        split
        · exact ⟨_, _, fun _ h => h, fun _ h => h, fun _ h => h.elim, gl, gr⟩
        · exact ⟨gl, gr⟩
    | true =>
      have hgt : g = true := by
        cases g with
        | true => rfl
        | false =>
          have := hg rfl
          simp [Expr.plainArith, ho] at this
      obtain ⟨h1, h2⟩ := hcmp ho
      have gl := ihl hl false fun _ => h1
      have gr := ihr hr false fun _ => h2
      have diff : ∀ c, isAddsub c = true → (Tree.op c (toTree vars l) (toTree vars r)).Good true true false fun _ => False :=
        fun c hc => (Tree.good_op_add hc).2 ⟨gl, gr, soft_mild vars (hadd (by cases o <;> first | rfl | cases ho)), (fun h => by cases h), one⟩
      have minus : ∀ t : Tree, (t.Good true true false fun _ => False) → (Tree.op '+' t (.val (-1))).Good true true false fun _ => False :=
        fun t ht => (Tree.good_op_add rfl).2 ⟨ht, trivial, trivial, (fun h => by cases h), by simp [Tree.bare, Tree.within]⟩
      have ge : ∀ t : Tree, (t.Good true true false fun _ => False) → (Tree.pre 'G' t).Good true true g fun _ => False := fun t ht => Or.inr (Or.inr (Or.inl ⟨rfl, hgt, ht⟩))
      cases o with
      | gt => exact ge _ (minus _ (diff _ rfl))
      | ge => exact ge _ (diff _ rfl)
      | lt => exact ge _ (minus _ (diff _ rfl))
      | le => exact ge _ (diff _ rfl)
      | _ => cases ho

/-- The compiled expression. -/
theorem lone_compiled {vars : Vars} {e : Expr} (hc : e.InC) (hp : e.Plain) (hk : Known vars e) (ht : e.Lone) {cs : List Char} (hs : Spaced e.lexemes cs) (f : Nat → Int64 → Int64)
    {rpn : List Tok} (ha : rpnNew vars cs = .ok rpn) :
    ∃ t' : Tree, rpn = t'.flat ∧ t'.clean true = true ∧ (∀ A, (toTree vars e).within A = true → t'.within A = true) ∧ ∀ v, (toTree vars e).eval f = some v → t'.eval f = some v := by
  unfold rpnNew at ha
  rw [parse_expr vars e hc hp hk cs hs, ok_bind] at ha
  exact canonize_keep f true _ _ (lone_good ht true fun h => by cases h) rpn ha

/-- The value of an expression with an element of an array is that of the expression in C arithmetic, whatever is simplified: for every expression tree of the class `Lone`, every choice of white space,
all contents of the arrays.

Partial: expressions outside `Lone` and `Tame`. -/
theorem C17_array_value_partial (vars : Vars) (e : Expr) (hc : e.InC) (hp : e.Plain) (hk : Known vars e) (ht : e.Lone) (cs : List Char) (hs : Spaced e.lexemes cs)
    (ρ : Env) (f : Nat → Int64 → Int64) (hag : Agrees vars ρ f) (hn : e.Narrow ρ) (v : Int) (hv : e.value ρ = some v) (rpn : List Tok) (ha : rpnNew vars cs = .ok rpn) :
    ∃ w, evalRpn f rpn = .ok w ∧ w.toInt = v := by
  obtain ⟨w, h1, h2⟩ := tree_value vars ρ f hag e hn v hv
  obtain ⟨t', rfl, h3, _, h4⟩ := lone_compiled hc hp hk ht hs f ha
  exact ⟨w, by rw [evalRpn_flat f _ h3, h4 w h1], h2⟩

/-! ## An example -/

/-- `7 - b[1]*2 >= 3` -/
def sampleLone : Expr := .bin .ge (.bin .sub (digit '7') (.bin .mul (.idx ['b'] (digit '1')) (digit '2'))) (digit '3')

theorem sampleLone_lone : sampleLone.InC ∧ sampleLone.Plain ∧ Known sampleVars sampleLone ∧ sampleLone.Lone ∧ Spaced sampleLone.lexemes "7-b[1]*2>=3".toList := by
  have e1 : (digit '1').lit = some 1 := by decide
  have e2 : (digit '2').lit = some 2 := by decide
  refine ⟨⟨⟨digit_ok '7' (by decide), ⟨⟨⟨'b', [], rfl, by decide, by simp⟩, digit_ok '1' (by decide)⟩, digit_ok '2' (by decide), by decide, by decide⟩, by decide, by decide⟩, digit_ok '3' (by decide), by decide, by decide⟩,
    ?_, ?_, ?_, ?_⟩
  · simp [sampleLone, Expr.Plain, digit, BinOp.prec, Expr.level, Expr.signed]
  · simp [sampleLone, Known, digit, sampleVars, List.lookup]
  · refine ⟨⟨trivial, ⟨⟨1, e1, by decide⟩, trivial, Or.inr rfl, (fun h => by cases h), fun _ => Or.inr (Or.inl ⟨by simp [Expr.isElement, e1], 2, e2, by decide, by decide⟩), fun h => by cases h⟩,
      Or.inl rfl, fun _ _ => ⟨trivial, trivial⟩, (fun h => by cases h), fun h => by cases h⟩, trivial, Or.inr rfl, fun _ => trivial, (fun h => by cases h), fun _ => ⟨rfl, rfl⟩⟩
  · exact ⟨[], _, by simp, rfl, [], _, by simp, rfl, [], _, by simp, rfl, [], _, by simp, rfl, [], _, by simp, rfl, [], _, by simp, rfl, [], _, by simp, rfl, [], _, by simp, rfl,
      [], _, by simp, rfl, [], [], by simp, rfl, by simp [Spaced]⟩

/-- The tokens differ from those parsed. -/
example : (rpnNew sampleVars "7-b[1]*2>=3".toList).isOk = true ∧ rpnNew sampleVars "7-b[1]*2>=3".toList ≠ parse sampleVars "7-b[1]*2>=3".toList := by
  decide +kernel

example (f : Nat → Int64 → Int64) (hf : (f 2 1).toInt = 2) (rpn : List Tok) (ha : rpnNew sampleVars "7-b[1]*2>=3".toList = .ok rpn) : ∃ w, evalRpn f rpn = .ok w ∧ w.toInt = 1 := by
  obtain ⟨h1, h2, h3, h4, h5⟩ := sampleLone_lone
  have hv : sampleLone.value ⟨fun _ => none, fun n i => if n = ['b'] ∧ i = 1 then some 2 else none⟩ = some 1 := by decide +kernel
  refine C17_array_value_partial sampleVars sampleLone h1 h2 h3 h4 _ h5 ⟨fun _ => none, fun n i => if n = ['b'] ∧ i = 1 then some 2 else none⟩ f ⟨(fun n v h => by cases h), ?_⟩ ?_ 1 hv rpn ha
  · intro n i v h
    simp only at h
    split at h
    · rename_i hc
      obtain ⟨rfl, hi⟩ := hc
      cases h
      have : i = 1 := Int64.toInt_inj.1 (by rw [hi]; decide)
      subst this
      exact hf
    · cases h
  · refine ⟨⟨trivial, ⟨trivial, trivial, fun h => by cases h⟩, fun h => by cases h⟩, trivial, fun _ x y hx hy => ?_⟩
    have e1 : x = 3 := by
      have : Expr.value ⟨fun _ => none, fun n i => if n = ['b'] ∧ i = 1 then some 2 else none⟩ (.bin .sub (digit '7') (.bin .mul (.idx ['b'] (digit '1')) (digit '2'))) = some 3 := by decide +kernel
      rw [this] at hx; cases hx; rfl
    have e2 : y = 3 := by
      have : Expr.value ⟨fun _ => none, fun n i => if n = ['b'] ∧ i = 1 then some 2 else none⟩ (digit '3') = some 3 := by decide +kernel
      rw [this] at hy; cases hy; rfl
    omega

end Nd.Props
