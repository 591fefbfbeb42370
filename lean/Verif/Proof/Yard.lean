import Verif.Proof.Lexer
/-!
# Unary operators and the shunting yard
-/
namespace Nd.Eval
open Nd Nd.Spec

/-! ## Trees in reverse Polish notation -/

/-- What a slice of the notation denotes.  `arr` is an element of an array before simplification, `idx` after it. -/
inductive Tree where
  | val (v : Int64)
  | var (id : Nat) (c : Int64)
  | idx (id : Nat) (c : Int64) (t : Tree)
  | arr (id : Nat) (t : Tree)
  | pre (c : Char) (t : Tree)
  | op (c : Char) (l r : Tree)

namespace Tree

def flat : Tree → List Tok
  | val v => [(.val v, 0)]
  | var id c => [(.var id c, 0)]
  | idx id c t => t.flat ++ [(.var id c, 1)]
  | arr id t => t.flat ++ [(.varArr id, t.flat.length)]
  | pre c t => t.flat ++ [(.pre c, 1)]
  | op c l r => l.flat ++ r.flat ++ [(.op c, r.flat.length + 1)]

/-- The last token. -/
def root : Tree → Tok
  | val v => (.val v, 0)
  | var id c => (.var id c, 0)
  | idx id c _ => (.var id c, 1)
  | arr id t => (.varArr id, t.flat.length)
  | pre c _ => (.pre c, 1)
  | op c _ r => (.op c, r.flat.length + 1)

/-- What is before the last token. -/
def stem : Tree → List Tok
  | val _ | var _ _ => []
  | idx _ _ t | arr _ t | pre _ t => t.flat
  | op _ l r => l.flat ++ r.flat

theorem flat_eq (t : Tree) : t.flat = t.stem ++ [t.root] := by
  cases t <;> rfl

theorem flat_pos (t : Tree) : 0 < t.flat.length := by rw [flat_eq]; simp

theorem flat_ne (t : Tree) : t.flat ≠ [] := by rw [flat_eq]; simp

end Tree

/-! ## Unary operators -/

def unMark : UnOp → Char
  | .plus => '+'
  | .minus => '-'
  | .tilde => '!'
  | .bang => '!'

/-- The tokens after `mark_prefices`. -/
def marks (vars : Vars) : Expr → List Token
  | .num l => [.val (Int64.ofNat l.value)]
  | .var n => [.var (ident vars n) 1]
  | .idx n e => [.varArr (ident vars n), .paren '['] ++ marks vars e ++ [.paren ']']
  | .par e => [.paren '('] ++ marks vars e ++ [.paren ')']
  | .un u e => .pre (unMark u) :: marks vars e
  | .bin o l r => marks vars l ++ .op (opToken o) :: marks vars r

/-- What may precede an operand. -/
def Lead (t : Token) : Prop := t = .paren '(' ∨ t = .paren '[' ∨ (∃ c, t = .op c) ∨ ∃ c, t = .pre c

theorem fix_open {former t : Token} (h : Lead former) (ht : opens t = true) : fixPair former t = some t := by
  rcases h with rfl | rfl | ⟨c, rfl⟩ | ⟨c, rfl⟩ <;> cases t <;> simp_all [fixPair, pairOk, opens]

theorem fix_close {former : Token} (h : closes former = true) (c : Char) (hc : c = ')' ∨ c = ']') : fixPair former (.paren c) = some (.paren c) := by
  rcases hc with rfl | rfl <;> cases former <;> simp_all [fixPair, pairOk, closes]

theorem fix_op {former : Token} (h : closes former = true) (c : Char) : fixPair former (.op c) = some (.op c) := by
  cases former <;> simp_all [fixPair, pairOk, closes, beforeUnary]
  rcases h with rfl | rfl <;> simp

theorem fix_un {former : Token} (h : beforeUnary former = true) (u : UnOp) : fixPair former (.op (unToken u)) = some (.pre (unMark u)) := by
  cases u <;> simp [fixPair, h, isUnary, unToken, unMark]

/-- The unary operators are marked. -/
theorem mark_expr (vars : Vars) (e : Expr) (hp : e.Plain) (former : Token) (hl : Lead former)
    (hf : beforeUnary former = true ∨ e.signed = false) :
    ∃ last, closes last = true ∧ ∀ rest, markFrom former (toks vars e ++ rest) = (markFrom last rest).map (marks vars e ++ ·) := by
  have cons : ∀ (former t : Token) (t' : Token) (rest : List Token), fixPair former t = some t' → markFrom former (t :: rest) = (markFrom t' rest).map (t' :: ·) := by
    intro former t t' rest h
    simp [markFrom, h]
  induction e generalizing former with
  | num l =>
    refine ⟨.val (Int64.ofNat l.value), rfl, fun rest => ?_⟩
    exact cons former _ _ rest (fix_open hl rfl)
  | var n =>
    refine ⟨.var (ident vars n) 1, rfl, fun rest => ?_⟩
    exact cons former _ _ rest (fix_open hl rfl)
  | idx n e ih =>
    obtain ⟨last, h1, h2⟩ := ih hp.1 (.paren '[') (Or.inr (Or.inl rfl)) (Or.inr hp.2)
    refine ⟨.paren ']', rfl, fun rest => ?_⟩
    have h3 : toks vars (.idx n e) ++ rest = .varArr (ident vars n) :: .paren '[' :: (toks vars e ++ .paren ']' :: rest) := by simp [toks]
    rw [h3, cons former _ _ _ (fix_open hl rfl), cons (.varArr _) (.paren '[') (.paren '[') _ (by simp [fixPair, pairOk]), h2,
      cons last (.paren ']') _ _ (fix_close h1 ']' (Or.inr rfl))]
    simp only [Option.map_map, marks]
    congr 1
    funext x
    simp
  | par e ih =>
    obtain ⟨last, h1, h2⟩ := ih hp (.paren '(') (Or.inl rfl) (Or.inl rfl)
    refine ⟨.paren ')', rfl, fun rest => ?_⟩
    have h3 : toks vars (.par e) ++ rest = .paren '(' :: (toks vars e ++ .paren ')' :: rest) := by simp [toks]
    rw [h3, cons former _ _ _ (fix_open hl rfl), h2, cons last (.paren ')') _ _ (fix_close h1 ')' (Or.inl rfl))]
    simp only [Option.map_map, marks]
    congr 1
    funext x
    simp
  | un u e ih =>
    have hb : beforeUnary former = true := by
      rcases hf with h | h
      · exact h
      · cases h
    have hs : e.signed = false := by
      have := hp.2
      cases e with
      | bin o l r => cases o <;> simp [Expr.level, BinOp.prec] at this
      | un u e => simp [Expr.level] at this
      | _ => rfl
    obtain ⟨last, h1, h2⟩ := ih hp.1 (.pre (unMark u)) (Or.inr (Or.inr (Or.inr ⟨_, rfl⟩))) (Or.inr hs)
    refine ⟨last, h1, fun rest => ?_⟩
    have h3 : toks vars (.un u e) ++ rest = .op (unToken u) :: (toks vars e ++ rest) := by simp [toks]
    rw [h3, cons former _ _ _ (fix_un hb u), h2]
    simp only [Option.map_map, marks]
    congr 1
  | bin o l r ihl ihr =>
    obtain ⟨last, h1, h2⟩ := ihl hp.1 former hl hf
    obtain ⟨last', h1', h2'⟩ := ihr hp.2.1 (.op (opToken o)) (Or.inr (Or.inr (Or.inl ⟨_, rfl⟩))) (Or.inl rfl)
    refine ⟨last', h1', fun rest => ?_⟩
    have h3 : toks vars (.bin o l r) ++ rest = toks vars l ++ .op (opToken o) :: (toks vars r ++ rest) := by simp [toks]
    rw [h3, h2, cons last _ _ _ (fix_op h1 _), h2']
    simp only [Option.map_map, marks]
    congr 1
    funext x
    simp

theorem marks_expr (vars : Vars) (e : Expr) (hp : e.Plain) :
    markPrefices (.paren '(' :: toks vars e ++ [.paren ')']) = some (.paren '(' :: marks vars e ++ [.paren ')']) := by
  obtain ⟨last, h1, h2⟩ := mark_expr vars e hp (.paren '(') (Or.inl rfl) (Or.inl rfl)
  simp only [markPrefices, List.cons_append, h2]
  simp [markFrom, fix_close h1 ')' (Or.inl rfl)]

/-! ## Shunting yard -/

/-- The tree of a binary operator; comparisons are differences and a test of the sign. -/
def binTree (o : BinOp) (l r : Tree) : Tree :=
  match o with
  | .gt => .pre 'G' (.op '+' (.op '-' l r) (.val (-1)))
  | .ge => .pre 'G' (.op '-' l r)
  | .lt => .pre 'G' (.op '+' (.op '~' l r) (.val (-1)))
  | .le => .pre 'G' (.op '~' l r)
  | o => .op (opToken o) l r

theorem flat_binTree (o : BinOp) (l r : Tree) : (binTree o l r).flat = l.flat ++ r.flat ++ expandOp (.op (opToken o)) (r.flat.length + 1) := by
  cases o <;> simp [binTree, Tree.flat, expandOp, opToken]

/-- The tree of an expression. -/
def toTree (vars : Vars) : Expr → Tree
  | .num l => .val (Int64.ofNat l.value)
  | .var n => .var (ident vars n) 1
  | .idx n e => .arr (ident vars n) (toTree vars e)
  | .par e => toTree vars e
  | .un u e => .pre (unMark u) (toTree vars e)
  | .bin o l r => binTree o (toTree vars l) (toTree vars r)

/-- The levels distinguished by `latter_precedes`. -/
theorem latterPrecedes_op (a b : BinOp) : latterPrecedes (.op (opToken a)) (.op (opToken b)) = decide (max a.prec 4 < max b.prec 4) := by
  cases a <;> cases b <;> rfl

theorem latterPrecedes_pre (c : Char) (b : BinOp) : latterPrecedes (.pre c) (.op (opToken b)) = false := by
  cases b <;> rfl

/-- The level of an expression to the shunting yard. -/
def lev (e : Expr) : Nat := max e.level 4

/-- What is on the stack does not interfere with operators of level at least `k`. -/
def TopOk (k : Nat) : List Tok → Prop
  | [] => True
  | (t, _) :: _ => t = .paren '(' ∨ t = .paren '[' ∨ (∃ o, t = .op (opToken o) ∧ max o.prec 4 < k) ∨ ((∃ c, t = .pre c) ∧ k = 9)

/-- An operator of level at least `k` waiting for the end of its operand. -/
def Pending (k : Nat) (t : Tok) : Prop := (∃ o, t.1 = .op (opToken o) ∧ k ≤ max o.prec 4) ∨ ∃ c, t.1 = .pre c

/-- The pending operators are popped. -/
def flush : List Tok → List Tok → List Tok
  | [], rpn => rpn
  | t :: ts, rpn => flush ts (pushPopped t rpn)

theorem flush_append (a b : List Tok) (rpn : List Tok) : flush (a ++ b) rpn = flush b (flush a rpn) := by
  induction a generalizing rpn with
  | nil => rfl
  | cons t a ih => exact ih _

theorem popOps_pending (o : BinOp) (k : Nat) (hk : max o.prec 4 ≤ k) (stk : List Tok) (hs : TopOk (max o.prec 4) stk) :
    ∀ (P rpn : List Tok), (∀ t ∈ P, Pending k t) → popOps (opToken o) (P ++ stk) rpn = (flush P rpn, stk)
  | [], rpn, _ => by
    cases stk with
    | nil => rfl
    | cons t stk =>
      obtain ⟨t, n⟩ := t
      have : latterPrecedes t (.op (opToken o)) = true := by
        rcases hs with rfl | rfl | ⟨a, rfl, ha⟩ | ⟨_, h9⟩
        · rfl
        · rfl
        · rw [latterPrecedes_op]; simpa using ha
        · exfalso; revert h9; cases o <;> decide
      simp [popOps, this, flush]
  | t :: P, rpn, h => by
    have : latterPrecedes t.1 (.op (opToken o)) = false := by
      rcases h t (by simp) with ⟨a, ha, hka⟩ | ⟨c, hc⟩
      · rw [ha, latterPrecedes_op]; simp; omega
      · rw [hc, latterPrecedes_pre]
    simp only [List.cons_append, popOps, this, Bool.false_eq_true, if_false]
    exact popOps_pending o k hk stk hs P _ (fun t ht => h t (by simp [ht]))

theorem popParen_pending (c : Char) (n : Nat) (k : Nat) (stk : List Tok) :
    ∀ (P rpn : List Tok), (∀ t ∈ P, Pending k t) → popParen c (P ++ (.paren c, n) :: stk) rpn = some (flush P rpn, stk)
  | [], rpn, _ => by simp [popParen, flush]
  | t :: P, rpn, h => by
    have : t.1 ≠ .paren c := by
      rcases h t (by simp) with ⟨a, ha, _⟩ | ⟨c, hc⟩ <;> simp [*]
    simp only [List.cons_append, popParen, if_neg this]
    exact popParen_pending c n k stk P _ (fun t ht => h t (by simp [ht]))

theorem rpnLoop_cons (t : Token) (ts : List Token) (st st' : List Tok × List Tok) (h : rpnStep st t = some st') : rpnLoop (t :: ts) st = rpnLoop ts st' := by
  simp [rpnLoop, h]

theorem topOk_mono {k k' : Nat} (hk : k ≤ k') {stk : List Tok} (h : TopOk k stk) (h9 : k' = 9 ∨ k < 9) : TopOk k' stk := by
  cases stk with
  | nil => trivial
  | cons t stk =>
    obtain ⟨t, n⟩ := t
    rcases h with h | h | ⟨o, h, ho⟩ | ⟨h, h'⟩
    · exact Or.inl h
    · exact Or.inr (Or.inl h)
    · exact Or.inr (Or.inr (Or.inl ⟨o, h, by omega⟩))
    · exact Or.inr (Or.inr (Or.inr ⟨h, by omega⟩))

theorem prec_lt (o : BinOp) : o.prec ≤ 7 := by cases o <;> decide

theorem yard (vars : Vars) (e : Expr) (hc : e.InC) (hp : e.Plain) (rpn stk : List Tok) (hs : TopOk (lev e) stk) :
    ∃ A P, (∀ rest, rpnLoop (marks vars e ++ rest) (rpn, stk) = rpnLoop rest (A, P ++ stk)) ∧ (∀ t ∈ P, Pending (lev e) t) ∧
      flush P A = rpn ++ (toTree vars e).flat := by
  induction e generalizing rpn stk with
  | num l => exact ⟨_, [], fun rest => rfl, by simp, rfl⟩
  | var n => exact ⟨_, [], fun rest => rfl, by simp, rfl⟩
  | idx n e ih =>
    obtain ⟨A, P, h1, h2, h3⟩ := ih hc.2 hp.1 rpn ((.paren '[', rpn.length + 1) :: (.varArr (ident vars n), rpn.length + 1) :: stk) (Or.inr (Or.inl rfl))
    refine ⟨rpn ++ (toTree vars (.idx n e)).flat, [], fun rest => ?_, by simp, rfl⟩
    have h4 : marks vars (.idx n e) ++ rest = .varArr (ident vars n) :: .paren '[' :: (marks vars e ++ .paren ']' :: rest) := by simp [marks]
    rw [h4, rpnLoop_cons _ _ _ (rpn, (.varArr (ident vars n), rpn.length + 1) :: stk) rfl,
      rpnLoop_cons _ _ _ (rpn, (.paren '[', rpn.length + 1) :: (.varArr (ident vars n), rpn.length + 1) :: stk) rfl, h1]
    apply rpnLoop_cons
    have h5 := popParen_pending '[' (rpn.length + 1) (lev e) ((.varArr (ident vars n), rpn.length + 1) :: stk) P A h2
    simp only [rpnStep, show ¬ (']' = '(' ∨ ']' = '[') by decide, show ¬ ']' = ')' by decide, if_false, if_true, h5, h3]
    simp [pushPopped, expandOp, calcLhs, toTree, Tree.flat, List.append_assoc]
  | par e ih =>
    obtain ⟨A, P, h1, h2, h3⟩ := ih hc hp rpn ((.paren '(', rpn.length + 1) :: stk) (Or.inl rfl)
    refine ⟨rpn ++ (toTree vars (.par e)).flat, [], fun rest => ?_, by simp, rfl⟩
    have h4 : marks vars (.par e) ++ rest = .paren '(' :: (marks vars e ++ .paren ')' :: rest) := by simp [marks]
    rw [h4, rpnLoop_cons _ _ _ (rpn, (.paren '(', rpn.length + 1) :: stk) rfl, h1]
    apply rpnLoop_cons
    have h5 := popParen_pending '(' (rpn.length + 1) (lev e) stk P A h2
    simp only [rpnStep, show ¬ (')' = '(' ∨ ')' = '[') by decide, if_false, if_true, h5, h3]
    rfl
  | un u e ih =>
    have h9 : lev e = 9 := by unfold lev; rw [hp.2]; rfl
    obtain ⟨A, P, h1, h2, h3⟩ := ih hc.1 hp.1 rpn ((.pre (unMark u), rpn.length + 1) :: stk) (Or.inr (Or.inr (Or.inr ⟨⟨_, rfl⟩, h9⟩)))
    refine ⟨A, P ++ [(.pre (unMark u), rpn.length + 1)], fun rest => ?_, ?_, ?_⟩
    · have h4 : marks vars (.un u e) ++ rest = .pre (unMark u) :: (marks vars e ++ rest) := by simp [marks]
      rw [h4, rpnLoop_cons _ _ _ (rpn, (.pre (unMark u), rpn.length + 1) :: stk) rfl, h1]
      simp
    · intro t ht
      rcases List.mem_append.1 ht with ht | ht
      · rcases h2 t ht with ⟨o, ho, hk⟩ | h
        · have := prec_lt o; omega
        · exact Or.inr h
      · simp at ht; subst ht; exact Or.inr ⟨_, rfl⟩
    · rw [flush_append, h3]
      simp [flush, pushPopped, expandOp, calcLhs, toTree, Tree.flat]
  | bin o l r ihl ihr =>
    have hle : lev (.bin o l r) = max o.prec 4 := rfl
    rw [hle] at hs
    have ho := prec_lt o
    have hl : max o.prec 4 ≤ lev l := by have := hc.2.2.1; unfold lev; omega
    have hr : max o.prec 4 < lev r := by
      have h1 := hc.2.2.2
      have h2 := hp.2.2
      unfold lev
      by_cases h4 : o.prec ≤ 4
      · have := h2 h4; omega
      · omega
    obtain ⟨A, P, h1, h2, h3⟩ := ihl hc.1 hp.1 rpn stk (topOk_mono hl hs (Or.inr (by omega)))
    obtain ⟨A', P', h1', h2', h3'⟩ := ihr hc.2.1 hp.2.1 (rpn ++ (toTree vars l).flat) ((.op (opToken o), (rpn ++ (toTree vars l).flat).length) :: stk)
      (Or.inr (Or.inr (Or.inl ⟨o, rfl, hr⟩)))
    refine ⟨A', P' ++ [(.op (opToken o), (rpn ++ (toTree vars l).flat).length)], fun rest => ?_, ?_, ?_⟩
    · have h4 : marks vars (.bin o l r) ++ rest = marks vars l ++ .op (opToken o) :: (marks vars r ++ rest) := by simp [marks]
      rw [h4, h1, rpnLoop_cons _ _ _ (rpn ++ (toTree vars l).flat, (.op (opToken o), (rpn ++ (toTree vars l).flat).length) :: stk), h1']
      · simp
      · have h5 := popOps_pending o (lev l) hl stk hs P A h2
        simp only [rpnStep, h5, h3]
    · intro t ht
      rw [hle]
      rcases List.mem_append.1 ht with ht | ht
      · rcases h2' t ht with ⟨a, ha, hk⟩ | h
        · exact Or.inl ⟨a, ha, by omega⟩
        · exact Or.inr h
      · simp at ht; subst ht; exact Or.inl ⟨o, rfl, Nat.le_refl _⟩
    · rw [flush_append, h3']
      have h6 : (toTree vars (.bin o l r)).flat = (toTree vars l).flat ++ (toTree vars r).flat ++ expandOp (.op (opToken o)) ((toTree vars r).flat.length + 1) := flat_binTree o _ _
      have h7 : ((rpn ++ (toTree vars l).flat) ++ (toTree vars r).flat).length + 1 - (rpn ++ (toTree vars l).flat).length = (toTree vars r).flat.length + 1 := by
        simp only [List.length_append]; omega
      simp only [flush, pushPopped, calcLhs, h7, h6]
      simp only [List.append_assoc]

/-- The tokens of an expression become its tree in reverse Polish notation. -/
theorem sort_expr (vars : Vars) (e : Expr) (hc : e.InC) (hp : e.Plain) :
    sortIntoRpn (.paren '(' :: marks vars e ++ [.paren ')']) = some (toTree vars e).flat := by
  obtain ⟨A, P, h1, h2, h3⟩ := yard vars e hc hp [] [(.paren '(', 1)] (Or.inl rfl)
  unfold sortIntoRpn
  rw [List.cons_append, rpnLoop_cons _ _ _ ([], [(.paren '(', 1)]) rfl, h1,
    rpnLoop_cons _ _ _ (flush P A, []) (by
      have h5 := popParen_pending '(' 1 (lev e) [] P A h2
      simp only [rpnStep, show ¬ (')' = '(' ∨ ')' = '[') by decide, if_false, if_true, h5])]
  simp [rpnLoop, h3]

/-- The text of an expression is parsed to its tree. -/
theorem parse_expr (vars : Vars) (e : Expr) (hc : e.InC) (hp : e.Plain) (hk : Known vars e) (cs : List Char) (hs : Spaced e.lexemes cs) :
    parse vars cs = .ok (toTree vars e).flat := by
  obtain ⟨h1, h2⟩ := trim_expr e hc cs hs
  unfold parse
  rw [if_neg h2, tokens_expr vars e hc hp hk (trim cs) h1]
  simp only [marks_expr vars e hp, sort_expr vars e hc hp]

end Nd.Eval
