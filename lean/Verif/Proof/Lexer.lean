import Verif.Props.Literal
import Verif.Spec.Expr
/-!
# The tokenizer on the text of an expression
-/
namespace Nd.Eval
open Nd Nd.Spec Nd.Props

/-- The characters that separate words. -/
def separators : List Char :=
  [' ', '\t', '\n', '\r', '(', ')', '[', ']', '+', '-', '~', '!', '*', '/', '%', '&', '|', '^', '<', '>', '@']

/-- What follows a word. -/
def Soft (rest : List Char) : Prop := ∀ c, rest.head? = some c → c ∈ separators

/-- The tokenizer takes the lexeme. -/
def Takes (vars : Vars) (x : List Char) (t : Token) (rest : List Char) : Prop :=
  ∀ fuel, tokens vars (fuel + 1) (x ++ rest) = (tokens vars fuel rest).map (t :: ·)

theorem tokens_space (vars : Vars) (fuel : Nat) (c : Char) (hc : IsSpace c) (rest : List Char) :
    tokens vars (fuel + 1) (c :: rest) = tokens vars fuel rest := by
  have : c ∈ [' ', '\t', '\n', '\r'] := by
    rcases hc with rfl | rfl | rfl | rfl <;> simp
  simp only [tokens, if_pos this]

theorem tokens_spaces (vars : Vars) : ∀ (w : List Char) (_ : ∀ c ∈ w, IsSpace c) (rest : List Char) (fuel : Nat),
    tokens vars (fuel + w.length) (w ++ rest) = tokens vars fuel rest
  | [], _, _, _ => rfl
  | c :: w, h, rest, fuel => by
    rw [List.length_cons, ← Nat.add_assoc, List.cons_append, tokens_space vars _ c (h c (by simp)), tokens_spaces vars w (fun c hc => h c (by simp [hc]))]

theorem takes_paren (vars : Vars) (c : Char) (hc : c ∈ ['(', ')', '[', ']']) (rest : List Char) : Takes vars [c] (.paren c) rest := by
  intro fuel
  have h1 : c ∉ [' ', '\t', '\n', '\r'] := by
    simp only [List.mem_cons, List.not_mem_nil, or_false] at hc
    rcases hc with rfl | rfl | rfl | rfl <;> decide
  simp only [List.cons_append, List.nil_append, tokens, if_neg h1, if_pos hc]

/-- The token of an operator. -/
def opToken : BinOp → Char
  | .mul => '*' | .div => '/' | .rem => '%'
  | .add => '+' | .sub => '-'
  | .shl => '<' | .shr => '>'
  | .lt => 'l' | .le => 'L' | .gt => 'g' | .ge => 'G'
  | .and => '&' | .xor => '^' | .or => '|'

def unToken : UnOp → Char
  | .plus => '+'
  | .minus => '-'
  | .tilde => '~'
  | .bang => '!'

theorem takes_op (vars : Vars) (c : Char) (hc : c ∈ ['+', '-', '~', '!', '*', '/', '%', '&', '|', '^', '@']) (rest : List Char) :
    Takes vars [c] (.op c) rest := by
  intro fuel
  simp only [List.mem_cons, List.not_mem_nil, or_false] at hc
  rcases hc with rfl | rfl | rfl | rfl | rfl | rfl | rfl | rfl | rfl | rfl | rfl <;> simp [tokens, parseOp]

theorem takes_bin (vars : Vars) (o : BinOp) (rest : List Char) (hr : ∃ c, rest.head? = some c ∧ c ∉ ['<', '>', '=']) :
    Takes vars o.text (.op (opToken o)) rest := by
  obtain ⟨c, h1, h2⟩ := hr
  cases rest with
  | nil => cases h1
  | cons c' rest =>
    simp only [List.head?_cons, Option.some.injEq] at h1
    subst h1
    simp only [List.mem_cons, List.not_mem_nil, or_false, not_or] at h2
    obtain ⟨h2, h3, h4⟩ := h2
    have h2' : ¬ '<' = c' := fun h => h2 h.symm
    have h3' : ¬ '>' = c' := fun h => h3 h.symm
    intro fuel
    cases o <;> simp [BinOp.text, opToken, tokens, parseOp, *]

theorem takes_un (vars : Vars) (u : UnOp) (rest : List Char) : Takes vars u.text (.op (unToken u)) rest := by
  cases u <;> exact takes_op vars _ (by simp) rest

theorem sep_not_digit : ∀ c ∈ separators, digitVal c = none ∧ c ∉ ['_', 'k', 'K', 'm', 'M', 'g', 'G', 't', 'T', 'o', 'O', 'x', 'X'] ∧ c ≠ 'i' ∧ isNameChar c = false := by
  decide +kernel

theorem isNameChar_eq (c : Char) : isNameChar c = c.isAlphanum := by
  unfold isNameChar Char.isAlphanum Char.isAlpha Char.isUpper Char.isLower Char.isDigit
  rw [Bool.eq_iff_iff]
  simp only [Bool.or_eq_true, Bool.and_eq_true, decide_eq_true_eq, Char.le_def, ge_iff_le]
  constructor
  · rintro ((h | h) | h)
    · exact Or.inl (Or.inr h)
    · exact Or.inl (Or.inl h)
    · exact Or.inr h
  · rintro ((h | h) | h)
    · exact Or.inl (Or.inr h)
    · exact Or.inl (Or.inl h)
    · exact Or.inr h

theorem takeWhile_name (cs rest : List Char) (h : ∀ x ∈ cs, x.isAlphanum = true) (hr : Soft rest) :
    (cs ++ rest).takeWhile isNameChar = cs ∧ (cs ++ rest).dropWhile isNameChar = rest := by
  induction cs with
  | nil =>
    cases rest with
    | nil => exact ⟨rfl, rfl⟩
    | cons c rest => simp [(sep_not_digit c (hr c rfl)).2.2.2]
  | cons c cs ih =>
    have := ih (fun x hx => h x (by simp [hx]))
    have hc : isNameChar c = true := by rw [isNameChar_eq]; exact h c (by simp)
    simp [hc, this]

/-- The token of a name. -/
def nameToken (r : Nat × Bool) : Token := if r.2 then .varArr r.1 else .var r.1 1

theorem alpha_class (c : Char) (h : c.isAlpha = true) : c ∉ separators ∧ ¬ ('0' ≤ c ∧ c ≤ '9') ∧ (('a' ≤ c ∧ c ≤ 'z') ∨ ('A' ≤ c ∧ c ≤ 'Z')) := by
  have h1 : ('a' ≤ c ∧ c ≤ 'z') ∨ ('A' ≤ c ∧ c ≤ 'Z') := by
    unfold Char.isAlpha Char.isUpper Char.isLower at h
    simp only [Bool.or_eq_true, Bool.and_eq_true, decide_eq_true_eq, ge_iff_le] at h
    exact h.symm
  refine ⟨?_, ?_, h1⟩
  · intro h2
    have := (sep_not_digit c h2).2.2.2
    rw [isNameChar_eq] at this
    simp [Char.isAlphanum, h] at this
  · simp only [char_le_iff] at h1 ⊢
    have e1 : 'a'.toNat = 97 := by decide
    have e3 : 'A'.toNat = 65 := by decide
    have e6 : '9'.toNat = 57 := by decide
    omega

theorem takes_name (vars : Vars) (n : List Char) (hn : Expr.IsName n) (r : Nat × Bool) (hr : vars.lookup n = some r) (rest : List Char) (hs : Soft rest) :
    Takes vars n (nameToken r) rest := by
  obtain ⟨c, cs, rfl, hc, hcs⟩ := hn
  obtain ⟨h1, h2, h3⟩ := alpha_class c hc
  obtain ⟨h4, h5⟩ := takeWhile_name cs rest hcs hs
  have h6 : c ∉ [' ', '\t', '\n', '\r'] ∧ c ∉ ['(', ')', '[', ']'] ∧ c ∉ ['+', '-', '~', '!', '*', '/', '%', '&', '|', '^', '<', '>', '@'] := by
    simp only [separators, List.mem_cons, List.not_mem_nil, or_false, not_or] at h1 ⊢
    simp [h1]
  intro fuel
  have hv : parseVar vars c (cs ++ rest) = some (nameToken r, rest) := by
    unfold parseVar nameToken
    simp only [h4, h5, hr]
  simp only [List.cons_append, tokens, if_neg h6.1, if_neg h6.2.1, if_neg h6.2.2, if_neg h2, if_pos h3, hv]

theorem digit_class (c : Char) (d : Nat) (h : digitVal c = some d) (hd : d < 10) : c ∉ separators ∧ ('0' ≤ c ∧ c ≤ '9') := by
  refine ⟨fun h' => by simp [(sep_not_digit c h').1] at h, ?_⟩
  rcases Nat.lt_or_ge c.toNat 128 with hc | hc
  · have key : ∀ n < 128, ∀ d < 10, digitVal (Char.ofNat n) = some d → ('0' ≤ Char.ofNat n ∧ Char.ofNat n ≤ '9') := by decide +kernel
    have := key c.toNat hc d hd
    rw [Char.ofNat_toNat] at this
    exact this h
  · rw [digitVal_big hc] at h; cases h

/-- A literal begins with a decimal digit. -/
theorem literal_head (l : Literal) (hl : l.Ok) : ∃ c cs, l.text = c :: cs ∧ ∃ d, digitVal c = some d ∧ d < 10 := by
  obtain ⟨c, cs, hb, hc⟩ := body_head l hl
  have hd : ∃ d, digitVal c = some d ∧ d < l.radix.base := by
    have : c ∈ l.body := by rw [hb]; simp
    rcases mem_intercalate this with h | h
    · exact absurd h hc
    · exact hl.digits c h
  have hz : ∃ d, digitVal '0' = some d ∧ d < 10 := ⟨0, by decide, by decide⟩
  unfold Literal.text
  rw [hb]
  obtain ⟨d, h1, h2⟩ := hd
  cases hr : l.radix with
  | plain => exact ⟨c, _, rfl, d, h1, by simpa [hr, Radix.base] using h2⟩
  | zero => exact ⟨c, _, rfl, d, h1, by rw [hr] at h2; have : Radix.zero.base = 8 := rfl; omega⟩
  | bin u | oct u | dec u | hex u => exact ⟨'0', _, rfl, hz⟩

theorem takes_literal (vars : Vars) (l : Literal) (hl : l.Ok) (h32 : l.groups.flatten.length ≤ 32) (rest : List Char) (hs : Soft rest) :
    Takes vars l.text (.val (Int64.ofNat l.value)) rest := by
  obtain ⟨c, cs, ht, d, h1, h2⟩ := literal_head l hl
  obtain ⟨h3, h4⟩ := digit_class c d h1 h2
  have he : l.Ends rest := by
    unfold Literal.Ends
    split
    · intro c hc; exact ⟨(sep_not_digit c (hs c hc)).1, (sep_not_digit c (hs c hc)).2.1⟩
    · trivial
    · intro hc; exact (sep_not_digit 'i' (hs _ hc)).2.2.1 rfl
  have hv := C15_value_partial l hl h32 rest he c (cs ++ rest) (by rw [ht]; rfl)
  have h6 : c ∉ [' ', '\t', '\n', '\r'] ∧ c ∉ ['(', ')', '[', ']'] ∧ c ∉ ['+', '-', '~', '!', '*', '/', '%', '&', '|', '^', '<', '>', '@'] := by
    simp only [separators, List.mem_cons, List.not_mem_nil, or_false, not_or] at h3 ⊢
    simp [h3]
  intro fuel
  rw [ht]
  simp only [List.cons_append, tokens, if_neg h6.1, if_neg h6.2.1, if_neg h6.2.2, if_pos h4, hv]

/-! ## Expressions -/

/-- The names are known to the evaluator, arrays as arrays. -/
def Known (vars : Vars) : Expr → Prop
  | .num _ => True
  | .var n => ∃ id, vars.lookup n = some (id, false)
  | .idx n e => (∃ id, vars.lookup n = some (id, true)) ∧ Known vars e
  | .par e | .un _ e => Known vars e
  | .bin _ l r => Known vars l ∧ Known vars r

/-- The identifier of a name. -/
def ident (vars : Vars) (n : List Char) : Nat := ((vars.lookup n).getD (0, false)).1

/-- The tokens of an expression. -/
def toks (vars : Vars) : Expr → List Token
  | .num l => [.val (Int64.ofNat l.value)]
  | .var n => [.var (ident vars n) 1]
  | .idx n e => [.varArr (ident vars n), .paren '['] ++ toks vars e ++ [.paren ']']
  | .par e => [.paren '('] ++ toks vars e ++ [.paren ')']
  | .un u e => .op (unToken u) :: toks vars e
  | .bin o l r => toks vars l ++ .op (opToken o) :: toks vars r

/-- The following lexemes begin with a separator. -/
def SoftX (xs : List (List Char)) : Prop := xs = [] ∨ ∃ c cs xs', xs = (c :: cs) :: xs' ∧ c ∈ separators

theorem soft_of_spaced {xs : List (List Char)} (h : SoftX xs) {cs : List Char} (hs : Spaced xs cs) : Soft cs := by
  have hsp : ∀ c, IsSpace c → c ∈ separators := by
    rintro c (rfl | rfl | rfl | rfl) <;> decide
  intro c hc
  rcases h with rfl | ⟨c', cs', xs', rfl, hc'⟩
  · exact hsp c (hs c (List.mem_of_mem_head? hc))
  · obtain ⟨w, rest, hw, rfl, _⟩ := hs
    cases w with
    | nil => simp at hc; subst hc; exact hc'
    | cons a w => simp at hc; subst hc; exact hsp _ (hw _ (by simp))

/-- The following lexemes begin with something that does not extend `<` or `>`. -/
def FirmX (xs : List (List Char)) : Prop := ∃ c cs xs', xs = (c :: cs) :: xs' ∧ c ∉ ['<', '>', '=']

theorem firm_of_spaced {xs : List (List Char)} (h : FirmX xs) {cs : List Char} (hs : Spaced xs cs) : ∃ c, cs.head? = some c ∧ c ∉ ['<', '>', '='] := by
  obtain ⟨c, cs', xs', rfl, hc⟩ := h
  obtain ⟨w, rest, hw, rfl, _⟩ := hs
  cases w with
  | nil => exact ⟨c, rfl, hc⟩
  | cons a w =>
    refine ⟨a, rfl, ?_⟩
    rcases hw a (by simp) with rfl | rfl | rfl | rfl <;> decide

/-- The tokenizer turns the lexemes into the tokens, whatever the spacing. -/
def Scans (vars : Vars) (xs : List (List Char)) (ts : List Token) (ys : List (List Char)) : Prop :=
  ∀ cs, Spaced (xs ++ ys) cs → ∀ fuel, cs.length < fuel →
    ∃ cs' fuel', Spaced ys cs' ∧ cs'.length < fuel' ∧ tokens vars fuel cs = (tokens vars fuel' cs').map (ts ++ ·)

theorem reads_one (vars : Vars) (x : List Char) (t : Token) (ys : List (List Char)) (hx : x ≠ []) (h : ∀ rest, Spaced ys rest → Takes vars x t rest) :
    Scans vars [x] [t] ys := by
  rintro cs ⟨w, rest, hw, rfl, hs⟩ fuel hf
  have hl : 0 < x.length := List.length_pos_iff.2 hx
  simp only [List.length_append] at hf
  refine ⟨rest, fuel - w.length - 1, hs, by omega, ?_⟩
  have h1 : fuel = (fuel - w.length - 1 + 1) + w.length := by omega
  have h2 : tokens vars fuel (w ++ x ++ rest) = tokens vars (fuel - w.length - 1 + 1) (x ++ rest) := by
    rw [List.append_assoc]
    conv => lhs; rw [h1]
    exact tokens_spaces vars w hw _ _
  rw [h2, h rest hs]
  rfl

theorem Scans.append {vars : Vars} {xs xs' ys : List (List Char)} {ts ts' : List Token} (h : Scans vars xs ts (xs' ++ ys)) (h' : Scans vars xs' ts' ys) :
    Scans vars (xs ++ xs') (ts ++ ts') ys := by
  intro cs hs fuel hf
  rw [List.append_assoc] at hs
  obtain ⟨cs1, f1, hs1, hf1, e1⟩ := h cs hs fuel hf
  obtain ⟨cs2, f2, hs2, hf2, e2⟩ := h' cs1 hs1 f1 hf1
  refine ⟨cs2, f2, hs2, hf2, ?_⟩
  rw [e1, e2]
  cases tokens vars f2 cs2 with
  | error e => rfl
  | ok r => simp [Except.map]

theorem firm_lexemes (e : Expr) (h : e.InC) (ys : List (List Char)) : FirmX (e.lexemes ++ ys) := by
  have name : ∀ n, Expr.IsName n → ∀ ys, FirmX (n :: ys) := by
    rintro n ⟨c, cs, rfl, hc, _⟩ ys
    refine ⟨c, cs, ys, rfl, ?_⟩
    have := (alpha_class c hc)
    intro hm
    simp only [List.mem_cons, List.not_mem_nil, or_false] at hm
    rcases hm with rfl | rfl | rfl <;> revert hc <;> decide
  induction e generalizing ys with
  | num l =>
    obtain ⟨c, cs, ht, d, h1, h2⟩ := literal_head l h
    refine ⟨c, cs, ys, by simp [Expr.lexemes, ht], ?_⟩
    intro hm
    simp only [List.mem_cons, List.not_mem_nil, or_false] at hm
    rcases hm with rfl | rfl | rfl <;> revert h1 <;> simp [show digitVal '<' = none by decide, show digitVal '>' = none by decide, show digitVal '=' = none by decide]
  | var n => exact name n h ys
  | idx n e ih => exact name n h.1 _
  | par e ih => exact ⟨'(', [], _, rfl, by decide⟩
  | un u e ih =>
    cases u
    · exact ⟨'+', [], _, rfl, by decide⟩
    · exact ⟨'-', [], _, rfl, by decide⟩
    · exact ⟨'~', [], _, rfl, by decide⟩
    · exact ⟨'!', [], _, rfl, by decide⟩
  | bin o l r ihl ihr =>
    simp only [Expr.lexemes, List.append_assoc]
    exact ihl h.1 _

theorem soft_bin (o : BinOp) (ys : List (List Char)) : SoftX (o.text :: ys) := by
  right
  cases o <;> exact ⟨_, _, _, rfl, by decide⟩

theorem soft_char (c : Char) (hc : c ∈ separators) (ys : List (List Char)) : SoftX ([c] :: ys) := Or.inr ⟨c, [], ys, rfl, hc⟩

theorem reads_expr (vars : Vars) (e : Expr) (hc : e.InC) (hp : e.Plain) (hk : Known vars e) (ys : List (List Char)) (hy : SoftX ys) :
    Scans vars e.lexemes (toks vars e) ys := by
  have name : ∀ n, Expr.IsName n → ∀ r, vars.lookup n = some r → ∀ ys, SoftX ys → Scans vars [n] [nameToken r] ys := by
    intro n hn r hr ys hy
    obtain ⟨c, cs, hcs, _⟩ := id hn
    exact reads_one vars n _ ys (by simp [hcs]) (fun rest hs => takes_name vars n hn r hr rest (soft_of_spaced hy hs))
  have paren : ∀ c ∈ ['(', ')', '[', ']'], ∀ ys, Scans vars [[c]] [.paren c] ys := by
    intro c hc ys
    exact reads_one vars [c] _ ys (by simp) (fun rest _ => takes_paren vars c hc rest)
  induction e generalizing ys with
  | num l =>
    obtain ⟨c, cs, ht, _⟩ := literal_head l hc
    exact reads_one vars l.text _ ys (by simp [ht]) (fun rest hs => takes_literal vars l hc hp rest (soft_of_spaced hy hs))
  | var n =>
    obtain ⟨id, hid⟩ := hk
    have := name n hc _ hid ys hy
    simpa [toks, Expr.lexemes, nameToken, ident, hid] using this
  | idx n e ih =>
    obtain ⟨⟨id, hid⟩, hk⟩ := hk
    have h1 := name n hc.1 _ hid ([['[']] ++ (e.lexemes ++ [[']']]) ++ ys) (soft_char '[' (by decide) _)
    have h2 := paren '[' (by decide) (e.lexemes ++ [[']']] ++ ys)
    have h3 := ih hc.2 hp.1 hk ([[']']] ++ ys) (soft_char ']' (by decide) _)
    have h4 := paren ']' (by decide) ys
    have := h1.append (h2.append (h3.append h4))
    simpa [toks, Expr.lexemes, nameToken, ident, hid] using this
  | par e ih =>
    have h2 := paren '(' (by decide) (e.lexemes ++ [[')']] ++ ys)
    have h3 := ih hc hp hk ([[')']] ++ ys) (soft_char ')' (by decide) _)
    have h4 := paren ')' (by decide) ys
    have := h2.append (h3.append h4)
    simpa [toks, Expr.lexemes] using this
  | un u e ih =>
    have h1 : Scans vars [u.text] [.op (unToken u)] (e.lexemes ++ ys) :=
      reads_one vars u.text _ _ (by cases u <;> simp [UnOp.text]) (fun rest _ => takes_un vars u rest)
    exact h1.append (ih hc.1 hp.1 hk ys hy)
  | bin o l r ihl ihr =>
    have h1 := ihl hc.1 hp.1 hk.1 ([o.text] ++ r.lexemes ++ ys) (soft_bin o _)
    have h2 : Scans vars [o.text] [.op (opToken o)] (r.lexemes ++ ys) :=
      reads_one vars o.text _ _ (by cases o <;> simp [BinOp.text]) (fun rest hs => takes_bin vars o rest (firm_of_spaced (firm_lexemes r hc.2.1 ys) hs))
    have h3 := ihr hc.2.1 hp.2.1 hk.2 ys hy
    exact h1.append (h2.append h3)

/-- The text of an expression is tokenized. -/
theorem tokens_expr (vars : Vars) (e : Expr) (hc : e.InC) (hp : e.Plain) (hk : Known vars e) (cs : List Char) (hs : Spaced e.lexemes cs) :
    tokenize vars cs = .ok (.paren '(' :: toks vars e ++ [.paren ')']) := by
  obtain ⟨cs', f, hs', hf, h⟩ := reads_expr vars e hc hp hk [] (Or.inl rfl) cs (by simpa using hs) (cs.length + 1) (by omega)
  have h1 : tokens vars f cs' = .ok [] := by
    have h2 := tokens_spaces vars cs' hs' [] (f - cs'.length)
    rw [List.append_nil, Nat.sub_add_cancel (by omega)] at h2
    rw [h2]
    obtain ⟨k, hk⟩ : ∃ k, f - cs'.length = k + 1 := ⟨f - cs'.length - 1, by omega⟩
    rw [hk]
    rfl
  unfold tokenize
  rw [h, h1]
  simp [Except.map]

/-! ## Trimming -/

theorem isSpace_iff (c : Char) : c.isWhitespace = true ↔ IsSpace c := by
  unfold Char.isWhitespace IsSpace
  simp only [Bool.or_eq_true, decide_eq_true_eq]
  constructor
  · rintro (((h | h) | h) | h) <;> simp [h]
  · rintro (h | h | h | h) <;> simp [h]

/-- `str::trim_end` -/
def trimEnd (cs : List Char) : List Char := (cs.reverse.dropWhile Char.isWhitespace).reverse

/-- A lexeme begins and ends with something else than white space. -/
def Solid (x : List Char) : Prop := x ≠ [] ∧ (∀ c, x.head? = some c → ¬ IsSpace c) ∧ (∀ c, x.getLast? = some c → ¬ IsSpace c)

theorem dropWhile_spaces : ∀ (w : List Char) (rest : List Char), (∀ c ∈ w, IsSpace c) → (w ++ rest).dropWhile Char.isWhitespace = rest.dropWhile Char.isWhitespace
  | [], _, _ => rfl
  | c :: w, rest, h => by
    have := (isSpace_iff c).2 (h c (by simp))
    simp [this, dropWhile_spaces w rest (fun c hc => h c (by simp [hc]))]

theorem dropWhile_solid (x rest : List Char) (h : ∀ c, x.head? = some c → ¬ IsSpace c) (hx : x ≠ []) : (x ++ rest).dropWhile Char.isWhitespace = x ++ rest := by
  cases x with
  | nil => exact absurd rfl hx
  | cons c x =>
    have : c.isWhitespace = false := by
      cases h' : c.isWhitespace with
      | false => rfl
      | true => exact absurd ((isSpace_iff c).1 h') (h c rfl)
    simp [this]

theorem trimEnd_solid (a x b : List Char) (hx : Solid x) : trimEnd (a ++ x ++ b) = a ++ x ++ trimEnd b := by
  unfold trimEnd
  by_cases hb : ∀ c ∈ b, IsSpace c
  · have h1 : (b.reverse ++ (x.reverse ++ a.reverse)).dropWhile Char.isWhitespace = x.reverse ++ a.reverse := by
      rw [dropWhile_spaces _ _ (by simpa using hb), dropWhile_solid]
      · intro c hc; rw [List.head?_reverse] at hc; exact hx.2.2 c hc
      · simpa using hx.1
    have h2 : b.reverse.dropWhile Char.isWhitespace = [] := by
      have := dropWhile_spaces b.reverse [] (by simpa using hb)
      simpa using this
    simp only [List.reverse_append] at h1 ⊢
    rw [h1, h2]
    simp
  · have key : ∀ (l r : List Char), (¬ ∀ c ∈ l, IsSpace c) → (l ++ r).dropWhile Char.isWhitespace = l.dropWhile Char.isWhitespace ++ r := by
      intro l
      induction l with
      | nil => intro r h; exact absurd (by simp) h
      | cons c l ih =>
        intro r h
        by_cases hc : IsSpace c
        · have h1 := (isSpace_iff c).2 hc
          simp only [List.cons_append, List.dropWhile_cons, h1, if_true]
          apply ih
          intro h2
          apply h
          intro x hx
          rcases List.mem_cons.1 hx with rfl | hx
          · exact hc
          · exact h2 x hx
        · have h1 : c.isWhitespace = false := by
            cases h' : c.isWhitespace with
            | false => rfl
            | true => exact absurd ((isSpace_iff c).1 h') hc
          simp [h1]
    simp only [List.reverse_append]
    rw [key b.reverse _ (by simpa using hb)]
    simp

theorem spaced_trimEnd : ∀ (xs : List (List Char)) (cs : List Char), (∀ x ∈ xs, Solid x) → Spaced xs cs → Spaced xs (trimEnd cs)
  | [], cs, _, h => by
    unfold trimEnd
    have : cs.reverse.dropWhile Char.isWhitespace = [] := by
      have h' : ∀ c ∈ cs, IsSpace c := h
      have := dropWhile_spaces cs.reverse [] (by simpa using h')
      simpa using this
    rw [this]
    simp [Spaced]
  | x :: xs, cs, hx, ⟨w, rest, hw, hcs, hs⟩ => by
    subst hcs
    rw [trimEnd_solid w x rest (hx x (by simp))]
    exact ⟨w, trimEnd rest, hw, rfl, spaced_trimEnd xs rest (fun x h => hx x (by simp [h])) hs⟩

theorem spaced_trim (x : List Char) (xs : List (List Char)) (cs : List Char) (hx : ∀ y ∈ x :: xs, Solid y) (h : Spaced (x :: xs) cs) :
    Spaced (x :: xs) (trim cs) ∧ trim cs ≠ [] := by
  obtain ⟨w, rest, hw, rfl, hs⟩ := h
  have h1 := hx x (by simp)
  have h2 : trim (w ++ x ++ rest) = trimEnd (x ++ rest) := by
    unfold trim
    rw [List.append_assoc, dropWhile_spaces w _ hw, dropWhile_solid x rest h1.2.1 h1.1]
    rfl
  rw [h2]
  have h3 := trimEnd_solid [] x rest h1
  simp only [List.nil_append] at h3
  refine ⟨?_, by rw [h3]; simp [h1.1]⟩
  apply spaced_trimEnd _ _ hx
  exact ⟨[], rest, by simp, rfl, hs⟩

theorem solid_of (x : List Char) (hx : x ≠ []) (h : ∀ c ∈ x, ¬ IsSpace c) : Solid x :=
  ⟨hx, fun c hc => h c (List.mem_of_mem_head? hc), fun c hc => h c (List.mem_of_getLast? hc)⟩

theorem solid_literal (l : Literal) (hl : l.Ok) : Solid l.text := by
  obtain ⟨c, cs, ht, _⟩ := literal_head l hl
  refine solid_of _ (by simp [ht]) ?_
  intro c hc hsp
  unfold Literal.text at hc
  have sp : ∀ c, IsSpace c → digitVal c = none ∧ c ≠ '_' ∧ c ∉ ['0', 'b', 'B', 'o', 'O', 'd', 'D', 'x', 'X', 'k', 'K', 'm', 'M', 'g', 'G', 't', 'T', 'i'] := by
    rintro c (rfl | rfl | rfl | rfl) <;> decide
  obtain ⟨s1, s2, s3⟩ := sp c hsp
  rcases List.mem_append.1 hc with hc | hc
  · rcases List.mem_append.1 hc with hc | hc
    · apply s3
      cases hr : l.radix with
      | plain | zero => simp [hr, Radix.text] at hc
      | bin u | oct u | dec u | hex u => cases u <;> simp [hr, Radix.text] at hc <;> rcases hc with rfl | rfl <;> decide
    · rcases mem_intercalate hc with h | h
      · exact s2 h
      · obtain ⟨d, hd, _⟩ := hl.digits c h
        rw [s1] at hd; cases hd
  · apply s3
    cases hs : l.scale with
    | one => simp [hs, Scale.text] at hc
    | times n u b =>
      have hlet : Scale.letter n u ∈ ['0', 'b', 'B', 'o', 'O', 'd', 'D', 'x', 'X', 'k', 'K', 'm', 'M', 'g', 'G', 't', 'T', 'i'] := by
        unfold Scale.letter; split <;> decide
      cases b with
      | true =>
        simp only [hs, Scale.text, if_true, List.mem_cons, List.not_mem_nil, or_false] at hc
        rcases hc with rfl | rfl
        · exact hlet
        · decide
      | false =>
        simp only [hs, Scale.text, Bool.false_eq_true, if_false, List.mem_cons, List.not_mem_nil, or_false] at hc
        subst hc
        exact hlet

theorem solid_lexemes (e : Expr) (h : e.InC) : ∀ x ∈ e.lexemes, Solid x := by
  have name : ∀ n, Expr.IsName n → Solid n := by
    rintro n ⟨c, cs, rfl, hc, hcs⟩
    refine solid_of _ (by simp) ?_
    have sp : ∀ c, IsSpace c → c.isAlphanum = false := by
      rintro c (rfl | rfl | rfl | rfl) <;> decide
    intro x hx hsp
    have h1 := sp x hsp
    rcases List.mem_cons.1 hx with rfl | hx
    · simp [Char.isAlphanum, hc] at h1
    · rw [hcs x hx] at h1; cases h1
  have one : ∀ c, ¬ IsSpace c → Solid [c] := fun c hc => solid_of _ (by simp) (by simpa using hc)
  have br : Solid ['['] ∧ Solid [']'] ∧ Solid ['('] ∧ Solid [')'] := by
    refine ⟨one _ ?_, one _ ?_, one _ ?_, one _ ?_⟩ <;> (unfold IsSpace; decide)
  induction e with
  | num l => intro x hx; simp [Expr.lexemes] at hx; subst hx; exact solid_literal l h
  | var n => intro x hx; simp [Expr.lexemes] at hx; subst hx; exact name _ h
  | idx n e ih =>
    intro x hx
    simp only [Expr.lexemes, List.mem_append, List.mem_cons, List.not_mem_nil, or_false] at hx
    rcases hx with ((rfl | rfl) | hx) | rfl
    · exact name _ h.1
    · exact br.1
    · exact ih h.2 x hx
    · exact br.2.1
  | par e ih =>
    intro x hx
    simp only [Expr.lexemes, List.mem_append, List.mem_cons, List.not_mem_nil, or_false] at hx
    rcases hx with (rfl | hx) | rfl
    · exact br.2.2.1
    · exact ih h x hx
    · exact br.2.2.2
  | un u e ih =>
    intro x hx
    simp only [Expr.lexemes, List.mem_cons] at hx
    rcases hx with rfl | hx
    · cases u <;> exact one _ (by unfold IsSpace; decide)
    · exact ih h.1 x hx
  | bin o l r ihl ihr =>
    intro x hx
    simp only [Expr.lexemes, List.mem_append, List.mem_cons] at hx
    rcases hx with hx | rfl | hx
    · exact ihl h.1 x hx
    · refine solid_of _ (by cases o <;> simp [BinOp.text]) ?_
      have : ∀ c ∈ ['*', '/', '%', '+', '-', '<', '>', '=', '&', '^', '|'], ¬ IsSpace c := by unfold IsSpace; decide
      intro c hc
      apply this
      cases o <;> simp [BinOp.text] at hc <;> (try rcases hc with rfl | rfl) <;> simp_all
    · exact ihr h.2.1 x hx

theorem lexemes_ne (e : Expr) : ∃ x xs, e.lexemes = x :: xs := by
  induction e with
  | bin o l r ihl ihr => obtain ⟨x, xs, h⟩ := ihl; exact ⟨x, _, by simp only [Expr.lexemes, h]; rfl⟩
  | _ => exact ⟨_, _, rfl⟩

/-- The trimmed text of an expression is not empty and still its text. -/
theorem trim_expr (e : Expr) (h : e.InC) (cs : List Char) (hs : Spaced e.lexemes cs) : Spaced e.lexemes (trim cs) ∧ trim cs ≠ [] := by
  obtain ⟨x, xs, hx⟩ := lexemes_ne e
  have := solid_lexemes e h
  rw [hx] at hs this ⊢
  exact spaced_trim x xs cs this hs

end Nd.Eval
