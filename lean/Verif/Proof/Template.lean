import Verif.Model.Template
import Verif.Spec.Template
/-!
# Parsing of templates
-/
namespace Nd
open Nd.Spec Nd.Eval
namespace Template

theorem braceBody_eq : ∀ (body rest : List Char), '}' ∉ body → '\n' ∉ body → braceBody (body ++ '}' :: rest) = some (body, rest)
  | [], rest, _, _ => by simp [braceBody]
  | c :: cs, rest, h1, h2 => by
    simp only [List.mem_cons, not_or] at h1 h2
    rw [List.cons_append, braceBody, if_neg (fun h => h1.1 h.symm), if_neg (fun h => h2.1 h.symm), braceBody_eq cs rest h1.2 h2.2]
    rfl

theorem findBrace_eq : ∀ (pre body rest : List Char), '{' ∉ pre → '}' ∉ body → '\n' ∉ body →
    findBrace (pre ++ '{' :: (body ++ '}' :: rest)) = some (pre, body, rest)
  | [], body, rest, _, h1, h2 => by
    rw [List.nil_append, findBrace, if_pos rfl, braceBody_eq body rest h1 h2]
  | c :: cs, body, rest, h, h1, h2 => by
    simp only [List.mem_cons, not_or] at h
    rw [List.cons_append, findBrace, if_neg (fun h' => h.1 h'.symm), findBrace_eq cs body rest h.2 h1 h2]
    rfl

theorem findBrace_none : ∀ (pre : List Char), '{' ∉ pre → findBrace pre = none
  | [], _ => rfl
  | c :: cs, h => by
    simp only [List.mem_cons, not_or] at h
    rw [findBrace, if_neg (fun h' => h.1 h'.symm), findBrace_none cs h.2]
    rfl

theorem lastParen_none : ∀ (cs : List Char), (cs = [] ∨ ∃ r, cs = ':' :: r) → lastParen cs = none
  | _, .inl rfl => rfl
  | _, .inr ⟨r, rfl⟩ => by simp [lastParen]

theorem lastParen_eq : ∀ (text rest : List Char), ':' ∉ text → (rest = [] ∨ ∃ r, rest = ':' :: r) →
    lastParen (text ++ ')' :: rest) = some (text ++ [')'], rest)
  | [], rest, _, hr => by
    rw [List.nil_append, lastParen, if_neg (by decide), lastParen_none rest hr]
    rfl
  | c :: cs, rest, h, hr => by
    simp only [List.mem_cons, not_or] at h
    rw [List.cons_append, lastParen, if_neg (fun h' => h.1 h'.symm), lastParen_eq cs rest h.2 hr]
    rfl

/-- The groups of a well-formed argument. -/
theorem splitArgs_eq (v : Template.Value) (hv : ∀ e text, v = .expr e text → ':' ∉ text) (rest : List Char) (hr : rest = [] ∨ ∃ r, rest = ':' :: r) :
    splitArgs (v.source ++ rest) = (v.source, rest) := by
  have letter : ∀ c : Char, c ≠ '(' → isLetter c = true → splitArgs (c :: rest) = ([c], rest) := by
    intro c hc hl
    have : splitArgs (c :: rest) = ((c :: rest).takeWhile isLetter, (c :: rest).dropWhile isLetter) := by
      unfold splitArgs
      split
      · rename_i h; cases h; exact absurd rfl hc
      · rfl
    rw [this, List.takeWhile_cons_of_pos hl, List.dropWhile_cons_of_pos hl]
    rcases hr with rfl | ⟨r, rfl⟩
    · rfl
    · rw [List.takeWhile_cons_of_neg (by decide), List.dropWhile_cons_of_neg (by decide)]
  cases v with
  | offset => exact letter 'n' (by decide) (by decide)
  | index => exact letter 'l' (by decide) (by decide)
  | expr e text =>
    show splitArgs ('(' :: (text ++ [')']) ++ rest) = _
    rw [List.cons_append, List.append_assoc, List.singleton_append]
    show (match lastParen (text ++ ')' :: rest) with | some r => ('(' :: r.1, r.2) | none => _) = _
    rw [lastParen_eq text rest (hv e text rfl) hr]
    rfl

end Template
end Nd
