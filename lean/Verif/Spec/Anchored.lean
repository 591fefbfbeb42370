import Verif.Spec.Expr
/-!
# S..E expressions as documented (README "S..E range expression")
-/
namespace Nd.Spec

namespace Expr

/-- No variables. -/
def Closed : Expr → Prop
  | .num _ => True
  | .var _ | .idx _ _ => False
  | .par e | .un _ e => e.Closed
  | .bin _ l r => l.Closed ∧ r.Closed

/-- A sum or difference of constants (any expressions without variables) and one occurrence of `name`, added (`true`) or subtracted (`false`). -/
inductive Linear (name : List Char) : Bool → Expr → Prop
  | var : Linear name true (.var name)
  | par {s e} : Linear name s e → Linear name s (.par e)
  | plus {s e} : Linear name s e → Linear name s (.un .plus e)
  | minus {s e} : Linear name s e → Linear name (!s) (.un .minus e)
  | addLeft {s l r} : Linear name s l → r.Closed → Linear name s (.bin .add l r)
  | addRight {s l r} : l.Closed → Linear name s r → Linear name s (.bin .add l r)
  | subLeft {s l r} : Linear name s l → r.Closed → Linear name s (.bin .sub l r)
  | subRight {s l r} : l.Closed → Linear name s r → Linear name (!s) (.bin .sub l r)

end Expr

/-- The start `a` and the end `b` of a slice as variables. -/
def bounds (a b : Int) : Env := ⟨fun n => if n = ['s'] then some a else if n = ['e'] then some b else .none, fun _ _ => .none⟩

/-- The ends of a slice. -/
inductive End where
  | first
  | last
  deriving DecidableEq

def End.name : End → List Char
  | .first => ['s']
  | .last => ['e']

/-- The position that is `k` bytes ahead of an end of the slice [a, b). -/
def End.plus (x : End) (k a b : Int) : Int :=
  match x with
  | .first => a + k
  | .last => b + k

/-- One side of the range: empty, a constant, or one of the ends plus constants, whose sum is `k`. -/
inductive Side (empty : End) : List Char → End → Int → Prop
  | empty : Side empty [] empty 0
  | const (e : Expr) (cs : List Char) (k : Int) : e.Closed → e.InC → e.Plain → e.Calm → e.Narrow (bounds 0 0) → Spaced e.lexemes cs →
      e.value (bounds 0 0) = some k → Side empty cs .first k
  | linear (e : Expr) (cs : List Char) (x : End) (k : Int) : e.Linear x.name true → e.InC → e.Plain → e.Calm → e.Narrow (bounds 0 0) → Spaced e.lexemes cs →
      e.value (bounds 0 0) = some k → Side empty cs x k

/-- The constants of a linear expression really are what is added to the end of the slice: its value for any slice. -/
theorem Expr.Closed.value {e : Expr} (h : e.Closed) (ρ ρ' : Env) : e.value ρ = e.value ρ' := by
  induction e with
  | num l => rfl
  | var n => exact h.elim
  | idx n e ih => exact h.elim
  | par e ih => exact ih h
  | un u e ih => simp only [Expr.value, ih h]
  | bin o l r ihl ihr => simp only [Expr.value, ihl h.1, ihr h.2]

theorem fit_eq {v w : Int} (h : fit v = some w) : w = v := by
  unfold fit at h
  split at h
  · cases h; rfl
  · cases h

theorem Expr.Linear.value {x : End} {s : Bool} {e : Expr} (h : e.Linear x.name s) (a b k v : Int) (hk : e.value (bounds 0 0) = some k) (hv : e.value (bounds a b) = some v) :
    v = if s then x.plus k a b else k - x.plus 0 a b := by
  have bin : ∀ {o : BinOp} {l r : Expr} {ρ : Env} {v : Int}, (Expr.bin o l r).value ρ = some v → ∃ p q, l.value ρ = some p ∧ r.value ρ = some q ∧ o.apply p q = some v := by
    intro o l r ρ v h
    simp only [Expr.value] at h
    cases hl : l.value ρ with
    | none => rw [hl] at h; cases h
    | some p =>
      cases hr : r.value ρ with
      | none => rw [hl, hr] at h; cases h
      | some q => rw [hl, hr] at h; exact ⟨p, q, rfl, rfl, h⟩
  induction h generalizing k v with
  | var =>
    cases x with
    | first => simp [Expr.value, bounds, End.name] at hk hv; subst hk hv; simp [End.plus]
    | last => simp [Expr.value, bounds, End.name] at hk hv; subst hk hv; simp [End.plus]
  | par _ ih => exact ih k v hk hv
  | @plus s e _ ih =>
    simp only [Expr.value] at hk hv
    cases h1 : e.value (bounds 0 0) with
    | none => rw [h1] at hk; cases hk
    | some k' =>
      cases h2 : e.value (bounds a b) with
      | none => rw [h2] at hv; cases hv
      | some v' =>
        rw [h1] at hk; rw [h2] at hv
        cases hk; cases hv
        exact ih k v h1 h2
  | @minus s e _ ih =>
    simp only [Expr.value] at hk hv
    cases h1 : e.value (bounds 0 0) with
    | none => rw [h1] at hk; cases hk
    | some k' =>
      cases h2 : e.value (bounds a b) with
      | none => rw [h2] at hv; cases hv
      | some v' =>
        rw [h1] at hk; rw [h2] at hv
        have := ih k' v' h1 h2
        have e1 := fit_eq hk
        have e2 := fit_eq hv
        subst e1 e2 this
        cases x <;> cases s <;> simp [End.plus] <;> omega
  | @addLeft s l r _ hc ih =>
    obtain ⟨p, q, h1, h2, h3⟩ := bin hk
    obtain ⟨p', q', h4, h5, h6⟩ := bin hv
    rw [hc.value _ (bounds 0 0), h2] at h5
    cases h5
    have := ih p p' h1 h4
    have e1 := fit_eq h3
    have e2 := fit_eq h6
    subst e1 e2 this
    cases x <;> cases s <;> simp [End.plus] <;> omega
  | @addRight s l r hc _ ih =>
    obtain ⟨p, q, h1, h2, h3⟩ := bin hk
    obtain ⟨p', q', h4, h5, h6⟩ := bin hv
    rw [hc.value _ (bounds 0 0), h1] at h4
    cases h4
    have := ih q q' h2 h5
    have e1 := fit_eq h3
    have e2 := fit_eq h6
    subst e1 e2 this
    cases x <;> cases s <;> simp [End.plus] <;> omega
  | @subLeft s l r _ hc ih =>
    obtain ⟨p, q, h1, h2, h3⟩ := bin hk
    obtain ⟨p', q', h4, h5, h6⟩ := bin hv
    rw [hc.value _ (bounds 0 0), h2] at h5
    cases h5
    have := ih p p' h1 h4
    have e1 := fit_eq h3
    have e2 := fit_eq h6
    subst e1 e2 this
    cases x <;> cases s <;> simp [End.plus] <;> omega
  | @subRight s l r hc _ ih =>
    obtain ⟨p, q, h1, h2, h3⟩ := bin hk
    obtain ⟨p', q', h4, h5, h6⟩ := bin hv
    rw [hc.value _ (bounds 0 0), h1] at h4
    cases h4
    have := ih q q' h2 h5
    have e1 := fit_eq h3
    have e2 := fit_eq h6
    subst e1 e2 this
    cases x <;> cases s <;> simp [End.plus] <;> omega

end Nd.Spec
