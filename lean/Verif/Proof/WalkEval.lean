import Verif.Model.Walk
import Verif.Spec.Walk
import Verif.Proof.Grow
import Mathlib.Data.List.Forall2
/-!
# Evaluating the expressions of `--walk` on a stream
-/
namespace Nd
open Nd.Spec

namespace Eval

/-- If two ways to look up variables agree, so do the evaluations. -/
theorem evalStepM_sim {get : σ → Nat → Int64 → Except Err (Int64 × σ)} {ref : τ → Nat → Int64 → Except Err (Int64 × τ)} {P : σ → τ → Prop} {Q : Err → Prop}
    (h : ∀ s u id i v u', P s u → ref u id i = .ok (v, u') → (∃ e, Q e ∧ get s id i = .error e) ∨ ∃ s', get s id i = .ok (v, s') ∧ P s' u')
    (s : σ) (u : τ) (stack : List Int64) (t : Tok) (stack' : List Int64) (u' : τ) (hP : P s u) (hr : evalStepM ref u stack t = .ok (stack', u')) :
    (∃ e, Q e ∧ evalStepM get s stack t = .error e) ∨ ∃ s', evalStepM get s stack t = .ok (stack', s') ∧ P s' u' := by
  have fin : ∀ (v : Int64) (s : σ) (u : τ), P s u → (evalStep (fun _ _ => v) stack t).map (fun st => (st, u)) = .ok (stack', u') →
      ∃ s', (evalStep (fun _ _ => v) stack t).map (fun st => (st, s)) = .ok (stack', s') ∧ P s' u' := by
    intro v s u hP h
    cases hst : evalStep (fun _ _ => v) stack t with
    | error e => rw [hst] at h; cases h
    | ok x =>
      rw [hst] at h
      simp only [Except.map, Except.ok.injEq, Prod.mk.injEq] at h
      obtain ⟨rfl, rfl⟩ := h
      exact ⟨s, rfl, hP⟩
  unfold evalStepM at hr ⊢
  split at hr
  · rename_i id c ht1 ht2
    split at hr
    · cases hr
    · rename_i v u1 hg
      rcases h s u _ _ _ _ hP hg with ⟨e, hQ, he⟩ | ⟨s', he, hP'⟩
      · left; exact ⟨e, hQ, by rw [he]⟩
      · right; rw [he]; exact fin _ _ _ hP' hr
  · rename_i id c n x rest ht1 ht2
    split at hr
    · cases hr
    · rename_i v u1 hg
      rcases h s u _ _ _ _ hP hg with ⟨e, hQ, he⟩ | ⟨s', he, hP'⟩
      · left; exact ⟨e, hQ, by rw [he]⟩
      · right; rw [he]; exact fin _ _ _ hP' hr
  · right; exact fin _ _ _ hP hr

theorem evalLoopM_sim {get : σ → Nat → Int64 → Except Err (Int64 × σ)} {ref : τ → Nat → Int64 → Except Err (Int64 × τ)} {P : σ → τ → Prop} {Q : Err → Prop}
    (h : ∀ s u id i v u', P s u → ref u id i = .ok (v, u') → (∃ e, Q e ∧ get s id i = .error e) ∨ ∃ s', get s id i = .ok (v, s') ∧ P s' u') :
    ∀ (ts : List Tok) (s : σ) (u : τ) (stack stack' : List Int64) (u' : τ), P s u → evalLoopM ref ts u stack = .ok (stack', u') →
      (∃ e, Q e ∧ evalLoopM get ts s stack = .error e) ∨ ∃ s', evalLoopM get ts s stack = .ok (stack', s') ∧ P s' u'
  | [], s, u, stack, stack', u', hP, hr => by
    simp only [evalLoopM, Except.ok.injEq, Prod.mk.injEq] at hr ⊢
    obtain ⟨rfl, rfl⟩ := hr
    exact Or.inr ⟨s, ⟨rfl, rfl⟩, hP⟩
  | t :: ts, s, u, stack, stack', u', hP, hr => by
    simp only [evalLoopM] at hr ⊢
    split at hr
    · cases hr
    · rename_i st1 u1 hs
      rcases evalStepM_sim h s u stack t st1 u1 hP hs with ⟨e, hQ, he⟩ | ⟨s1, he, hP1⟩
      · left; exact ⟨e, hQ, by rw [he]⟩
      · rw [he]
        exact evalLoopM_sim h ts s1 u1 st1 stack' u' hP1 hr

theorem evalRpnM_sim {get : σ → Nat → Int64 → Except Err (Int64 × σ)} {ref : τ → Nat → Int64 → Except Err (Int64 × τ)} {P : σ → τ → Prop} {Q : Err → Prop}
    (h : ∀ s u id i v u', P s u → ref u id i = .ok (v, u') → (∃ e, Q e ∧ get s id i = .error e) ∨ ∃ s', get s id i = .ok (v, s') ∧ P s' u')
    {ts : List Tok} {s : σ} {u : τ} {v : Int64} {u' : τ} (hP : P s u) (hr : evalRpnM ref ts u = .ok (v, u')) :
    (∃ e, Q e ∧ evalRpnM get ts s = .error e) ∨ ∃ s', evalRpnM get ts s = .ok (v, s') ∧ P s' u' := by
  unfold evalRpnM at hr ⊢
  split at hr
  · cases hr
  · cases hr
  · rename_i v1 u1 hl
    cases hr
    rcases evalLoopM_sim h ts s u [] _ _ hP hl with ⟨e, hQ, he⟩ | ⟨s1, he, hP1⟩
    · left; exact ⟨e, hQ, by rw [he]⟩
    · right; rw [he]; exact ⟨s1, rfl, hP1⟩
  · cases hr

theorem evalStepM_pure (lookup : Nat → Int64 → Int64) (stack : List Int64) (t : Tok) :
    evalStepM (fun (_ : Unit) id i => .ok (lookup id i, ())) () stack t = (evalStep lookup stack t).map fun st => (st, ()) := by
  obtain ⟨tok, n⟩ := t
  rcases stack with _ | ⟨x, _ | ⟨y, stack⟩⟩ <;> cases tok <;> cases n <;> simp [evalStepM, evalStep]

theorem evalLoopM_pure (lookup : Nat → Int64 → Int64) : ∀ (ts : List Tok) (stack : List Int64),
    evalLoopM (fun (_ : Unit) id i => .ok (lookup id i, ())) ts () stack = (evalLoop lookup ts stack).map fun st => (st, ())
  | [], stack => rfl
  | t :: ts, stack => by
    simp only [evalLoopM, evalLoop, evalStepM_pure]
    cases evalStep lookup stack t with
    | error e => rfl
    | ok st => exact evalLoopM_pure lookup ts st

/-- Without effects it is the evaluation of `Eval`. -/
theorem evalRpnM_pure (lookup : Nat → Int64 → Int64) (ts : List Tok) :
    evalRpnM (fun (_ : Unit) id i => .ok (lookup id i, ())) ts () = (evalRpn lookup ts).map fun v => (v, ()) := by
  simp only [evalRpnM, evalRpn, evalLoopM_pure]
  rcases evalLoop lookup ts [] with e | st
  · rfl
  · rcases st with _ | ⟨x, _ | ⟨y, st⟩⟩ <;> rfl

end Eval

namespace WalkSlicer
open Nd.Eval

/-! ## Array elements -/

theorem fromLeBytes_eq (bs : Bytes) : fromLeBytes bs = Int64.ofNat (leNat bs) := by
  unfold fromLeBytes
  congr 1
  induction bs with
  | nil => rfl
  | cons b bs ih => simp only [List.foldr_cons, leNat, ih]

theorem leNat_lt : ∀ (bs : Bytes), leNat bs < 256 ^ bs.length
  | [] => by simp [leNat]
  | b :: bs => by
    have := leNat_lt bs
    have hb : b.toNat < 256 := b.toNat_lt
    simp only [leNat, List.length_cons, Nat.pow_succ]
    omega

theorem leNat_append : ∀ (a b : Bytes), leNat (a ++ b) = leNat a + 256 ^ a.length * leNat b
  | [], b => by simp [leNat]
  | x :: a, b => by
    simp only [List.cons_append, leNat, leNat_append a b, List.length_cons, Nat.pow_succ]
    rw [Nat.mul_add, Nat.mul_comm (256 ^ a.length) 256, Nat.mul_assoc]
    omega

theorem leNat_take (size : Nat) (bs : Bytes) (h : size ≤ bs.length) : leNat (bs.take size) = leNat bs % 256 ^ size := by
  conv => rhs; rw [← List.take_append_drop size bs, leNat_append]
  have hl : (bs.take size).length = size := by rw [List.length_take]; omega
  have := leNat_lt (bs.take size)
  rw [hl] at this ⊢
  rw [Nat.add_mul_mod_self_left, Nat.mod_eq_of_lt this]

/-- The shifts extend the sign. -/
theorem sign_extend (size N : Nat) (h : size = 1 ∨ size = 2 ∨ size = 4 ∨ size = 8) :
    (Int64.ofNat N <<< Int64.ofNat (64 - 8 * size)) >>> Int64.ofNat (64 - 8 * size) =
      Int64.ofInt (if 2 * (N % 256 ^ size) < 256 ^ size then ((N % 256 ^ size : Nat) : Int) else ((N % 256 ^ size : Nat) : Int) - 256 ^ size) := by
  apply Int64.toBitVec_inj.1
  rw [Int64.toBitVec_shiftRight, Int64.toBitVec_shiftLeft]
  apply BitVec.eq_of_toInt_eq
  rcases h with rfl | rfl | rfl | rfl
  · simp [BitVec.toInt_sshiftRight, BitVec.toInt_shiftLeft, Int.shiftRight_eq_div_pow, Int.shiftLeft_eq, Int.bmod]
    split <;> split <;> split <;> omega
  · simp [BitVec.toInt_sshiftRight, BitVec.toInt_shiftLeft, Int.shiftRight_eq_div_pow, Int.shiftLeft_eq, Int.bmod]
    split <;> split <;> split <;> omega
  · simp [BitVec.toInt_sshiftRight, BitVec.toInt_shiftLeft, Int.shiftRight_eq_div_pow, Int.shiftLeft_eq, Int.bmod]
    split <;> split <;> split <;> omega
  · simp [BitVec.toInt_eq_toNat_bmod, Int.bmod]
    split <;> split <;> split <;> omega

/-! ## The reference evaluation -/

/-- The variables of the expressions evaluated where `stream` remains.  Only elements within the first `H` bytes may be looked at. -/
def lookAt (H : Nat) (stream : Bytes) (_ : Unit) (size : Nat) (i : Int64) : Except Err (Int64 × Unit) :=
  if ¬ i < 0 ∧ i.toInt.toNat * size + size ≤ H ∧ (size = 1 ∨ size = 2 ∨ size = 4 ∨ size = 8) then .ok (Int64.ofInt (element size i.toInt.toNat stream), ())
  else .error .invalid

/-- The value of an expression where `stream` remains, if it looks only at the first `H` bytes. -/
def value (H : Nat) (stream : Bytes) (rpn : List Tok) : Except Err Int64 := (evalRpnM (lookAt H stream) rpn ()).map (·.1)

/-- It is the value of the expression over the array views of the remaining stream. -/
theorem value_eq {H : Nat} {stream : Bytes} {rpn : List Tok} {v : Int64} (h : value H stream rpn = .ok v) :
    evalRpn (fun size i => Int64.ofInt (element size i.toInt.toNat stream)) rpn = .ok v := by
  unfold value at h
  cases hm : evalRpnM (lookAt H stream) rpn () with
  | error e => rw [hm] at h; cases h
  | ok x =>
    rw [hm] at h
    simp only [Except.map, Except.ok.injEq] at h
    subst h
    have := evalRpnM_sim (get := fun (_ : Unit) size i => .ok (Int64.ofInt (element size i.toInt.toNat stream), ())) (ref := lookAt H stream) (P := fun _ _ => True) (Q := fun _ => False)
      (by
        intro s u id i v u' _ hr
        right
        unfold lookAt at hr
        split at hr
        · cases hr; exact ⟨(), rfl, trivial⟩
        · cases hr) (s := ()) trivial hm
    rcases this with ⟨_, h, _⟩ | ⟨s', h, _⟩
    · cases h
    · rw [evalRpnM_pure] at h
      cases he : evalRpn (fun size i => Int64.ofInt (element size i.toInt.toNat stream)) rpn with
      | error e => rw [he] at h; cases h
      | ok v =>
        rw [he] at h
        simp only [Except.map, Except.ok.injEq, Prod.mk.injEq] at h
        rw [h.1]

/-- The expressions have the positive values `ls`. -/
def Lens (H : Nat) (rpns : List (List Tok)) (stream : Bytes) (ls : List Nat) : Prop :=
  List.Forall₂ (fun rpn l => ∃ v, value H stream rpn = .ok v ∧ 0 < v ∧ v.toInt.toNat = l) rpns ls

/-! ## The evaluation on a stream -/

/-- The program aborts because the stream cannot be read. -/
def Abort (F : Err → Prop) (e : Err) : Prop := F e ∨ (e = .panic ∧ ∃ e', F e')

/-- The state of the stream during a fill that has been lent `n0` bytes first. -/
def At (Src : ByteSrc σ) (M : Bytes → Prop) (R : σ → Phase → Nat → Bytes → Prop) (E : σ → Prop) (E0 : Prop) (n0 w0 : Nat) (rem : Bytes) (s : σ) : Prop :=
  ∃ n w, R s (.lent n) w rem ∧ n0 ≤ n ∧ n ≤ rem.length ∧ w ≤ w0 ∧ (E0 → E s) ∧ (0 < n → ∃ m, M m ∧ Src.slice s = rem.take n ++ m)

theorem At.mono {Src : ByteSrc σ} {M R E} {E0 : Prop} {n0 n1 w0 : Nat} {rem : Bytes} {s : σ} (h : At Src M R E E0 n1 w0 rem s) (hn : n0 ≤ n1) : At Src M R E E0 n0 w0 rem s := by
  obtain ⟨n, w, h1, h2, h3⟩ := h
  exact ⟨n, w, h1, Nat.le_trans hn h2, h3⟩

/-- One more fill. -/
theorem At.fill {Src : ByteSrc σ} {F M R L E} {H : Nat} (h : Serves Src F M R) (hA : Ample Src R L E) (hG : Grows Src R H) {E0 : Prop} {n0 w0 : Nat} {rem : Bytes} {s : σ}
    (hP : At Src M R E E0 n0 w0 rem s) (req : Nat) :
    (∃ e, F e ∧ Src.fill s req = .error e) ∨ ∃ eof n s', Src.fill s req = .ok ((eof, n), s') ∧ At Src M R E E0 n w0 rem s' ∧ n0 ≤ n ∧ n ≤ rem.length ∧
      (n0 + H ≤ n ∨ n = rem.length) ∧ (eof = true → n = rem.length) ∧ (E0 → eof = true) ∧ (0 < n → ∃ m, M m ∧ Src.slice s' = rem.take n ++ m) := by
  obtain ⟨n, w, hR, hn, hnr, hw, hE, hsl⟩ := hP
  rcases h.fill _ _ _ _ req hR with ⟨e, hF, heq⟩ | ⟨eof, n', w', s', heq, hR', hn', hm, he', hne', hw', hw''⟩
  · exact Or.inl ⟨e, hF, heq⟩
  obtain ⟨a1, a2, a3⟩ := hA.fill _ _ _ _ _ _ _ _ hR heq
  have hmono : n ≤ n' := by
    cases eof with
    | true => rw [he' rfl]; exact hnr
    | false => exact (hne' rfl).2
  refine Or.inr ⟨eof, n', s', heq, ⟨n', w', hR', Nat.le_refl _, hn', by omega, fun h0 => a2.2 (a3 (hE h0)), hm⟩, by omega, hn', ?_, he', fun h0 => a3 (hE h0), hm⟩
  cases eof with
  | true => right; exact he' rfl
  | false =>
    rcases hG.more _ _ _ _ _ _ _ hR heq with h1 | h1
    · left; omega
    · right; exact h1

/-- The elements read from the stream. -/
theorem getArrayElement_spec {Src : ByteSrc σ} {F M R L E} {H : Nat} (h : Serves Src F M R) (hA : Ample Src R L E) (hG : Grows Src R H) (hM : ∀ m, M m → AnyMargin m) {E0 : Prop} {n0 w0 pos : Nat} {rem : Bytes}
    (hpos : pos ≤ n0) (s : σ) (u : Unit) (size : Nat) (i v : Int64) (u' : Unit) (hP : At Src M R E E0 n0 w0 rem s) (hr : lookAt H (rem.drop pos) u size i = .ok (v, u')) :
    (∃ e, (e = .panic ∧ ∃ e', F e') ∧ getArrayElement Src pos s size i = .error e) ∨ ∃ s', getArrayElement Src pos s size i = .ok (v, s') ∧ At Src M R E E0 n0 w0 rem s' := by
  unfold lookAt at hr
  split at hr
  case isFalse => cases hr
  rename_i hc
  obtain ⟨hc1, hc2, hc3⟩ := hc
  cases hr
  unfold getArrayElement
  rw [if_neg hc1]
  simp only
  generalize hj : i.toInt.toNat = j at hc2 ⊢
  rcases hP.fill h hA hG (pos + j * size + size) with ⟨e, hF, heq⟩ | ⟨eof, n, s', heq, hP', hn, hnr, hgrow, _, _, hm⟩
  · left; exact ⟨.panic, ⟨rfl, e, hF⟩, by rw [heq]⟩
  right
  rw [heq]
  simp only
  have hsize : 1 ≤ size ∧ size ≤ 8 := by omega
  refine ⟨s', ?_, hP'.mono hn⟩
  by_cases hlt : n < pos + j * size + size
  · rw [if_pos hlt]
    have : n = rem.length := by omega
    unfold element
    rw [if_pos (by rw [List.length_drop]; omega)]
    rfl
  · rw [if_neg hlt]
    obtain ⟨m, hMm, hs⟩ := hm (by omega)
    have hml := hM m hMm
    unfold AnyMargin at hml
    have hMar : MARGIN = 256 := rfl
    have hlen : (Src.slice s').length = n + m.length := by
      rw [hs, List.length_append, List.length_take]; omega
    rw [if_neg (by rw [hlen]; omega)]
    unfold element
    rw [if_neg (by rw [List.length_drop]; omega)]
    rw [fromLeBytes_eq, sign_extend size _ hc3, ← leNat_take]
    · have htk : List.take size (List.take 8 (List.drop (pos + j * size) (Src.slice s'))) = List.take size (List.drop (j * size) (List.drop pos rem)) := by
        rw [List.take_take, Nat.min_eq_left hsize.2, hs, List.drop_append_of_le_length (by rw [List.length_take]; omega), List.take_append_of_le_length (by rw [List.length_drop, List.length_take]; omega),
          List.drop_take, List.take_take, Nat.min_eq_left (by omega), List.drop_drop]
      rw [htk]
    · rw [List.length_take, List.length_drop, hlen]; omega

/-- All lengths of the next group of slices. -/
theorem nextSpans_spec {Src : ByteSrc σ} {F M R L E} {H : Nat} (h : Serves Src F M R) (hA : Ample Src R L E) (hG : Grows Src R H) (hM : ∀ m, M m → AnyMargin m) {E0 : Prop} {n0 w0 pos : Nat} {rem : Bytes}
    (hpos : pos ≤ n0) : ∀ (rpns : List (List Tok)) (ls : List Nat) (s : σ), At Src M R E E0 n0 w0 rem s → Lens H rpns (rem.drop pos) ls →
    (∃ e, Abort F e ∧ nextSpans Src pos rpns s = .error e) ∨ ∃ s', nextSpans Src pos rpns s = .ok (ls, s') ∧ At Src M R E E0 n0 w0 rem s'
  | [], ls, s, hP, hl => by
    cases hl
    exact Or.inr ⟨s, rfl, hP⟩
  | rpn :: rpns, ls, s, hP, hl => by
    cases hl with
    | @cons _ l _ ls hv hl =>
      obtain ⟨v, hv, hp, hvl⟩ := hv
      unfold value at hv
      cases hm : evalRpnM (lookAt H (rem.drop pos)) rpn () with
      | error e => rw [hm] at hv; cases hv
      | ok x =>
        rw [hm] at hv
        simp only [Except.map, Except.ok.injEq] at hv
        subst hv
        have := evalRpnM_sim (get := getArrayElement Src pos) (ref := lookAt H (rem.drop pos)) (P := fun s _ => At Src M R E E0 n0 w0 rem s) (Q := fun e => e = .panic ∧ ∃ e', F e')
          (fun s u id i v u' hP hr => getArrayElement_spec h hA hG hM hpos s u id i v u' hP hr) (s := s) hP hm
        simp only [nextSpans, getNextSpan]
        rcases this with ⟨e, ⟨rfl, hF⟩, he⟩ | ⟨s1, he, hP1⟩
        · left; exact ⟨.panic, Or.inr ⟨rfl, hF⟩, by rw [he]⟩
        · rw [he]
          simp only
          rw [if_neg (by intro hc; exact absurd hp (by rw [Int64.not_lt]; exact hc))]
          simp only
          rcases nextSpans_spec h hA hG hM hpos rpns ls s1 hP1 hl with ⟨e, hF, he⟩ | ⟨s2, he, hP2⟩
          · left; exact ⟨e, hF, by rw [he]⟩
          · right; rw [he]; exact ⟨s2, by rw [hvl], hP2⟩

end WalkSlicer

end Nd
