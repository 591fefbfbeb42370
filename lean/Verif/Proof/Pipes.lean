import Verif.Proof.PatchBack
import Verif.Model.Pipes
/-! Proofs about the command between its pipes. -/
namespace Nd
open Spec

/-- A process that prints `bs` and ends. -/
def Act.Prints (P : κ → Act κ) (k : κ) : Bytes → Prop
  | [] => P k = .exit
  | b :: bs => ∃ k', P k = .write b k' ∧ Prints P k' bs

/-- A process that reads everything, then prints what `out` makes of it, and ends. -/
def Act.Patient (P : κ → Act κ) (out : Bytes → Bytes) (start : κ) : Prop :=
  ∃ Q : κ → Bytes → Prop, Q start [] ∧ ∀ k t, Q k t → ∃ g, P k = .read g ∧ (∀ b, Q (g (some b)) (t ++ [b])) ∧ Prints P (g none) (out t)

/-- The command as a function. -/
def Command.waiting (out : Bytes → Bytes) : Command := { emit := fun t closed => if closed then (out t, true) else ([], false) }

theorem Command.waiting_patient (out : Bytes → Bytes) : (Command.waiting out).Patient out := fun _ => ⟨rfl, rfl⟩

namespace Slicing

theorem round_prefix (S : SegSrc σ) (f : Formatting) (B : Nat) (a : Slicing σ) : a.written <+: (a.round S f B).written := by
  unfold round
  repeat' split
  all_goals try exact List.prefix_refl _
  all_goals try exact List.prefix_append _ _
  simp only
  split
  · exact List.prefix_append _ _
  · exact List.prefix_refl _

/-- The thread after `m` rounds. -/
def after (S : SegSrc σ) (f : Formatting) (B : Nat) (st : σ) (m : Nat) : Slicing σ := Nat.repeat (fun a => a.round S f B) m (Slicing.new st)

theorem after_prefix (S : SegSrc σ) (f : Formatting) (B : Nat) (st : σ) (m d : Nat) : (after S f B st m).written <+: (after S f B st (m + d)).written := by
  induction d with
  | zero => exact List.prefix_refl _
  | succ d ih => exact ih.trans (round_prefix S f B _)

theorem after_same {S : SegSrc σ} {f : Formatting} {B : Nat} {st : σ} {m : Nat} (h : (after S f B st m).fate.isSome = true) (d : Nat) : after S f B st (m + d) = after S f B st m := by
  induction d with
  | zero => rfl
  | succ d ih =>
    show (after S f B st (m + d)).round S f B = _
    rw [ih, round_same h]

end Slicing

namespace Net
open Slicing (after)

/-- What holds on the way.  The thread ends in its round `N` at the latest; `μ` bounds the number of further steps. -/
structure Inv (S : SegSrc σ) (f : Formatting) (B : Nat) (P : κ → Act κ) (out : Bytes → Bytes) (Q : κ → Bytes → Prop) (st : σ) (N m μ : Nat) (n : Net σ κ) : Prop where
  sent : n.sent ≤ n.a.written.length
  rounds : m ≤ N
  fate : n.a.fate = (after S f B st m).fate
  written : n.a.written = (after S f B st m).written
  before : n.got = [] → n.ended = false → n.a = after S f B st m
  phase : (∃ t, Q n.proc t ∧ t ++ n.input = n.a.written.take n.sent ∧ n.output = [] ∧ n.got = [] ∧ n.ended = false ∧
        (N - m) + 2 * ((after S f B st N).written.length - n.sent) + n.input.length + 2 * (out (after S f B st N).written).length + 2 ≤ μ) ∨
     (∃ left, Act.Prints P n.proc left ∧ n.closed ∧ n.input = [] ∧ n.got ++ n.output ++ left = out n.a.written ∧ (n.ended = true → n.output = [] ∧ left = []) ∧
        2 * left.length + n.output.length + (if n.ended then 0 else 1) ≤ μ)

variable {S : SegSrc σ} {f : Formatting} {B : Nat} {P : κ → Act κ} {ci co : Nat} {enough : Bytes → Bool} {out : Bytes → Bytes} {Q : κ → Bytes → Prop} {st : σ} {N m μ : Nat} {n n' : Net σ κ}

theorem Inv.new {start : κ} (hQ : Q start []) :
    Inv S f B P out Q st N 0 (N + 2 * (after S f B st N).written.length + 2 * (out (after S f B st N).written).length + 2) (Net.new st start) where
  sent := Nat.le_refl _
  rounds := Nat.zero_le _
  fate := rfl
  written := rfl
  before _ _ := rfl
  phase := Or.inl ⟨[], hQ, rfl, rfl, rfl, rfl, by simp [Net.new]⟩

theorem Inv.step (hQ : ∀ k t, Q k t → ∃ g, P k = .read g ∧ (∀ b, Q (g (some b)) (t ++ [b])) ∧ Act.Prints P (g none) (out t)) (hN : (after S f B st N).fate ≠ none)
    (hI : Inv S f B P out Q st N m μ n) (hs : Step S f B P ci co enough n n') : ∃ m' μ', μ' < μ ∧ Inv S f B P out Q st N m' μ' n' := by
  obtain ⟨h1, h2, h3, h4, h5, h6⟩ := hI
  have hlen : n.a.written.length ≤ (after S f B st N).written.length := by
    rw [h4, ← Nat.add_sub_cancel' h2]
    exact (Slicing.after_prefix S f B st m (N - m)).length_le
  rcases h6 with ⟨t, q1, q2, q3, q4, q5, q6⟩ | ⟨left, p1, p2, p3, p4, p5, p6⟩
  · obtain ⟨g, g1, g2, g3⟩ := hQ _ _ q1
    cases hs with
    | slice s1 s2 =>
      have hm : m < N := by
        rcases Nat.lt_or_ge m N with h | h
        · exact h
        · have : m = N := by omega
          subst this
          exact absurd (h3.symm.trans s1) hN
      have ha := h5 q4 q5
      have ha' : n.a.round S f B = after S f B st (m + 1) := by rw [ha]; rfl
      have hpre := Slicing.round_prefix S f B n.a
      refine ⟨m + 1, μ - 1, by omega, ?_, hm, ?_, ?_, fun _ _ => ha', Or.inl ⟨t, q1, ?_, q3, q4, q5, ?_⟩⟩
      · exact Nat.le_trans h1 hpre.length_le
      · show (n.a.round S f B).fate = _
        rw [ha']
      · show (n.a.round S f B).written = _
        rw [ha']
      · show t ++ n.input = (n.a.round S f B).written.take n.sent
        obtain ⟨x, hx⟩ := hpre
        rw [q2, ← hx, List.take_append_of_le_length h1]
      · show _ + 2 * (_ - n.sent) + n.input.length + _ + 2 ≤ _
        omega
    | send b s0 s1 s2 =>
      obtain ⟨hlt, hb⟩ := List.getElem?_eq_some_iff.1 s1
      refine ⟨m, μ - 1, by omega, hlt, h2, h3, h4, h5, Or.inl ⟨t, q1, ?_, q3, q4, q5, ?_⟩⟩
      · show t ++ (n.input ++ [b]) = n.a.written.take (n.sent + 1)
        rw [← List.append_assoc, q2, List.take_succ_eq_append_getElem hlt, hb]
      · show _ + 2 * (_ - (n.sent + 1)) + (n.input ++ [b]).length + _ + 2 ≤ _
        rw [List.length_append, List.length_singleton]
        omega
    | broken s1 => rw [g1] at s1; cases s1
    | receive k b rest s1 s2 =>
      rw [g1] at s1
      cases s1
      refine ⟨m, μ - 1, by omega, h1, h2, h3, h4, h5, Or.inl ⟨t ++ [b], g2 b, ?_, q3, q4, q5, ?_⟩⟩
      · show t ++ [b] ++ rest = n.a.written.take n.sent
        rw [← q2, s2]
        simp
      · show _ + 2 * (_ - n.sent) + rest.length + _ + 2 ≤ _
        rw [s2, List.length_cons] at q6
        omega
    | receiveEnd k s1 s2 s3 =>
      rw [g1] at s1
      cases s1
      obtain ⟨c1, c2⟩ := s3
      have ht : t = n.a.written := by
        rw [s2, List.append_nil, c2, List.take_length] at q2
        exact q2
      have hW : (after S f B st N).written = n.a.written := by
        have := Slicing.after_same (S := S) (f := f) (B := B) (st := st) (m := m) (by rw [← h3]; exact c1) (N - m)
        rw [Nat.add_sub_cancel' h2] at this
        rw [this, h4]
      refine ⟨m, μ - 1, by omega, h1, h2, h3, h4, h5, Or.inr ⟨out t, g3, ⟨c1, c2⟩, s2, ?_, fun h => ?_, ?_⟩⟩
      · show n.got ++ n.output ++ out t = out n.a.written
        rw [q3, q4, ht]
        rfl
      · exact absurd (show n.ended = true from h) (by rw [q5]; simp)
      · show 2 * (out t).length + n.output.length + (if n.ended = true then 0 else 1) ≤ _
        rw [q3, q5, ht, ← hW]
        simp only [List.length_nil, Bool.false_eq_true, if_false]
        omega
    | print b k s1 => rw [g1] at s1; cases s1
    | take b rest s1 s2 => rw [q3] at s2; cases s2
    | finish s1 s2 => rw [g1] at s2; cases s2
  · obtain ⟨c1, c2⟩ := p2
    cases hs with
    | slice s1 s2 => rw [s1] at c1; cases c1
    | send b s0 s1 s2 =>
      obtain ⟨hlt, _⟩ := List.getElem?_eq_some_iff.1 s1
      omega
    | broken s1 s2 => omega
    | receive k b rest s1 s2 => rw [p3] at s2; cases s2
    | receiveEnd k s1 =>
      exfalso
      cases left with
      | nil => rw [show P n.proc = .exit from p1] at s1; cases s1
      | cons b bs =>
        obtain ⟨k', hk, _⟩ := p1
        rw [hk] at s1
        cases s1
    | print b k s1 s2 =>
      cases left with
      | nil => rw [show P n.proc = .exit from p1] at s1; cases s1
      | cons b' bs =>
        obtain ⟨k', hk, hk'⟩ := p1
        rw [hk] at s1
        cases s1
        have hne : n.ended = false := by
          cases he : n.ended with
          | false => rfl
          | true => have := (p5 he).2; cases this
        rw [List.length_cons] at p6
        refine ⟨m, μ - 1, by omega, h1, h2, h3, h4, h5, Or.inr ⟨bs, hk', ⟨c1, c2⟩, p3, ?_, fun h => ?_, ?_⟩⟩
        · show n.got ++ (n.output ++ [_]) ++ bs = out n.a.written
          rw [← p4]
          simp
        · exact absurd (show n.ended = true from h) (by rw [hne]; simp)
        · show 2 * bs.length + (n.output ++ [_]).length + (if n.ended = true then 0 else 1) ≤ _
          rw [List.length_append, List.length_singleton]
          omega
    | take b rest s1 s2 =>
      have hne : n.ended = false := by
        cases he : n.ended with
        | false => rfl
        | true => have := (p5 he).1; rw [s2] at this; cases this
      rw [s2, List.length_cons] at p6
      refine ⟨m, μ - 1, by omega, h1, h2, h3, h4, fun h => ?_, Or.inr ⟨left, p1, ⟨c1, c2⟩, p3, ?_, fun h => ?_, ?_⟩⟩
      · exact absurd (show n.got ++ [b] = [] from h) (by simp)
      · show n.got ++ [b] ++ rest ++ left = out n.a.written
        rw [← p4, s2]
        simp
      · exact absurd (show n.ended = true from h) (by rw [hne]; simp)
      · show 2 * left.length + rest.length + (if n.ended = true then 0 else 1) ≤ _
        omega
    | finish s1 s2 s3 s4 =>
      rw [s4] at p6
      simp only [Bool.false_eq_true, if_false] at p6
      refine ⟨m, μ - 1, by omega, h1, h2, h3, h4, (fun _ h => by cases h), Or.inr ⟨left, p1, ⟨c1, c2⟩, p3, p4, fun _ => ⟨s3, ?_⟩, ?_⟩⟩
      · cases left with
        | nil => rfl
        | cons b bs =>
          obtain ⟨k', hk, _⟩ := p1
          rw [hk] at s2
          cases s2
      · show 2 * left.length + n.output.length + (if true = true then 0 else 1) ≤ _
        rw [if_pos rfl]
        omega

theorem Inv.access (st' : σ) (hg : n.got ≠ [] ∨ n.ended = true) (hI : Inv S f B P out Q st N m μ n) : Inv S f B P out Q st N m μ { n with a := { n.a with st := st' } } := by
  obtain ⟨h1, h2, h3, h4, h5, h6⟩ := hI
  refine ⟨h1, h2, h3, h4, fun g1 g2 => ?_, h6⟩
  rcases hg with hg | hg
  · exact absurd g1 hg
  · exact absurd (show n.ended = false from g2) (by rw [hg]; simp)

theorem Path.inv {start : κ} {A : σ → σ → Prop} (hQ0 : Q start [])
    (hQ : ∀ k t, Q k t → ∃ g, P k = .read g ∧ (∀ b, Q (g (some b)) (t ++ [b])) ∧ Act.Prints P (g none) (out t)) (hN : (after S f B st N).fate ≠ none) {l : Nat}
    (hp : Path S f B P ci co enough A st start l n) :
    ∃ m μ, l + μ ≤ N + 2 * (after S f B st N).written.length + 2 * (out (after S f B st N).written).length + 2 ∧ Inv S f B P out Q st N m μ n := by
  induction hp with
  | init => exact ⟨0, _, by rw [Nat.zero_add]; exact Nat.le_refl _, Inv.new hQ0⟩
  | step l n n' _ hs ih =>
    obtain ⟨m, μ, h1, h2⟩ := ih
    obtain ⟨m', μ', h3, h4⟩ := h2.step hQ hN hs
    exact ⟨m', μ', by omega, h4⟩
  | access l n st' _ hg hA ih =>
    obtain ⟨m, μ, h1, h2⟩ := ih
    exact ⟨m, μ, h1, h2.access st' hg⟩

/-- Nobody waits for anything any more. -/
def Over (P : κ → Act κ) (n : Net σ κ) : Prop := n.closed ∧ P n.proc = .exit ∧ n.input = [] ∧ n.output = [] ∧ n.ended = true

theorem Inv.progress (hi : 0 < ci) (ho : 0 < co) (hQ : ∀ k t, Q k t → ∃ g, P k = .read g ∧ (∀ b, Q (g (some b)) (t ++ [b])) ∧ Act.Prints P (g none) (out t))
    (hen : ∀ g, g <+: out n.a.written → enough g = false) (hI : Inv S f B P out Q st N m μ n) :
    (∃ n', Step S f B P ci co enough n n') ∨ Over P n ∧ n.got = out n.a.written := by
  obtain ⟨h1, h2, h3, h4, h5, h6⟩ := hI
  rcases h6 with ⟨t, q1, q2, q3, q4, q5, q6⟩ | ⟨left, p1, p2, p3, p4, p5, p6⟩
  · obtain ⟨g, g1, g2, g3⟩ := hQ _ _ q1
    left
    rcases Nat.lt_or_eq_of_le h1 with hlt | heq
    · by_cases hroom : n.input.length < ci
      · exact ⟨_, .send n n.a.written[n.sent] (by rw [g1]; simp) (List.getElem?_eq_getElem hlt) hroom⟩
      · cases hin : n.input with
        | nil => rw [hin] at hroom; exact absurd hi hroom
        | cons b rest => exact ⟨_, .receive n g b rest g1 hin⟩
    · cases hf : n.a.fate with
      | none => exact ⟨_, .slice n hf heq⟩
      | some r =>
        cases hin : n.input with
        | nil => exact ⟨_, .receiveEnd n g g1 hin ⟨by rw [hf]; rfl, heq⟩⟩
        | cons b rest => exact ⟨_, .receive n g b rest g1 hin⟩
  · have hgot : enough n.got = false := hen _ ⟨n.output ++ left, by rw [← p4, List.append_assoc]⟩
    cases hout : n.output with
    | cons b rest => exact Or.inl ⟨_, .take n b rest hgot hout⟩
    | nil =>
      cases left with
      | cons b bs =>
        obtain ⟨k', hk, _⟩ := p1
        exact Or.inl ⟨_, .print n b k' hk (by rw [hout]; exact ho)⟩
      | nil =>
        cases he : n.ended with
        | false => exact Or.inl ⟨_, .finish n hgot p1 hout he⟩
        | true =>
          right
          refine ⟨⟨p2, p1, p3, hout, he⟩, ?_⟩
          rw [hout] at p4
          simpa using p4

/-- The order of the events is one that `World` allows. -/
theorem Path.world {start : κ} {A : σ → σ → Prop} (hQ0 : Q start [])
    (hQ : ∀ k t, Q k t → ∃ g, P k = .read g ∧ (∀ b, Q (g (some b)) (t ++ [b])) ∧ Act.Prints P (g none) (out t)) (hN : (after S f B st N).fate ≠ none) {l : Nat}
    (hp : Path S f B P ci co enough A st start l n) : World.Reachable S f B (Command.waiting out) A st { a := n.a, started := !n.got.isEmpty || n.ended } := by
  induction hp with
  | init => exact .init
  | step l n n' hp hs ih =>
    obtain ⟨m, μ, _, h1, h2, h3, h4, h5, h6⟩ := hp.inv hQ0 hQ hN
    have hstart : n.a.fate.isSome = true → World.Reachable S f B (Command.waiting out) A st { a := n.a, started := true } := fun hf =>
      .step _ _ ih (.start _ (by simp only [Command.waiting, hf, if_true]; simp))
    have hclosed : n.output ≠ [] ∨ P n.proc = .exit → n.a.fate.isSome = true := by
      intro h
      rcases h6 with ⟨t, q1, q2, q3, q4, q5, q6⟩ | ⟨left, p1, p2, _⟩
      · obtain ⟨g, g1, _⟩ := hQ _ _ q1
        rcases h with h | h
        · exact absurd q3 h
        · rw [g1] at h; cases h
      · exact p2.1
    cases hs with
    | slice s1 s2 => exact .step _ _ ih (.slice _)
    | send b s0 s1 s2 => exact ih
    | broken s1 s2 =>
      exfalso
      rcases h6 with ⟨t, q1, _⟩ | ⟨left, p1, p2, _⟩
      · obtain ⟨g, g1, _⟩ := hQ _ _ q1
        rw [g1] at s1; cases s1
      · have := p2.2
        omega
    | receive k b rest s1 s2 => exact ih
    | receiveEnd k s1 s2 s3 => exact ih
    | print b k s1 s2 => exact ih
    | take b rest s1 s2 =>
      rw [show (!(n.got ++ [b]).isEmpty || n.ended) = true by simp]
      exact hstart (hclosed (Or.inl (by rw [s2]; simp)))
    | finish s1 s2 s3 s4 =>
      simp only [Bool.or_true]
      exact hstart (hclosed (Or.inr s2))
  | access l n st' hp hg hA ih =>
    refine .step _ _ ih (.access _ _ ?_ hA)
    rcases hg with hg | hg
    · cases hgot : n.got with
      | nil => exact absurd hgot hg
      | cons b r => rfl
    · show (!n.got.isEmpty || n.ended) = true
      rw [hg, Bool.or_true]

theorem Path.short {start : κ} {A : σ → σ → Prop} {q l : Nat} (hen : ∀ g, q ≤ g.length → enough g = true) (hp : Path S f B P ci co enough A st start l n) :
    n.got.length ≤ q ∧ n.output.length ≤ co := by
  induction hp with
  | init => exact ⟨Nat.zero_le _, Nat.zero_le _⟩
  | step l n n' _ hs ih =>
    cases hs with
    | print b k s1 s2 => exact ⟨ih.1, by simp only [List.length_append, List.length_singleton]; omega⟩
    | take b rest s1 s2 =>
      have h1 := ih.2
      rw [s2, List.length_cons] at h1
      have h2 : n.got.length < q := by
        rcases Nat.lt_or_ge n.got.length q with h | h
        · exact h
        · rw [hen _ h] at s1; cases s1
      exact ⟨by simp only [List.length_append, List.length_singleton]; omega, by simp only; omega⟩
    | _ => exact ih
  | access l n st' _ _ _ ih => exact ih

/-- If the main thread stops reading too early, the command never ends. -/
theorem Path.stuck {start : κ} {A : σ → σ → Prop} (hQ0 : Q start [])
    (hQ : ∀ k t, Q k t → ∃ g, P k = .read g ∧ (∀ b, Q (g (some b)) (t ++ [b])) ∧ Act.Prints P (g none) (out t)) (hN : (after S f B st N).fate ≠ none) {q l : Nat}
    (hen : ∀ g, q ≤ g.length → enough g = true) (hlong : ∀ t, q + co < (out t).length) (hp : Path S f B P ci co enough A st start l n) :
    l ≤ N + 2 * (after S f B st N).written.length + 2 * (out (after S f B st N).written).length + 2 ∧ P n.proc ≠ .exit := by
  obtain ⟨m, μ, hl, h1, h2, h3, h4, h5, h6⟩ := hp.inv hQ0 hQ hN
  refine ⟨by omega, fun hx => ?_⟩
  rcases h6 with ⟨t, q1, _⟩ | ⟨left, p1, p2, p3, p4, p5, p6⟩
  · obtain ⟨g, g1, _⟩ := hQ _ _ q1
    rw [g1] at hx; cases hx
  · cases left with
    | nil =>
      have h7 := hp.short hen
      have h8 := hlong n.a.written
      rw [← p4] at h8
      simp only [List.append_nil, List.length_append] at h8
      omega
    | cons b bs =>
      obtain ⟨k', hk, _⟩ := p1
      rw [hk] at hx; cases hx

end Net
end Nd
