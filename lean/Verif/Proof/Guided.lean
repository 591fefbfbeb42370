import Verif.Model.Guided
import Verif.Spec.Guide
import Verif.Proof.Far
import Verif.Proof.Text
import Verif.Proof.SegTools
import Verif.Spec.Merge
/-!
# `GuidedSlicer` delivers the slices of the guide
-/
namespace Nd
open Nd.Spec

theorem cut_unique {a b : List Seg} {k d : Nat} (hd : d ≤ (a ++ b).length) (ha : ∀ x ∈ a, x.pos < k) (hb : ∀ x ∈ b, k ≤ x.pos)
    (h1 : ∀ x ∈ (a ++ b).take d, x.pos < k) (h2 : ∀ x ∈ (a ++ b).drop d, k ≤ x.pos) : d = a.length := by
  rcases Nat.lt_trichotomy d a.length with h | h | h
  · exfalso
    have hm : a[d] ∈ (a ++ b).drop d := by
      rw [List.drop_append_of_le_length (Nat.le_of_lt h), List.drop_eq_getElem_cons h]
      exact List.mem_append_left _ List.mem_cons_self
    have := h2 _ hm
    have := ha _ (List.getElem_mem h)
    omega
  · exact h
  · exfalso
    rw [List.length_append] at hd
    have hlt : 0 < b.length := by omega
    have hm : b[0] ∈ (a ++ b).take d := by
      rw [List.take_append, List.mem_append]
      right
      rw [List.mem_iff_getElem]
      exact ⟨0, by simp; omega, by simp⟩
    have := h1 _ hm
    have := hb _ (List.getElem_mem hlt)
    omega

namespace GuidedSlicer

def kind : SegKind :=
  { full := true, exact := true, honest := true, steady := true, early := true, moving := true, snap := true, policy := fun _ _ => False }

/-- What `--guide` can cope with: strictly ascending, non-empty slices of at most `L` bytes that end within the stream. -/
structure Good (L : Nat) (rem : Bytes) (segs : List Seg) : Prop where
  strict : segs.Pairwise fun x y => x.pos < y.pos
  each : ∀ x ∈ segs, 0 < x.len ∧ x.len ≤ L ∧ x.tail ≤ rem.length

/-- The slice of a record that has not been read yet. -/
def pending (off : Nat) (r : Rec) : Seg := { pos := r.offset - off, len := r.span }

structure Common (Q : τ → List Rec → Prop) (L fuel : Nat) (st : GuidedSlicer σ τ) (rem : Bytes) (segs : List Seg) (recs : List Rec) : Prop where
  guide : Q st.guide recs
  all : segs = st.segments ++ recs.map (pending st.srcConsumed)
  later : ∀ r ∈ recs, st.srcConsumed ≤ r.offset
  small : st.srcConsumed + rem.length < 2 ^ 64
  fuel : recs.length < fuel
  good : Good L rem segs

/-- After the guide has been read up to the first record that ends behind the lent bytes. -/
def Split (n : Nat) (st : GuidedSlicer σ τ) (recs : List Rec) : Prop :=
  (recs = [] ∧ st.guideConsumed = st.segments.length ∧ st.maxConsume = n ∧ ∀ x ∈ st.segments, x.tail ≤ n) ∨
  ∃ v H, st.segments = v ++ [H] ∧ st.guideConsumed = v.length ∧ (∀ x ∈ v, x.tail ≤ n) ∧ n < H.tail ∧ st.maxConsume = min n H.pos

theorem loop_spec {P : RecSrc τ} {F : Err → Prop} {Q : τ → List Rec → Prop}
    (hQ : ∀ t recs, Q t recs → (∃ e, F e ∧ P.read t = .error e) ∨ (¬ (false = true ∧ recs = []) ∧ ∃ t', P.read t = .ok (recs.head?, t') ∧ Q t' recs.tail))
    {L n : Nat} {rem : Bytes} {segs : List Seg} (eof : Bool) (hn : n ≤ rem.length) (he : eof = true → n = rem.length) :
    ∀ (fuel : Nat) (st : GuidedSlicer σ τ) (recs : List Rec), Common Q L fuel st rem segs recs → (∀ x ∈ st.segments, x.tail ≤ n) → st.maxConsume = n →
      (∃ e, F e ∧ loop P eof (st.srcConsumed + n) fuel st = .error e) ∨
      ∃ st' recs', loop P eof (st.srcConsumed + n) fuel st = .ok st' ∧ Common Q L fuel st' rem segs recs' ∧ Split n st' recs' ∧ st'.src = st.src ∧ st'.srcConsumed = st.srcConsumed
  | 0, st, recs, hC, _, _ => absurd hC.fuel (by omega)
  | fuel + 1, st, recs, hC, hv, hm => by
    simp only [loop]
    rcases hQ _ _ hC.guide with ⟨e, hF, heq⟩ | ⟨_, t', heq, hQ'⟩
    · exact Or.inl ⟨e, hF, by rw [heq]⟩
    rw [heq]
    cases recs with
    | nil => exact Or.inr ⟨_, [], rfl, ⟨hQ', hC.all, hC.later, hC.small, hC.fuel, hC.good⟩, Or.inl ⟨rfl, rfl, hm, hv⟩, rfl, rfl⟩
    | cons r recs =>
      have hmem : pending st.srcConsumed r ∈ segs := by rw [hC.all]; simp
      obtain ⟨g1, g2, g3⟩ := hC.good.each _ hmem
      simp only [pending, Seg.tail] at g1 g2 g3
      have hl := hC.later r List.mem_cons_self
      have hs := hC.small
      have hf := hC.fuel
      simp only [List.length_cons] at hf
      have hstop : (r.offset + r.span) % 2 ^ 64 = r.offset + r.span := Nat.mod_eq_of_lt (by omega)
      have hpos : wsub r.offset st.srcConsumed = r.offset - st.srcConsumed := by rw [wsub, if_pos hl]
      have hlen : (if eof = true then wsub (min (r.offset + r.span) (st.srcConsumed + n)) r.offset else r.span) = r.span := by
        cases eof with
        | false => simp
        | true =>
          have := he rfl
          rw [if_pos rfl, Nat.min_eq_left (by omega), wsub, if_pos (by omega)]
          omega
      simp only [List.head?_cons, hstop, hpos, hlen]
      have hall : segs = (st.segments ++ [pending st.srcConsumed r]) ++ recs.map (pending st.srcConsumed) := by rw [hC.all]; simp
      by_cases hlt : st.srcConsumed + n < r.offset + r.span
      · rw [if_pos hlt]
        refine Or.inr ⟨_, recs, rfl, ⟨hQ', hall, fun x hx => hC.later x (List.mem_cons_of_mem _ hx), hs, by omega, hC.good⟩, Or.inr ⟨st.segments, pending st.srcConsumed r, rfl, by simp, hv, ?_, ?_⟩, rfl, rfl⟩
        · simp only [pending, Seg.tail]; omega
        · simp only [pending, hm]
      · rw [if_neg hlt]
        have := loop_spec hQ eof hn he fuel { st with guide := t', segments := st.segments ++ [⟨r.offset - st.srcConsumed, r.span⟩] } recs
          ⟨hQ', hall, fun x hx => hC.later x (List.mem_cons_of_mem _ hx), hs, by omega, hC.good⟩ (by
            intro x hx
            simp only at hx
            rcases List.mem_append.1 hx with hx | hx
            · exact hv x hx
            · simp only [List.mem_singleton] at hx
              subst hx
              simp only [Seg.tail]; omega) hm
        rcases this with h | ⟨st', recs', h1, h2, h3⟩
        · exact Or.inl h
        · exact Or.inr ⟨st', recs', h1, ⟨h2.guide, h2.all, h2.later, h2.small, by have := h2.fuel; omega, h2.good⟩, h3⟩

/-- The next fill lends all that is asked for. -/
def FarNow (Src : ByteSrc σ) (s : σ) : Prop := ∀ req n' s2, Src.fill s req = .ok ((false, n'), s2) → req ≤ n'

def Idle (Src : ByteSrc σ) (R : σ → Phase → Nat → Bytes → Prop) (Q : τ → List Rec → Prop) (L fuel : Nat) (st : GuidedSlicer σ τ) (w : Nat) (rem : Bytes) (segs : List Seg) : Prop :=
  ∃ recs lb, Common Q L fuel st rem segs recs ∧ R st.src (.idle lb) w rem ∧ (st.segments = [] ∨ ∃ H, st.segments = [H] ∧ (H.tail ≤ L ∨ FarNow Src st.src))

def Rel (Src : ByteSrc σ) (R : σ → Phase → Nat → Bytes → Prop) (Q : τ → List Rec → Prop) (L fuel : Nat) (st : GuidedSlicer σ τ) : SegPhase → Nat → Bytes → List Seg → Prop
  | .idle lb, w, rem, segs => lb = 0 ∧ Idle Src R Q L fuel st w rem segs
  | .lent eof count cap, w, rem, segs => ∃ recs n, Common Q L fuel st rem segs recs ∧ R st.src (.lent n) w rem ∧ n ≤ rem.length ∧ cap = st.maxConsume ∧ count = st.guideConsumed ∧
      (eof = true → n = rem.length) ∧ Split n st recs
  | .done, w, rem, segs => rem = [] ∧ Idle Src R Q L fuel st w rem segs

theorem fill_spec {P : RecSrc τ} {Src : ByteSrc σ} {F M R L E} {Q : τ → List Rec → Prop}
    (hQ : ∀ t recs, Q t recs → (∃ e, F e ∧ P.read t = .error e) ∨ (¬ (false = true ∧ recs = []) ∧ ∃ t', P.read t = .ok (recs.head?, t') ∧ Q t' recs.tail))
    (h : Serves Src F M R) (hA : Ample Src R L E) (hM : ∀ m, M m → AnyMargin m) (B fuel : Nat)
    (st : GuidedSlicer σ τ) (w : Nat) (rem : Bytes) (segs : List Seg) (hI : Idle Src R Q L fuel st w rem segs) :
      (∃ e, F e ∧ (segSrc Src P B fuel).fill st = .error e) ∨
      ∃ eof n w' s', (segSrc Src P B fuel).fill st = .ok ((eof, n, s'.guideConsumed, s'.maxConsume), s') ∧
        Rel Src R Q L fuel s' (.lent eof s'.guideConsumed s'.maxConsume) w' rem segs ∧
        SegLent rem segs ((segSrc Src P B fuel).slices s') n s'.guideConsumed ∧ s'.maxConsume ≤ n ∧
        (∀ x ∈ segs.drop s'.guideConsumed, s'.maxConsume ≤ x.pos) ∧ (∀ x ∈ segs.take s'.guideConsumed, x.pos < s'.maxConsume) ∧
        (eof = true → s'.guideConsumed = segs.length ∧ s'.maxConsume = n ∧ n = rem.length) ∧ w' ≤ w ∧ (eof = false → w' < w ∧ 0 < s'.maxConsume) ∧ n ≤ rem.length := by
  obtain ⟨recs, lb, hC, hR, hW⟩ := hI
  simp only [segSrc, fill]
  rcases h.fill _ _ _ _ (max B ((st.segments.getLast?.map Seg.tail).getD 0)) hR with ⟨er, hF, heq⟩ | ⟨eof, n, w', s', heq, hR', hn, hm, he', hne', hw', hw''⟩
  · left; exact ⟨er, hF, by rw [heq]⟩
  obtain ⟨a1, a2, a3⟩ := hA.fill _ _ _ _ _ _ _ _ hR heq
  rw [heq]
  simp only
  have hv : ∀ x ∈ st.segments, x.tail ≤ n := by
    intro x hx
    cases eof with
    | true =>
      rw [he' rfl]
      exact (hC.good.each x (by rw [hC.all]; exact List.mem_append_left _ hx)).2.2
    | false =>
      rcases hW with hW | ⟨H, hH, hW⟩
      · rw [hW] at hx; cases hx
      · rw [hH] at hx heq
        simp only [List.mem_singleton] at hx
        subst hx
        rcases hW with hW | hW
        · have := a1 rfl; omega
        · have := hW _ _ _ heq
          simp only [List.getLast?_singleton, Option.map_some, Option.getD_some] at this
          omega
  have hC' : Common Q L fuel { st with src := s', maxConsume := n } rem segs recs := ⟨hC.guide, hC.all, hC.later, hC.small, hC.fuel, hC.good⟩
  rcases loop_spec hQ eof hn he' fuel _ recs hC' hv rfl with ⟨e, hF, hl⟩ | ⟨st', recs', hl, g1, g2, g3, g4⟩
  · left; exact ⟨e, hF, by rw [hl]⟩
  right
  simp only at hl g3 g4
  rw [hl]
  have hslice : 0 < n → ∃ m, AnyMargin m ∧ Src.slice s' = rem.take n ++ m := by
    intro h0; obtain ⟨m, h1, h2⟩ := hm h0; exact ⟨m, hM m h1, h2⟩
  have hstrict := g1.good.strict
  have heach := g1.good.each
  rw [g1.all] at hstrict
  have key : st'.guideConsumed ≤ st'.segments.length ∧ (∀ x ∈ st'.segments.take st'.guideConsumed, x.tail ≤ n ∧ x.pos < st'.maxConsume) ∧
      st'.maxConsume ≤ n ∧ (∀ x ∈ st'.segments.drop st'.guideConsumed ++ recs'.map (pending st'.srcConsumed), st'.maxConsume ≤ x.pos) ∧
      (eof = true → recs' = [] ∧ st'.guideConsumed = st'.segments.length ∧ st'.maxConsume = n) ∧ (eof = false → 0 < st'.maxConsume) := by
    have hin : ∀ x ∈ st'.segments, 0 < x.len ∧ x.len ≤ L ∧ x.tail ≤ rem.length := fun x hx => heach x (by rw [g1.all]; exact List.mem_append_left _ hx)
    rcases g2 with ⟨k1, k2, k3, k4⟩ | ⟨v, H, k1, k2, k3, k4, k5⟩
    · refine ⟨by omega, ?_, by omega, ?_, fun _ => ⟨k1, k2, k3⟩, fun he => by have := hne' he; omega⟩
      · intro x hx
        have hx := List.mem_of_mem_take hx
        have h1 := k4 x hx
        have h2 := hin x hx
        refine ⟨h1, ?_⟩
        simp only [Seg.tail] at h1
        omega
      · rw [k1, k2]; simp
    · have hHin := hin H (by rw [k1]; simp)
      rw [k1] at hstrict
      have hs1 := List.pairwise_append.1 hstrict
      have hs2 := List.pairwise_append.1 hs1.1
      refine ⟨by rw [k1, k2]; simp, ?_, by omega, ?_, fun he => ?_, fun he => ?_⟩
      · intro x hx
        rw [k1, k2, List.take_left] at hx
        have h1 := k3 x hx
        have h2 := hin x (by rw [k1]; exact List.mem_append_left _ hx)
        have h3 := hs2.2.2 x hx H (by simp)
        refine ⟨h1, ?_⟩
        simp only [Seg.tail] at h1
        omega
      · intro x hx
        rw [k1, k2, List.drop_left] at hx
        rcases List.mem_append.1 hx with hx | hx
        · simp only [List.mem_singleton] at hx
          subst hx; omega
        · have := hs1.2.2 H (by simp) x hx
          omega
      · have := he' he; omega
      · have h1 := a1 he
        have h2 := hne' he
        simp only [Seg.tail] at k4
        omega
  obtain ⟨k1, k2, k3, k4, k5, k6⟩ := key
  have htake : segs.take st'.guideConsumed = st'.segments.take st'.guideConsumed := by rw [g1.all, List.take_append_of_le_length k1]
  have hdrop : segs.drop st'.guideConsumed = st'.segments.drop st'.guideConsumed ++ recs'.map (pending st'.srcConsumed) := by
    conv => lhs; rw [g1.all]
    rw [List.drop_append_of_le_length k1]
  refine ⟨eof, n, w', st', rfl, ⟨recs', n, g1, by rw [g3]; exact hR', hn, rfl, rfl, he', g2⟩, ⟨?_, ?_, n, Nat.le_refl _, hn, ?_, ?_⟩, k3, ?_, ?_, ?_, hw', fun he => ⟨hw'' he trivial, k6 he⟩, hn⟩
  · rw [g1.all, List.length_append]; omega
  · exact htake.symm
  · rw [g3]; exact hslice
  · intro x hx
    rw [htake] at hx
    exact (k2 x hx).1
  · rw [hdrop]; exact k4
  · intro x hx
    rw [htake] at hx
    exact (k2 x hx).2
  · intro he
    obtain ⟨q1, q2, q3⟩ := k5 he
    refine ⟨?_, q3, he' he⟩
    rw [g1.all, q1, q2]; simp

theorem Good.cut {L : Nat} {rem : Bytes} {segs : List Seg} {k d : Nat} (h : Good L rem segs) (hk : k ≤ rem.length) (hd : ∀ x ∈ segs.drop d, k ≤ x.pos) :
    Good L (rem.drop k) ((segs.drop d).map (Seg.shift k)) := by
  constructor
  · rw [List.pairwise_map]
    refine (h.strict.sublist (List.drop_sublist d segs)).imp_of_mem ?_
    intro a b ha hb hab
    have := hd a ha
    have := hd b hb
    simp only [Seg.shift]
    omega
  · intro x hx
    obtain ⟨y, hy, rfl⟩ := List.mem_map.1 hx
    have h1 := h.each y (List.mem_of_mem_drop hy)
    have h2 := hd y hy
    simp only [Seg.tail, Seg.shift, List.length_drop] at h1 ⊢
    omega

/-- The state after everything permitted has been consumed. -/
def cutState (st : GuidedSlicer σ τ) (s2 : σ) : GuidedSlicer σ τ :=
  { st with src := s2, segments := (st.segments.drop st.guideConsumed).map (Seg.shift st.maxConsume), guideConsumed := wsub st.guideConsumed st.guideConsumed,
            srcConsumed := st.srcConsumed + st.maxConsume, maxConsume := st.maxConsume - st.maxConsume }

theorem faithful {P : RecSrc τ} {Src : ByteSrc σ} {F M R L E} {Q : τ → List Rec → Prop}
    (hQ : ∀ t recs, Q t recs → (∃ e, F e ∧ P.read t = .error e) ∨ (¬ (false = true ∧ recs = []) ∧ ∃ t', P.read t = .ok (recs.head?, t') ∧ Q t' recs.tail))
    (h : Serves Src F M R) (hA : Ample Src R L E) (hFar : Far Src R) (hM : ∀ m, M m → AnyMargin m) (B fuel : Nat) :
    SegFaithful (segSrc Src P B fuel) kind F (Rel Src R Q L fuel) := by
  constructor
  · rintro st lb w rem segs ⟨rfl, hI⟩
    rcases fill_spec hQ h hA hM B fuel st w rem segs hI with h' | ⟨eof, n, w', s', h1, h2, h3, h4, h5, h6, h7, h8, h9, h10⟩
    · exact Or.inl h'
    · exact Or.inr ⟨eof, n, _, _, _, w', s', h1, h2, h3, h4, h5, Or.inl rfl, fun he => ⟨(h7 he).1, (h7 he).2.1, fun _ => (h7 he).2.2⟩, fun _ x hx => Nat.le_of_lt (h6 x hx), h8,
        fun he => (h9 he).1, fun _ => Nat.zero_le _, fun _ he => (h9 he).2⟩
  · rintro st eof count cap w rem segs k ⟨recs, n, hC, hR, hn, rfl, rfl, heof, hS⟩ hk
    have hkk : min k st.maxConsume = st.maxConsume := by
      rcases hk with hk | hk | ⟨_, hk⟩
      · omega
      · omega
      · exact absurd hk (by simp [kind])
    have hmn : st.maxConsume ≤ n := by rcases hS with ⟨_, _, k3, _⟩ | ⟨v, H, _, _, _, _, k5⟩ <;> omega
    obtain ⟨s2, w2, heq2, hR2, hw2⟩ := h.consume _ _ _ _ st.maxConsume hR hmn
    have hgood := hC.good
    have hstrict := hgood.strict
    rw [hC.all] at hstrict
    have hsort : Sorted st.segments := (List.pairwise_append.1 hstrict).1.imp fun h => Nat.le_of_lt h
    obtain ⟨d, hcut, hdl, hd1, hd2⟩ := cutSegs_spec st.maxConsume st.segments hsort
    have hin : ∀ x ∈ st.segments, 0 < x.len ∧ x.len ≤ L ∧ x.tail ≤ rem.length := fun x hx => hgood.each x (by rw [hC.all]; exact List.mem_append_left _ hx)
    have key : d = st.guideConsumed ∧ (∀ r ∈ recs, st.srcConsumed + st.maxConsume ≤ r.offset) ∧
        ((st.segments.drop d).map (Seg.shift st.maxConsume) = [] ∨ ∃ H, (st.segments.drop d).map (Seg.shift st.maxConsume) = [H] ∧ (H.tail ≤ L ∨ FarNow Src s2)) := by
      rcases hS with ⟨k1, k2, k3, k4⟩ | ⟨v, H, k1, k2, k3, k4, k5⟩
      · have hd : d = st.segments.length := by
          have := cut_unique (a := st.segments) (b := []) (k := st.maxConsume) (d := d) (by simpa using hdl) (by
            intro x hx
            have h1 := k4 x hx
            have h2 := hin x hx
            simp only [Seg.tail] at h1
            omega) (by simp) (by simpa using hd1) (by simpa using hd2)
          exact this
        refine ⟨hd.trans k2.symm, by rw [k1]; simp, Or.inl ?_⟩
        rw [hd]; simp
      · have hs1 := List.pairwise_append.1 hstrict
        rw [k1] at hs1
        have hs2 := List.pairwise_append.1 hs1.1
        rw [k1] at hd1 hd2 hdl
        have hd : d = v.length := cut_unique hdl (by
            intro x hx
            have h1 := k3 x hx
            have h2 := hin x (by rw [k1]; exact List.mem_append_left _ hx)
            have h3 := hs2.2.2 x hx H (by simp)
            simp only [Seg.tail] at h1
            omega) (by
            intro x hx
            simp only [List.mem_singleton] at hx
            subst hx
            omega) hd1 hd2
        refine ⟨hd.trans k2.symm, ?_, Or.inr ⟨H.shift st.maxConsume, by rw [k1, hd, List.drop_left]; rfl, ?_⟩⟩
        · intro r hr
          have h1 := hs1.2.2 H (by simp) (pending st.srcConsumed r) (List.mem_map_of_mem hr)
          have h2 := hC.later r hr
          simp only [pending] at h1
          omega
        · rcases Nat.lt_or_ge n H.pos with hlt | hge
          · right
            have hmax : st.maxConsume = n := by omega
            rw [hmax] at heq2
            intro req n' s3 h3
            exact hFar _ _ _ _ _ _ _ _ hR heq2 h3
          · left
            have h2 := hin H (by rw [k1]; simp)
            simp only [Seg.tail, Seg.shift]
            omega
    obtain ⟨hd, hlater, hrest⟩ := key
    have hle : st.guideConsumed ≤ st.segments.length := by omega
    have hdropA : segs.drop st.guideConsumed = st.segments.drop st.guideConsumed ++ recs.map (pending st.srcConsumed) := by
      rw [hC.all, List.drop_append_of_le_length hle]
    have htakeA : segs.take st.guideConsumed = st.segments.take st.guideConsumed := by rw [hC.all, List.take_append_of_le_length hle]
    rw [hd] at hcut hd1 hd2 hrest
    have hge : ∀ x ∈ segs.drop st.guideConsumed, st.maxConsume ≤ x.pos := by
      intro x hx
      rw [hdropA] at hx
      rcases List.mem_append.1 hx with hx | hx
      · exact hd2 x hx
      · obtain ⟨r, hr, rfl⟩ := List.mem_map.1 hx
        have := hlater r hr
        simp only [pending]
        omega
    have hsmall := hC.small
    have hIdle : Idle Src R Q L fuel (cutState st s2) w2 (rem.drop st.maxConsume) ((segs.drop st.guideConsumed).map (Seg.shift st.maxConsume)) := by
      refine ⟨recs, _, ⟨hC.guide, ?_, hlater, by simp only [cutState, List.length_drop]; omega, hC.fuel, hgood.cut (by omega) hge⟩, hR2, hrest⟩
      simp only [cutState]
      rw [hdropA, List.map_append, List.map_map]
      congr 1
      apply List.map_congr_left
      intro r _
      simp only [Function.comp, pending, Seg.shift, Seg.mk.injEq, and_true]
      omega
    refine ⟨st.maxConsume, st.guideConsumed, w2, (cutState st s2), ?_, by omega, Nat.le_refl _, Nat.le_refl _, ?_, hge, ?_, hw2, fun _ _ => rfl, fun _ _ => rfl, fun _ _ hk _ _ _ _ _ _ => by omega⟩
    · simp only [segSrc, hkk, heq2, hcut]
      rfl
    · intro x hx
      rw [htakeA] at hx
      exact hd1 x hx
    · by_cases he : eof = true
      · rw [if_pos ⟨he, rfl⟩]
        refine ⟨?_, hIdle⟩
        rcases hS with ⟨_, _, k3, _⟩ | ⟨v, H, k1, _, _, k4, _⟩
        · rw [k3, heof he]; simp
        · have h2 := hin H (by rw [k1]; simp)
          have := heof he
          omega
      · rw [if_neg (by simp [he]), Nat.sub_self]
        exact ⟨rfl, hIdle⟩
  · rintro st w rem segs ⟨rfl, hI⟩
    have hse : segs = [] := by
      obtain ⟨recs, lb, hC, _⟩ := hI
      cases segs with
      | nil => rfl
      | cons x xs =>
        have := hC.good.each x List.mem_cons_self
        simp only [Seg.tail, List.length_nil] at this
        omega
    subst hse
    rcases fill_spec hQ h hA hM B fuel st w [] [] hI with h' | ⟨eof, n, w', s', h1, h2, h3, h4, h5, h6, h7, h8, h9, h10⟩
    · exact Or.inl h'
    · simp only [List.length_nil, Nat.le_zero] at h10
      subst h10
      cases eof with
      | false => have := (h9 rfl).2; omega
      | true =>
        obtain ⟨q1, q2, _⟩ := h7 rfl
        rw [q1, q2] at h1 h2
        rw [q1] at h3
        exact Or.inr ⟨w', s', h1, h2, h3, h8⟩

/-- A fresh slicer delivers the slices of the guide. -/
theorem delivers {P : RecSrc τ} {Src : ByteSrc σ} {F M L} {s : σ} {w : Nat} {content : Bytes} {t : τ} {recs : List Rec}
    (h : ServesFar Src F M L s w content) (hM : ∀ m, M m → AnyMargin m) (hg : Yields P F false t recs) (hgood : Good L content (guided recs)) (hlen : content.length < 2 ^ 64)
    (B fuel : Nat) (hfuel : recs.length < fuel) :
    SegDelivers (segSrc Src P B fuel) kind F (new s t) w content (guided recs) := by
  obtain ⟨R, E, hR, hA, hFar, hs, _⟩ := h
  obtain ⟨Q, hq, hQ⟩ := hg
  refine ⟨_, faithful hQ hR hA hFar hM B fuel, rfl, recs, 1, ⟨hq, ?_, by simp [new], by simpa [new] using hlen, hfuel, hgood⟩, hs, Or.inl rfl⟩
  simp [new, guided, pending]

end GuidedSlicer

end Nd
