import Verif.Model.Exact
import Verif.Spec.Find
import Verif.Proof.Range
import Verif.Proof.SegKeeps
/-!
# `ExactMatchSlicer`
-/
namespace Nd
open Spec

/-- The occurrences of `p` in `l` that start in `[a, b)`. -/
def occIn (p l : Bytes) (a b : Nat) : List Seg :=
  ((List.range' a (b - a)).filter fun i => decide (p ≠ [] ∧ p <+: l.drop i)).map fun i => { pos := i, len := p.length }

theorem mem_occIn {p l : Bytes} {a b : Nat} {x : Seg} :
    x ∈ occIn p l a b ↔ a ≤ x.pos ∧ x.pos < b ∧ x.len = p.length ∧ p ≠ [] ∧ p <+: l.drop x.pos := by
  simp only [occIn, List.mem_map, List.mem_filter, List.mem_range'_1, decide_eq_true_eq]
  constructor
  · rintro ⟨i, ⟨h1, h2⟩, rfl⟩
    exact ⟨h1.1, by simp only; omega, rfl, h2⟩
  · rintro ⟨h1, h2, h3, h4⟩
    refine ⟨x.pos, ⟨⟨h1, by omega⟩, h4⟩, ?_⟩
    rw [← h3]

theorem occIn_append {p l : Bytes} {a b c : Nat} (h1 : a ≤ b) (h2 : b ≤ c) : occIn p l a b ++ occIn p l b c = occIn p l a c := by
  unfold occIn
  rw [← List.map_append, ← List.filter_append]
  have : List.range' a (b - a) ++ List.range' b (c - b) = List.range' a (c - a) := by
    have := List.range'_append (s := a) (m := b - a) (n := c - b) (step := 1)
    rw [show a + 1 * (b - a) = b by omega, show b - a + (c - b) = c - a by omega] at this
    exact this
  rw [this]

theorem occIn_none {p l : Bytes} {a b : Nat} (h : l.length < a + p.length) : occIn p l a b = [] := by
  rw [List.eq_nil_iff_forall_not_mem]
  intro x hx
  obtain ⟨h1, _, _, _, h5⟩ := mem_occIn.1 hx
  have := h5.length_le
  simp only [List.length_drop] at this
  rcases Nat.lt_or_ge l.length x.pos with h | h
  · have : p.length = 0 := by omega
    have := List.length_eq_zero_iff.1 this
    contradiction
  · omega

theorem occIn_same {p l l' : Bytes} {a b : Nat} (h : ∀ i, a ≤ i → i < b → (p <+: l.drop i ↔ p <+: l'.drop i)) : occIn p l a b = occIn p l' a b := by
  unfold occIn
  congr 1
  apply List.filter_congr
  intro i hi
  rw [List.mem_range'_1] at hi
  have := h i (by omega) (by omega)
  simp only [this]

theorem occIn_shift {p l : Bytes} {a b k : Nat} : (occIn p l (a + k) (b + k)).map (Seg.shift k) = occIn p (l.drop k) a b := by
  unfold occIn
  rw [show b + k - (a + k) = b - a by omega, Nat.add_comm a k, ← List.map_add_range', List.filter_map, List.map_map, List.map_map]
  have : (List.filter ((fun i => decide (p ≠ [] ∧ p <+: List.drop i l)) ∘ fun x => k + x) (List.range' a (b - a))) =
      List.filter (fun i => decide (p ≠ [] ∧ p <+: List.drop i (List.drop k l))) (List.range' a (b - a)) := by
    apply List.filter_congr
    intro i _
    simp only [Function.comp, List.drop_drop]
  rw [this]
  apply List.map_congr_left
  intro i _
  simp [Seg.shift]

theorem occIn_sorted (p l : Bytes) (a b : Nat) : (occIn p l a b).Pairwise fun x y => x.pos < y.pos := by
  unfold occIn
  rw [List.pairwise_map]
  exact (List.pairwise_lt_range' (s := a)).filter _

theorem occurrences_eq (p c : Bytes) : occurrences p c = occIn p c 0 c.length := by
  unfold occurrences occIn
  rw [Nat.sub_zero, ← List.range_eq_range']
  generalize List.range c.length = r
  induction r with
  | nil => rfl
  | cons i r ih =>
    have : ((c.drop i).take p.length = p) ↔ p <+: c.drop i := by
      rw [List.prefix_iff_eq_take]
      exact ⟨Eq.symm, Eq.symm⟩
    rw [List.filterMap_cons, List.filter_cons, ih]
    simp only [this, decide_eq_true_eq]
    split
    · rename_i h
      split at h
      · cases h
      · rename_i h'
        rw [if_neg h']
    · rename_i h
      split at h
      · rename_i h'
        cases h
        rw [if_pos h']
        rfl
      · cases h

/-- For an array that does not overlap itself the scan finds all occurrences. -/
theorem findIter_eq (p : Bytes) (hne : p ≠ []) (hp : Unbordered p) : ∀ (l : Bytes) (skip i : Nat), (∀ j, j < skip → ¬ p <+: l.drop j) →
    (findIter p skip i l).map (fun j => ({ pos := j, len := p.length } : Seg)) = (occIn p l 0 l.length).map fun x => { pos := i + x.pos, len := x.len }
  | [], skip, i, _ => by simp [findIter, occIn]
  | b :: l, skip, i, h => by
    have hcons : occIn p (b :: l) 0 (b :: l).length = occIn p (b :: l) 0 1 ++ (occIn p l 0 l.length).map fun x => { pos := 1 + x.pos, len := x.len } := by
      rw [← occIn_append (a := 0) (b := 1) (c := (b :: l).length) (by omega) (by simp)]
      congr 1
      have := occIn_shift (p := p) (l := b :: l) (a := 0) (b := l.length) (k := 1)
      rw [List.drop_one, List.tail_cons] at this
      rw [← this, List.map_map]
      simp only [Nat.zero_add, List.length_cons]
      conv => lhs; rw [← List.map_id (occIn p (b :: l) 1 (l.length + 1))]
      apply List.map_congr_left
      intro x hx
      have := (mem_occIn.1 hx).1
      rcases x with ⟨x, y⟩
      simp only [Function.comp, Seg.shift, id, Seg.mk.injEq, and_true]
      simp only at this
      omega
    have hfst : occIn p (b :: l) 0 1 = if p <+: b :: l then [⟨0, p.length⟩] else [] := by
      unfold occIn
      simp only [Nat.sub_zero, List.range'_one, List.filter_cons, List.drop_zero, hne, ne_eq, not_false_eq_true, true_and, decide_eq_true_eq, List.filter_nil]
      split <;> rfl
    have hshift : ∀ ys : List Seg, (ys.map fun x => ({ pos := 1 + x.pos, len := x.len } : Seg)).map (fun x => ({ pos := i + x.pos, len := x.len } : Seg)) =
        ys.map fun x => { pos := i + 1 + x.pos, len := x.len } := by
      intro ys
      rw [List.map_map]
      apply List.map_congr_left
      intro x _
      simp only [Function.comp, Nat.add_assoc]
    rw [hcons, hfst, List.map_append, hshift]
    cases skip with
    | succ skip =>
      have h0 := h 0 (by omega)
      rw [List.drop_zero] at h0
      rw [if_neg h0]
      simp only [findIter, List.map_nil, List.nil_append]
      exact findIter_eq p hne hp l skip (i + 1) fun j hj => by simpa using h (j + 1) (by omega)
    | zero =>
      simp only [findIter, List.isPrefixOf_iff_prefix]
      by_cases hpre : p <+: b :: l
      · rw [if_pos hpre, if_pos hpre]
        simp only [List.map_cons, Nat.add_zero, List.map_nil, List.singleton_append]
        congr 1
        refine findIter_eq p hne hp l _ (i + 1) fun j hj hpj => ?_
        have h1 : p.drop (j + 1) <+: l.drop j := by
          obtain ⟨t, ht⟩ := hpre
          rw [show l.drop j = (b :: l).drop (j + 1) from rfl, ← ht, List.drop_append_of_le_length (by omega)]
          exact List.prefix_append _ _
        have h2 := List.prefix_of_prefix_length_le h1 hpj (by simp)
        rw [List.prefix_iff_eq_take] at h2
        apply hp (j + 1) (by omega) (by omega)
        rw [h2, List.length_drop]
      · rw [if_neg hpre, if_neg hpre]
        simp only [List.map_nil, List.nil_append]
        exact findIter_eq p hne hp l 0 (i + 1) fun j hj => by omega

/-- The scan of a chunk finds the occurrences that start in it and do not extend beyond it. -/
theorem findIter_chunk {p rem stream : Bytes} (hne : p ≠ []) (hp : Unbordered p) {a n : Nat} (ha : a ≤ n) (hn : n ≤ rem.length)
    (hs : stream.take n = rem.take n) :
    (findIter p 0 0 ((stream.take n).drop a)).map (fun pos => ({ pos := a + pos, len := p.length } : Seg)) = occIn p rem a (n + 1 - p.length) := by
  have hlen : 0 < p.length := List.length_pos_iff.2 hne
  have h1 := findIter_eq p hne hp ((stream.take n).drop a) 0 0 (fun j hj => by omega)
  have h2 : (findIter p 0 0 ((stream.take n).drop a)).map (fun pos => ({ pos := a + pos, len := p.length } : Seg)) =
      ((findIter p 0 0 ((stream.take n).drop a)).map fun j => ({ pos := j, len := p.length } : Seg)).map fun x => { pos := a + x.pos, len := x.len } := by
    rw [List.map_map]
    rfl
  rw [h2, h1, hs]
  have hl : ((rem.take n).drop a).length = n - a := by simp; omega
  rw [hl, ← occIn_shift (p := p) (l := rem.take n) (a := 0) (b := n - a) (k := a), List.map_map, List.map_map]
  have h3 : (occIn p (rem.take n) (0 + a) (n - a + a)).map (((fun x => ({ pos := a + x.pos, len := x.len } : Seg)) ∘ (fun x => ({ pos := 0 + x.pos, len := x.len } : Seg))) ∘ Seg.shift a) =
      occIn p (rem.take n) (0 + a) (n - a + a) := by
    conv => rhs; rw [← List.map_id (occIn p (rem.take n) (0 + a) (n - a + a))]
    apply List.map_congr_left
    intro x hx
    have := (mem_occIn.1 hx).1
    rcases x with ⟨x, y⟩
    simp only [Function.comp, Seg.shift, id, Seg.mk.injEq, and_true]
    simp only at this
    omega
  rw [h3, show 0 + a = a by omega, show n - a + a = n by omega]
  rcases Nat.lt_or_ge (n + 1 - p.length) a with hlt | hge
  · rw [occIn_none (by simp; omega)]
    unfold occIn
    rw [show n + 1 - p.length - a = 0 by omega]
    rfl
  · rw [← occIn_append (b := n + 1 - p.length) hge (by omega)]
    rw [occIn_none (p := p) (l := rem.take n) (a := n + 1 - p.length) (by simp; omega), List.append_nil]
    apply occIn_same
    intro i hi1 hi2
    rw [List.drop_take, List.prefix_take_iff]
    exact ⟨fun h => h.1, fun h => ⟨h, by omega⟩⟩

namespace ExactMatchSlicer

def kind : SegKind :=
  { full := true, exact := true, honest := true, steady := true, early := true, moving := true, snap := true, policy := fun _ _ => True }

/-- What holds in every phase. -/
structure Common (p : Bytes) (st : ExactMatchSlicer σ) (rem : Bytes) (segs : List Seg) : Prop where
  pat : st.pattern = p
  all : segs = occIn p rem 0 rem.length
  buf : st.segments = occIn p rem 0 st.scanned
  le : st.scanned ≤ rem.length

def Idle (p : Bytes) (Src : ByteSrc σ) (R : σ → Phase → Nat → Bytes → Prop) (E : σ → Prop) (st : ExactMatchSlicer σ) (w : Nat) (rem : Bytes) (segs : List Seg) : Prop :=
  Common p st rem segs ∧ ∃ lb l, R st.src (.idle lb) w rem ∧ Keeps Src st.src l ∧ (E st.src ∨ (st.scanned + p.length ≤ l + 1 ∧ st.scanned ≤ l))

def Rel (p : Bytes) (Src : ByteSrc σ) (R : σ → Phase → Nat → Bytes → Prop) (E : σ → Prop) (st : ExactMatchSlicer σ) : SegPhase → Nat → Bytes → List Seg → Prop
  | .idle lb, w, rem, segs => Idle p Src R E st w rem segs ∧ lb ≤ st.segments.length
  | .lent eof count cap, w, rem, segs => Common p st rem segs ∧ count = st.segments.length ∧ cap = st.scanned ∧
      ∃ n, R st.src (.lent n) w rem ∧ n ≤ rem.length ∧ cap ≤ n ∧ (E st.src ∨ (st.scanned + p.length ≤ n + 1 ∧ st.scanned ≤ n)) ∧ (eof = true → cap = rem.length)
  | .done, w, rem, segs => Idle p Src R E st w rem segs ∧ rem = []

theorem Common.take {p : Bytes} {st : ExactMatchSlicer σ} {rem : Bytes} {segs : List Seg} (h : Common p st rem segs) :
    segs = st.segments ++ occIn p rem st.scanned rem.length := by
  rw [h.buf, occIn_append (Nat.zero_le _) h.le, h.all]

theorem fill_spec {p : Bytes} (hp : Unbordered p) {Src : ByteSrc σ} {F M R L E} (h : Serves Src F M R) (hA : Ample Src R L E) (hM : ∀ m, M m → AnyMargin m)
    (hL : p.length ≤ L) (hL0 : 0 < L) (B : Nat) :
    ∀ (st : ExactMatchSlicer σ) (w : Nat) (rem : Bytes) (segs : List Seg), Idle p Src R E st w rem segs →
      (∃ e, F e ∧ (segSrc Src B).fill st = .error e) ∨
      ∃ eof bytes w' s', (segSrc Src B).fill st = .ok ((eof, bytes, s'.segments.length, s'.scanned), s') ∧
        Rel p Src R E s' (.lent eof s'.segments.length s'.scanned) w' rem segs ∧
        SegLent rem segs ((segSrc Src B).slices s') bytes s'.segments.length ∧ s'.scanned ≤ bytes ∧
        (eof = true → bytes = rem.length) ∧ w' ≤ w ∧ (eof = false → w' < w ∧ 0 < s'.scanned) ∧ st.segments.length ≤ s'.segments.length ∧ bytes ≤ rem.length ∧
        ∀ x ∈ segs.take s'.segments.length, x.tail ≤ bytes := by
  rintro st w rem segs ⟨hC, lb, l, hR, hK, hW⟩
  simp only [segSrc, fill]
  rcases h.fill _ _ _ _ B hR with ⟨er, hF, heq⟩ | ⟨eof, n, w', s', heq, hR', hn, hm, he', hne', hw', hw''⟩
  · left; exact ⟨er, hF, by rw [heq]⟩
  right
  obtain ⟨a1, a2, a3⟩ := hA.fill _ _ _ _ _ _ _ _ hR heq
  rw [heq]
  simp only
  have hslice : 0 < n → ∃ m, AnyMargin m ∧ Src.slice s' = rem.take n ++ m := by
    intro h0; obtain ⟨m, h1, h2⟩ := hm h0; exact ⟨m, hM m h1, h2⟩
  have hscan : st.scanned ≤ n := by
    cases eof with
    | true => rw [he' rfl]; exact hC.le
    | false =>
      have := hK _ _ _ heq
      rcases hW with hW | hW
      · exact absurd (a3 hW) (by simp)
      · omega
  have hstream : (Src.slice s').take n = rem.take n ∧ n ≤ (Src.slice s').length ∨ n = 0 := by
    rcases Nat.eq_zero_or_pos n with h0 | h0
    · exact Or.inr h0
    · obtain ⟨m, _, h2⟩ := hslice h0
      left
      rw [h2]
      refine ⟨by rw [List.take_append_of_le_length (by simp; omega), List.take_take, Nat.min_self], by simp; omega⟩
  -- the new state
  have key : ∃ v sc, (if st.pattern.isEmpty = true then (Except.ok ((eof, n, 0, n), { st with src := s', scanned := n }) : Except Err _)
      else if n < st.scanned ∨ (Src.slice s').length < n then .error .panic
      else .ok ((eof, n, (st.segments ++ (findIter st.pattern 0 0 (((Src.slice s').take n).drop st.scanned)).map fun pos => ({ pos := st.scanned + pos, len := st.pattern.length } : Seg)).length,
          if eof = true then n else holdBack n st.pattern.length),
        { st with src := s', segments := st.segments ++ (findIter st.pattern 0 0 (((Src.slice s').take n).drop st.scanned)).map fun pos => ({ pos := st.scanned + pos, len := st.pattern.length } : Seg),
                  scanned := if eof = true then n else holdBack n st.pattern.length })) =
        .ok ((eof, n, v.length, sc), { st with src := s', segments := v, scanned := sc }) ∧ v = occIn p rem 0 sc ∧ sc ≤ n ∧ (eof = true → sc = n) ∧
        (eof = false → sc + p.length ≤ n + 1 ∧ 0 < sc) ∧ st.segments.length ≤ v.length := by
    by_cases hp0 : p = []
    · have hnil : ∀ a b, occIn p rem a b = [] := by
        intro a b
        unfold occIn
        simp [hp0]
      have hv : st.segments = [] := by rw [hC.buf, hnil]
      refine ⟨[], n, ?_, (hnil _ _).symm, Nat.le_refl _, fun _ => rfl, fun he => ?_, by rw [hv]; simp⟩
      · rw [hC.pat, hp0, List.isEmpty_nil, if_pos rfl, List.length_nil, ← hv]
      · have := a1 he
        rw [hp0]
        simp only [List.length_nil]
        omega
    · have hlen : 0 < p.length := List.length_pos_iff.2 hp0
      have hempty : ¬ st.pattern.isEmpty = true := by rw [hC.pat]; simpa using hp0
      rw [if_neg hempty, if_neg (by rcases hstream with h' | h' <;> omega), hC.pat]
      have hfound : (findIter p 0 0 (((Src.slice s').take n).drop st.scanned)).map (fun pos => ({ pos := st.scanned + pos, len := p.length } : Seg)) =
          occIn p rem st.scanned (n + 1 - p.length) := by
        rcases hstream with h' | h'
        · exact findIter_chunk hp0 hp hscan hn h'.1
        · subst h'
          simp only [List.take_zero, List.drop_nil, findIter, List.map_nil]
          unfold occIn
          rw [show 0 + 1 - p.length - st.scanned = 0 by omega]
          rfl
      rw [hfound]
      refine ⟨st.segments ++ occIn p rem st.scanned (n + 1 - p.length), if eof = true then n else holdBack n p.length, rfl, ?_, ?_, ?_, ?_, by simp⟩
      · cases eof with
        | true =>
          rw [if_pos rfl, hC.buf]
          have hnr := he' rfl
          rcases Nat.lt_or_ge (n + 1 - p.length) st.scanned with hlt | hge
          · rw [show occIn p rem st.scanned (n + 1 - p.length) = [] by unfold occIn; rw [show n + 1 - p.length - st.scanned = 0 by omega]; rfl]
            rw [List.append_nil, ← occIn_append (a := 0) (b := st.scanned) (c := n) (Nat.zero_le _) hscan, occIn_none (a := st.scanned) (by omega), List.append_nil]
          · rw [occIn_append (Nat.zero_le _) hge, ← occIn_append (a := 0) (b := n + 1 - p.length) (c := n) (Nat.zero_le _) (by omega),
              occIn_none (a := n + 1 - p.length) (by omega), List.append_nil]
        | false =>
          have h1 := a1 rfl
          have h2 := hK _ _ _ heq
          have h3 : st.scanned + p.length ≤ n + 1 := by
            rcases hW with hW | hW
            · exact absurd (a3 hW) (by simp)
            · omega
          rw [if_neg (by simp), hC.buf, occIn_append (Nat.zero_le _) (by omega)]
          unfold holdBack
          rw [if_pos (by omega)]
      · split
        · exact Nat.le_refl _
        · unfold holdBack
          have := a1 (by simpa using ‹¬ eof = true›)
          rw [if_pos (by omega)]
          omega
      · intro he; rw [if_pos he]
      · intro he
        rw [if_neg (by simp [he])]
        have := a1 he
        unfold holdBack
        rw [if_pos (by omega)]
        omega
  obtain ⟨v, sc, hres, hv, hscn, hsce, hscf, hvl⟩ := key
  have hCom : Common p { st with src := s', segments := v, scanned := sc } rem segs := ⟨hC.pat, hC.all, hv, by simp only; omega⟩
  have htk := hCom.take
  have htk2 : segs.take v.length = v := by rw [htk]; simp
  have htails : ∀ x ∈ segs.take v.length, x.tail ≤ n := by
    intro x hx
    rw [htk2, hv] at hx
    obtain ⟨_, g2, g3, g4, g5⟩ := mem_occIn.1 hx
    have g6 := g5.length_le
    simp only [List.length_drop] at g6
    have : 0 < p.length := List.length_pos_iff.2 g4
    unfold Seg.tail
    rw [g3]
    cases eof with
    | true => have := he' rfl; omega
    | false => have := hscf rfl; omega
  refine ⟨eof, n, w', { st with src := s', segments := v, scanned := sc }, hres, ⟨hCom, rfl, rfl, n, hR', hn, hscn, ?_, fun he => ?_⟩, ?_, hscn, he', hw',
    fun he => ⟨hw'' he trivial, (hscf he).2⟩, hvl, hn, ?_⟩
  · cases eof with
    | true => exact Or.inl (a2.2 rfl)
    | false => exact Or.inr ⟨(hscf rfl).1, hscn⟩
  · rw [hsce he]; exact he' he
  · exact ⟨by rw [htk]; simp, htk2.symm, n, Nat.le_refl _, hn, hslice, htails⟩
  · exact htails

theorem faithful {p : Bytes} (hp : Unbordered p) {Src : ByteSrc σ} {F M R L E} (h : Serves Src F M R) (hA : Ample Src R L E) (hM : ∀ m, M m → AnyMargin m)
    (hL : p.length ≤ L) (hL0 : 0 < L) (B : Nat) : SegFaithful (segSrc Src B) kind F (Rel p Src R E) := by
  constructor
  · rintro st lb w rem segs ⟨hI, hlb⟩
    rcases fill_spec hp h hA hM hL hL0 B st w rem segs hI with h' | ⟨eof, bytes, w', s', h1, h2, h3, h4, h5, h6, h7, h8, h9, h10⟩
    · exact Or.inl h'
    · have htk := h2.1.take
      have hbuf := h2.1.buf
      refine Or.inr ⟨eof, bytes, _, _, _, w', s', h1, h2, h3, h4, ?_, Or.inl rfl, fun he => ⟨?_, ?_, fun _ => h5 he⟩, fun _ x hx => ?_, h6, fun he => (h7 he).1, fun _ => by omega, fun _ he => (h7 he).2⟩
      · intro x hx
        rw [htk, List.drop_left] at hx
        exact (mem_occIn.1 hx).1
      · obtain ⟨_, _, _, n, _, _, _, _, hf⟩ := h2
        rw [htk, hf he]
        simp [occIn]
      · obtain ⟨_, _, _, n, _, _, _, _, hf⟩ := h2
        rw [hf he, h5 he]
      · rw [htk, List.take_left, hbuf] at hx
        exact Nat.le_of_lt (mem_occIn.1 hx).2.1
  · rintro st eof count cap w rem segs k ⟨hC, rfl, rfl, n, hR, hn, hcn, hW, heof⟩ hk
    have hk' : min k st.scanned ≤ n := by omega
    obtain ⟨s2, w2, heq2, hR2, hw2⟩ := h.consume _ _ _ _ (min k st.scanned) hR hk'
    have hsort : Sorted st.segments := by
      rw [hC.buf]
      exact (occIn_sorted _ _ _ _).imp fun h => Nat.le_of_lt h
    obtain ⟨d, hcut, hdl, hd1, hd2⟩ := cutSegs_spec (min k st.scanned) st.segments hsort
    generalize hkk : min k st.scanned = kk at *
    have hkle : kk ≤ st.scanned := by omega
    have hsplit : st.segments = occIn p rem 0 kk ++ occIn p rem kk st.scanned := by rw [occIn_append (Nat.zero_le _) hkle, hC.buf]
    have hd : d = (occIn p rem 0 kk).length := by
      have h0 : st.segments.take d ++ st.segments.drop d = occIn p rem 0 kk ++ occIn p rem kk st.scanned := by rw [List.take_append_drop, hsplit]
      rcases Nat.lt_trichotomy d (occIn p rem 0 kk).length with hlt | heq | hgt
      · exfalso
        have hm : st.segments[d]'(by rw [hsplit, List.length_append]; omega) ∈ st.segments.drop d := by
          rw [List.drop_eq_getElem_cons (by rw [hsplit, List.length_append]; omega)]
          exact List.mem_cons_self
        have h1 := hd2 _ hm
        have h2 : st.segments[d]'(by rw [hsplit, List.length_append]; omega) ∈ occIn p rem 0 kk := by
          simp only [hsplit, List.getElem_append_left hlt]
          exact List.getElem_mem hlt
        have := (mem_occIn.1 h2).2.1
        omega
      · exact heq
      · exfalso
        have hlt : (occIn p rem 0 kk).length < st.segments.length := by omega
        have h2 : st.segments[(occIn p rem 0 kk).length] ∈ st.segments.take d := by
          rw [List.mem_iff_getElem]
          exact ⟨(occIn p rem 0 kk).length, by rw [List.length_take]; omega, by rw [List.getElem_take]⟩
        have h1 := hd1 _ h2
        have h3 : st.segments[(occIn p rem 0 kk).length] ∈ occIn p rem kk st.scanned := by
          simp only [hsplit, List.getElem_append_right (Nat.le_refl _)]
          exact List.getElem_mem _
        have := (mem_occIn.1 h3).1
        omega
    have hall : segs = occIn p rem 0 kk ++ occIn p rem kk rem.length := by
      rw [hC.all, occIn_append (Nat.zero_le _) (by have := hC.le; omega)]
    have hdropS : st.segments.drop d = occIn p rem kk st.scanned := by rw [hsplit, hd, List.drop_left]
    have hdropA : segs.drop d = occIn p rem kk rem.length := by rw [hall, hd, List.drop_left]
    have htakeA : segs.take d = occIn p rem 0 kk := by rw [hall, hd, List.take_left]
    have hshift : ∀ b, kk ≤ b → (occIn p rem kk b).map (Seg.shift kk) = occIn p (rem.drop kk) 0 (b - kk) := by
      intro b hb
      have := occIn_shift (p := p) (l := rem) (a := 0) (b := b - kk) (k := kk)
      rw [show 0 + kk = kk by omega, show b - kk + kk = b by omega] at this
      exact this
    have hle := hC.le
    have hcE := hA.consume _ _ _ heq2
    have hIdle : Idle p Src R E { st with src := s2, segments := (st.segments.drop d).map (Seg.shift kk), scanned := st.scanned - kk } w2 (rem.drop kk) ((segs.drop d).map (Seg.shift kk)) := by
      refine ⟨⟨hC.pat, ?_, ?_, by simp only [List.length_drop]; omega⟩, _, n - kk, hR2, fun req n' s3 h3 => hA.keep _ _ _ _ _ _ _ _ _ _ hR hk' heq2 h3 rfl, ?_⟩
      · rw [hdropA, hshift _ (by omega), List.length_drop]
      · rw [hdropS, hshift _ hkle]
      · simp only
        rcases hW with hW | hW
        · exact Or.inl (hcE.2 hW)
        · right; omega
    refine ⟨kk, d, w2, { st with src := s2, segments := (st.segments.drop d).map (Seg.shift kk), scanned := st.scanned - kk }, ?_, by omega, by omega, hdl, ?_, ?_, ?_, hw2, fun _ hk => by omega, fun _ hk => ?_, fun _ _ hk _ _ _ _ _ _ => by omega⟩
    · simp only [segSrc, hkk, heq2, hcut]
    · intro x hx
      rw [htakeA] at hx
      exact (mem_occIn.1 hx).2.1
    · intro x hx
      rw [hdropA] at hx
      exact (mem_occIn.1 hx).1
    · by_cases hd' : eof = true ∧ kk = st.scanned
      · rw [if_pos hd']
        refine ⟨hIdle, ?_⟩
        rw [hd'.2, heof hd'.1]; simp
      · rw [if_neg hd']
        exact ⟨hIdle, by simp⟩
    · rw [hd, hC.buf, show kk = st.scanned by omega]
  · rintro st w rem segs ⟨hI, rfl⟩
    have hse : segs = [] := by rw [hI.1.all]; rfl
    have hsc : st.scanned = 0 := by simpa using hI.1.le
    rcases fill_spec hp h hA hM hL hL0 B st w [] segs hI with h' | ⟨eof, bytes, w', s', h1, h2, h3, h4, h5, h6, h7, h8, h9, h10⟩
    · exact Or.inl h'
    · simp only [List.length_nil, Nat.le_zero] at h9
      subst h9
      have h0 : s'.scanned = 0 := by omega
      have hs0 : s'.segments.length = 0 := by rw [h2.1.buf, h0]; simp [occIn]
      cases eof with
      | false => have := (h7 rfl).2; omega
      | true =>
        rw [h0, hs0] at h1 h2
        rw [hs0] at h3
        subst hse
        exact Or.inr ⟨w', s', h1, h2, h3, h6⟩

theorem fill_inv {Src : ByteSrc σ} {B : Nat} {st st' : ExactMatchSlicer σ} {eof bytes count maxc} (h : (segSrc Src B).fill st = .ok ((eof, bytes, count, maxc), st')) :
    Src.fill st.src B = .ok ((eof, bytes), st'.src) := by
  simp only [segSrc, fill] at h
  split at h
  · cases h
  · rename_i heq
    split at h
    · cases h
      exact heq
    · split at h
      · cases h
      · cases h
        exact heq

theorem consume_inv {Src : ByteSrc σ} {B : Nat} {st st' : ExactMatchSlicer σ} {k k' c} (h : (segSrc Src B).consume st k = .ok ((k', c), st')) :
    Src.consume st.src k' = .ok st'.src := by
  simp only [segSrc] at h
  split at h
  · cases h
  · rename_i heq
    split at h
    · cases h
    · cases h
      exact heq

theorem keeps {p : Bytes} (hp : Unbordered p) {Src : ByteSrc σ} {F M R L E} (h : Serves Src F M R) (hA : Ample Src R L E) (hM : ∀ m, M m → AnyMargin m)
    (hL : p.length ≤ L) (hL0 : 0 < L) (B : Nat) : SegKeeps (segSrc Src B) (Rel p Src R E) := by
  refine ⟨?_, ?_⟩
  · rintro st lb w rem segs bytes count maxc st' ⟨hI, _⟩ hfill
    rcases fill_spec hp h hA hM hL hL0 B st w rem segs hI with ⟨e, _, heq⟩ | ⟨eof, bytes', w', s', h1, h2, h3, h4, h5, h6, h7, h8, h9, h10⟩
    · rw [heq] at hfill; cases hfill
    · rw [h1] at hfill
      cases hfill
      exact h10
  · rintro st lb w rem segs eof bytes count maxc s1 k k' c s2 eof' bytes' count' maxc' s3 ⟨⟨_, lb', l, hR, _⟩, _⟩ hf1 hc hk hf2
    have g1 := fill_inv hf1
    have g2 := consume_inv hc
    have g3 := fill_inv hf2
    obtain ⟨a1, a2, a3⟩ := hA.fill _ _ _ _ _ _ _ _ hR g1
    rcases h.fill _ _ _ _ B hR with ⟨er, hF, heq⟩ | ⟨eof1, n, w', s', heq, hR', hn, hm, he', hne', hw', hw''⟩
    · rw [heq] at g1; cases g1
    · rw [heq] at g1
      cases g1
      obtain ⟨s4, w2, heq2, hR2, hw2⟩ := h.consume _ _ _ _ k' hR' hk
      rw [heq2] at g2
      cases g2
      obtain ⟨b1, b2, b3⟩ := hA.fill _ _ _ _ _ _ _ _ hR2 g3
      refine ⟨fun he => b3 ((hA.consume _ _ _ heq2).2 (a2.2 he)), fun he => ?_⟩
      subst he
      have := hA.keep _ _ _ _ _ _ _ _ _ _ hR' hk heq2 g3 rfl
      omega

/-- A fresh slicer delivers the occurrences of the array. -/
theorem serves {p : Bytes} (hp : Unbordered p) {Src : ByteSrc σ} {F M L} {s : σ} {w : Nat} {content : Bytes} (h : ServesAmply Src F M L s w content)
    (hM : ∀ m, M m → AnyMargin m) (hL : p.length ≤ L) (hL0 : 0 < L) (B : Nat) :
    SegServes (segSrc Src B) kind F { src := s, segments := [], scanned := 0, pattern := p } w content (occurrences p content) := by
  obtain ⟨R, E, hR, hA, hs, hE⟩ := h
  refine ⟨_, faithful hp hR hA hM hL hL0 B, keeps hp hR hA hM hL hL0 B, ⟨⟨rfl, occurrences_eq _ _, by simp [occIn], Nat.zero_le _⟩, 1, L, hs, fun req n s' hf => ?_, Or.inr ?_⟩, by simp⟩
  · exact (hA.fill _ _ _ _ _ _ _ _ hs hf).1 rfl
  · simp only; omega

end ExactMatchSlicer

end Nd
