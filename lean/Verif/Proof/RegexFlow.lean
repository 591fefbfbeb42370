import Verif.Proof.Regex
import Verif.Proof.Rounds
/-!
# `RegexSlicer` over streams of any length

The slicer does not search the slices that are retained at the end of a block, so it is not a stream of all matches.  What it shows are the
matches in some of the slices.
-/
namespace Nd
open Nd.Spec

/-- What a client sees that consumes in every round all it may, told round by round.  From the states `Z` nothing more appears. -/
inductive Trace (S : SegSrc σ) (F : Err → Prop) (Z : σ → Prop) : σ → Nat → Bytes → List Seg → Prop
  | fail {s v rem segs e} (hF : F e) (heq : S.fill s = .error e) : Trace S F Z s v rem segs
  | rest {s v rem} (hz : Z s) : Trace S F Z s v rem []
  | round {s v rem segs eof bytes count maxc s1 k s2 v'} (heq : S.fill s = .ok ((eof, bytes, count, maxc), s1)) (hl : SegLent rem segs (S.slices s1) 0 count)
      (hc : S.consume s1 maxc = .ok ((k, count), s2)) (hk : k ≤ rem.length) (hd : ∀ x ∈ segs.drop count, k ≤ x.pos)
      (he : eof = true → count = segs.length ∧ (bytes = 0 → segs = [])) (hv : (eof = true ∧ bytes = 0) ∨ v' < v)
      (next : Trace S F Z s2 v' (rem.drop k) ((segs.drop count).map (Seg.shift k))) : Trace S F Z s v rem segs

theorem Trace.rounds {S : SegSrc σ} {F} {Z : σ → Prop}
    (hZ : ∀ s, Z s → (∃ e, F e ∧ S.fill s = .error e) ∨ ∃ maxc s1 s2, S.fill s = .ok ((true, 0, 0, maxc), s1) ∧ (S.slices s1).2 = [] ∧ S.consume s1 maxc = .ok ((0, 0), s2) ∧ Z s2) :
    Rounds S F (Trace S F Z) := by
  refine ⟨fun s v rem segs h => ?_⟩
  cases h with
  | fail hF heq => exact Or.inl ⟨_, hF, heq⟩
  | rest hz =>
    rcases hZ s hz with he | ⟨maxc, s1, s2, h1, h2, h3, h4⟩
    · exact Or.inl he
    · refine Or.inr ⟨true, 0, 0, maxc, s1, 0, 0, s2, 0, h1, ⟨by simp, by rw [h2]; rfl, 0, by omega, by omega, by omega, by simp⟩, h3, rfl, by omega, by simp, ?_, by simp, Or.inl ⟨rfl, rfl⟩⟩
      exact .rest h4
  | round heq hl hc hk hd he hv next => exact Or.inr ⟨_, _, _, _, _, _, _, _, _, heq, hl, hc, rfl, hk, hd, next, he, hv⟩

/-- The stream lends whole slices only up to where it may be consumed, and consumes all it may. -/
def Flush (S : SegSrc σ) (R : σ → SegPhase → Nat → Bytes → List Seg → Prop) : Prop :=
  ∀ s eof count cap w rem segs k c s', R s (.lent eof count cap) w rem segs → S.consume s cap = .ok ((k, c), s') → k = cap ∧ ∀ x ∈ segs.take count, x.tail ≤ cap

/-- Slices without gaps and overlaps. -/
theorem ConstSlicer.flush {Src : ByteSrc σ} {R : σ → Phase → Nat → Bytes → Prop} {E : σ → Prop} (L : Nat) (mode : Manner) (P M esc : Nat) :
    Flush (segSrc Src) (Rel Src R E L mode P P M esc) := by
  rintro st eof count cap w rem segs k c s' ⟨base, e, rfl, hI, hE, n, hR, rfl, hl, hc1, hcn, hnr, hee, hef, hst⟩ hcon
  obtain ⟨k', c', sg, base', heq, h1, h2, h3, h4, h5, hI2, hd, h6, h7, h8⟩ := hI.consume cap count cap hl hc1 (by omega) hee (fun hf => by
    have := hef hf
    exact ⟨this.1, by omega, Nat.le_refl _⟩)
  have hk : k = k' := by
    simp only [segSrc, heq] at hcon
    split at hcon
    · cases hcon
    · cases hcon; rfl
  subst hk
  refine ⟨?_, fun x hx => ?_⟩
  · cases eof with
    | true => exact h6 rfl (Nat.le_refl _)
    | false =>
      have := (hef rfl).2.2.2 (Nat.le_refl _)
      exact h7 rfl rfl this.2 this.1
  · obtain ⟨j, hj1, hj2, rfl⟩ := comb_take_mem hx
    have hP := hI.P_pos
    have hj := (lt_ccount hP).1 hj2
    have hm := mul_le_int P (Nat.zero_le j)
    have hM := hI.M_pos
    have htp := hI.tail_pos
    simp only [cseg, Seg.tail]
    cases eof with
    | true =>
      have := (hee rfl).1
      omega
    | false =>
      have := (hef rfl).2.2.2 (Nat.le_refl _)
      have h3 := mul_le_int P (show j + 1 ≤ count by omega)
      rw [succ_mul_int] at h3
      omega

/-- Before the end every slice is lent that is complete within the first `L` bytes, with `P` bytes to spare. -/
def Eager (S : SegSrc σ) (R : σ → SegPhase → Nat → Bytes → List Seg → Prop) (L P : Nat) : Prop :=
  ∀ s lb w rem segs bytes count maxc s', R s (.idle lb) w rem segs → S.fill s = .ok ((false, bytes, count, maxc), s') → ∀ x ∈ segs.drop count, L < x.tail + P

theorem ConstSlicer.eager {Src : ByteSrc σ} {F M' R L E} (h : Serves Src F M' R) (hA : Ample Src R L E) (mode : Manner) (P S M esc : Nat) (hL : mode.need P S esc ≤ L) :
    Eager (segSrc Src) (Rel Src R E L mode P S M esc) L P := by
  rintro st lb w rem segs bytes count maxc s' ⟨base, e, rfl, hI, hE, ⟨l, hR⟩, _⟩ hfill x hx
  have hL1 := mode.need_le P S esc
  simp only [segSrc] at hfill
  rcases h.fill _ _ _ _ st.segs.minFillLen hR with ⟨er, _, heq⟩ | ⟨eof, n, w', s2, heq, _, hn, _⟩
  · rw [heq] at hfill; cases hfill
  obtain ⟨a1, a2, a3⟩ := hA.fill _ _ _ _ _ _ _ _ hR heq
  rw [heq] at hfill
  simp only at hfill
  cases hsf : st.segs.fill eof n with
  | error => rw [hsf] at hfill; cases hfill
  | ok sg =>
    rw [hsf] at hfill
    simp only [Except.ok.injEq, Prod.mk.injEq] at hfill
    obtain ⟨⟨rfl, rfl, rfl, rfl⟩, _⟩ := hfill
    have hef : e = false := by
      cases e with
      | false => rfl
      | true => exact absurd (a3 (hE.2 rfl)) (by simp)
    subst hef
    have hlen := a1 rfl
    have hP := hI.P_pos
    obtain ⟨cnt, m, sg', hff, hl, hcm, hsg, hup, hdn, _⟩ := hI.fill_more n (by
      have := hI.first
      have := hI.base_eq
      have := hI.esc_le
      omega)
    rw [hsf] at hff
    cases hff
    rw [hl] at hx
    simp only at hx
    obtain ⟨j, h1, h2, rfl⟩ := comb_drop_mem hx
    have h3 := mul_le_int P h1
    have h4 := (lt_ccount hP).1 h2
    have hm := mul_le_int P (Nat.zero_le j)
    have hmp := hI.M_pos
    have htp := hI.tail_pos
    simp only [cseg, Seg.tail]
    omega

namespace RegexSlicer

/-- The slices that are searched in a round. -/
def fresh (scanned : Nat) (segs : List Seg) : List Seg := segs.filter fun x => decide (scanned ≤ x.pos)

theorem scan_fresh (find : Bytes → List Seg) (scanned : Nat) (rem m : Bytes) (avail : Nat) (ha : avail ≤ rem.length) : ∀ (segs : List Seg), (∀ x ∈ segs, x.tail ≤ avail) →
    scan find scanned (rem.take avail ++ m) segs = .ok (searched find rem (fresh scanned segs))
  | [], _ => rfl
  | s :: rest, h => by
    have ih := scan_fresh find scanned rem m avail ha rest fun x hx => h x (List.mem_cons_of_mem _ hx)
    have h1 := h s List.mem_cons_self
    by_cases hs : s.pos < scanned
    · rw [scan, if_pos hs, ih]
      unfold fresh
      rw [List.filter_cons_of_neg (by simp; omega)]
    · rw [scan, if_neg hs, if_neg (by rw [List.length_append, List.length_take]; omega), ih, Seg.bytes_take s rem m avail ha h1]
      unfold fresh
      rw [List.filter_cons_of_pos (by simp; omega)]
      rfl

theorem searched_shift (find : Bytes → List Seg) (rem : Bytes) (k : Nat) : ∀ (segs : List Seg), (∀ x ∈ segs, k ≤ x.pos) →
    searched find (rem.drop k) (segs.map (Seg.shift k)) = (searched find rem segs).map (Seg.shift k)
  | [], _ => rfl
  | s :: rest, h => by
    have h1 := h s List.mem_cons_self
    have ih := searched_shift find rem k rest fun x hx => h x (List.mem_cons_of_mem _ hx)
    have hb : (Seg.shift k s).bytes (rem.drop k) = s.bytes rem := by
      simp only [Seg.shift, Seg.bytes, List.drop_drop]
      rw [show k + (s.pos - k) = s.pos by omega]
    unfold searched at ih ⊢
    rw [List.map_cons, List.flatMap_cons, List.flatMap_cons, List.map_append, ih, hb, List.map_map]
    congr 1
    apply List.map_congr_left
    intro x _
    simp only [Function.comp, Seg.shift]
    congr 1
    omega

theorem searched_append (find : Bytes → List Seg) (rem : Bytes) (a b : List Seg) : searched find rem (a ++ b) = searched find rem a ++ searched find rem b := by
  simp only [searched, List.flatMap_append]

theorem searched_from {find : Bytes → List Seg} {rem : Bytes} {segs : List Seg} {x : Seg} (hx : x ∈ searched find rem segs) : ∃ s ∈ segs, s.pos ≤ x.pos := by
  obtain ⟨s, hs, hx⟩ := List.mem_flatMap.1 hx
  obtain ⟨m, _, rfl⟩ := List.mem_map.1 hx
  exact ⟨s, hs, Nat.le_add_right _ _⟩

theorem searched_to {find : Bytes → List Seg} (hf : Searcher find) (hne : ∀ l, ∀ m ∈ find l, 0 < m.len) {rem : Bytes} {segs : List Seg} {cap : Nat} (h : ∀ x ∈ segs, x.tail ≤ cap) :
    ∀ x ∈ searched find rem segs, x.pos < cap ∧ x.tail ≤ cap := by
  intro x hx
  obtain ⟨s, hs, hx⟩ := List.mem_flatMap.1 hx
  obtain ⟨m, hm, rfl⟩ := List.mem_map.1 hx
  have h1 := hf.within _ m hm
  have h2 := hne _ m hm
  have h3 := h s hs
  simp only [Seg.bytes, List.length_take, List.length_drop, Seg.tail] at h1 h3 ⊢
  omega

/-- Nothing more appears. -/
def Over (R : σ → SegPhase → Nat → Bytes → List Seg → Prop) (st : RegexSlicer σ) : Prop := st.matches_ = [] ∧ ∃ w rem, R st.src .done w rem []

theorem over {find : Bytes → List Seg} {S : SegSrc σ} {K F R} (h : SegFaithful S K F R) (st : RegexSlicer σ) (hz : Over R st) :
    (∃ e, F e ∧ (segSrc find S).fill st = .error e) ∨
    ∃ maxc s1 s2, (segSrc find S).fill st = .ok ((true, 0, 0, maxc), s1) ∧ ((segSrc find S).slices s1).2 = [] ∧ (segSrc find S).consume s1 maxc = .ok ((0, 0), s2) ∧ Over R s2 := by
  obtain ⟨hm, w, rem, hR⟩ := hz
  rcases h.rest _ _ _ _ hR with ⟨e, hF, heq⟩ | ⟨w', s', heq, hR', hl, _⟩
  · exact Or.inl ⟨e, hF, by simp only [segSrc, fill, heq]⟩
  right
  obtain ⟨k', c, w2, s2, hc, hk, _, hcc, _, _, hR2, _⟩ := h.consume _ _ _ _ _ _ _ 0 hR' (Or.inr (Or.inl rfl))
  have hk0 : k' = 0 := by omega
  subst hk0
  refine ⟨0, { src := s', matches_ := [], scanned := st.scanned }, { src := s2, matches_ := [], scanned := st.scanned }, ?_, rfl, ?_, rfl, w2, rem, ?_⟩
  · simp only [segSrc, fill, heq, List.length_nil, List.take_zero, scan, hm, List.append_nil]
    rw [if_neg (by omega)]
    rfl
  · simp only [segSrc, hc, if_true]
  · simpa using hR2

/-- The matches in some of the slices are shown. -/
theorem trace {find : Bytes → List Seg} (hf : Searcher find) (hne : ∀ l, ∀ m ∈ find l, 0 < m.len) {S : SegSrc σ} {K F R} (h : SegFaithful S K F R) (hfl : Flush S R)
    {L P : Nat} (heag : Eager S R L P) (hho : K.honest = true) (hex : K.exact = true) : ∀ (w : Nat) (st : RegexSlicer σ) (lb : Nat) (rem : Bytes) (segs : List Seg), R st.src (.idle lb) w rem segs → st.matches_ = [] →
      (∀ x ∈ segs, 0 < x.len) → ∃ sub, sub.Sublist segs ∧ (∀ x ∈ segs, st.scanned ≤ x.pos → x.tail + P ≤ L → x ∈ sub) ∧
        Trace (segSrc find S) F (Over R) st (w + 1) rem (searched find rem sub) := by
  intro w
  induction w using Nat.strongRecOn with
  | _ w ih =>
  intro st lb rem segs hR hm hpos
  rcases h.fill _ _ _ _ _ hR with ⟨e, hF, heq⟩ | ⟨eof, bytes, count, maxc, cap, w', s', heq, hR', hl, hcb, hdrop, hmax, heof, _, hw, hw', _⟩
  · exact ⟨segs, List.Sublist.refl _, fun _ h _ _ => h, .fail hF (by simp only [segSrc, fill, heq])⟩
  obtain rfl : maxc = cap := by
    rcases hmax with hmax | hmax
    · exact hmax
    · rw [hho] at hmax; exact absurd hmax.2.2.1 (by simp)
  obtain ⟨k', c, w2, s2, hc, _, _, hcc, _, hk5, hR2, hw2, _, hce, _⟩ := h.consume _ _ _ _ _ _ _ maxc hR' (Or.inr (Or.inl rfl))
  obtain ⟨rfl, htail⟩ := hfl _ _ _ _ _ _ _ _ _ _ hR' hc
  obtain rfl : c = count := hce hex (Nat.le_refl _)
  obtain ⟨avail, ha1, ha2, ha3, ha4⟩ := hl.bytes_eq
  have hcl := hl.count_le
  have hscan : scan find st.scanned (S.slices s').1 (segs.take c) = .ok (searched find rem (fresh st.scanned (segs.take c))) := by
    by_cases h0 : 0 < avail
    · obtain ⟨m, _, hm⟩ := ha3 h0
      rw [hm]
      exact scan_fresh find _ rem m avail ha2 _ ha4
    · have : segs.take c = [] := by
        cases hs : segs.take c with
        | nil => rfl
        | cons x l =>
          have h1 := ha4 x (by rw [hs]; exact List.mem_cons_self)
          have h2 := hpos x (List.mem_of_mem_take (by rw [hs]; exact List.mem_cons_self))
          simp only [Seg.tail] at h1
          omega
      rw [this]
      rfl
  have hfs : (fresh st.scanned (segs.take c)).Sublist (segs.take c) := List.filter_sublist
  have hto := searched_to hf hne (rem := rem) (segs := fresh st.scanned (segs.take c)) (cap := k') fun x hx => htail x (hfs.subset hx)
  generalize hms : searched find rem (fresh st.scanned (segs.take c)) = ms at hscan hto
  have hfill : (segSrc find S).fill st = .ok ((eof, bytes, ms.length, k'), { src := s', matches_ := ms, scanned := st.scanned + bytes }) := by
    simp only [segSrc, fill, heq]
    rw [if_neg (by rw [hl.segs_eq, List.length_take]; omega), hl.segs_eq, List.take_take, Nat.min_self, hscan]
    simp only [hm, List.nil_append]
  have hcut : cutSegs k' ms = .ok (ms.length, []) := by
    have := cutSegs_split k' ms [] (fun x hx => (hto x hx).1) (by simp)
    simpa using this
  obtain ⟨sc, hcons⟩ : ∃ sc, (segSrc find S).consume { src := s', matches_ := ms, scanned := st.scanned + bytes } k' = .ok ((k', ms.length), { src := s2, matches_ := [], scanned := sc }) := by
    simp only [segSrc, hc]
    by_cases h0 : k' = 0
    · have hnil : ms = [] := by
        cases ms with
        | nil => rfl
        | cons x l => have := (hto x List.mem_cons_self).1; omega
      rw [if_pos h0, h0, hnil]
      exact ⟨_, rfl⟩
    · rw [if_neg h0, hcut]
      simp only [ckSub]
      rw [if_pos (by omega)]
      exact ⟨_, rfl⟩
  have hlent : ∀ more : List Seg, SegLent rem (ms ++ more) ((segSrc find S).slices { src := s', matches_ := ms, scanned := st.scanned + bytes }) 0 ms.length := by
    intro more
    refine ⟨by simp, by simp [segSrc], avail, by omega, ha2, ha3, fun x hx => ?_⟩
    rw [List.take_left] at hx
    have := (hto x hx).2
    omega
  cases hE : eof with
  | true =>
    subst hE
    obtain ⟨e1, e2, _⟩ := heof rfl
    refine ⟨fresh st.scanned (segs.take c), hfs.trans (List.take_sublist _ _), fun x hx hsc _ => ?_, ?_⟩
    · rw [e1, List.take_length]
      exact List.mem_filter.2 ⟨hx, by simpa using hsc⟩
    rw [hms]
    have hl' := hlent []
    rw [List.append_nil] at hl'
    refine .round hfill hl' hcons (by omega) (by simp) (fun _ => ⟨rfl, fun hb => ?_⟩) (Or.inr (Nat.succ_pos w)) ?_
    · cases ms with
      | nil => rfl
      | cons x l => have := (hto x List.mem_cons_self).1; omega
    · rw [List.drop_length]
      refine .rest ⟨rfl, w2, rem.drop k', ?_⟩
      rw [if_pos ⟨rfl, rfl⟩, e1, List.drop_length] at hR2
      exact hR2
  | false =>
    subst hE
    rw [if_neg (by simp)] at hR2
    have hlt := hw' rfl
    obtain ⟨sub2, hs2, _, ht2⟩ := ih w2 (by omega) { src := s2, matches_ := [], scanned := sc } _ _ _ hR2 rfl (by
      intro x hx
      obtain ⟨y, hy, rfl⟩ := List.mem_map.1 hx
      exact hpos y (List.mem_of_mem_drop hy))
    obtain ⟨sub', hs', rfl⟩ := List.sublist_map_iff.1 hs2
    have hk' : ∀ x ∈ sub', k' ≤ x.pos := fun x hx => hk5 x (hs'.subset hx)
    rw [searched_shift find rem k' sub' hk'] at ht2
    refine ⟨fresh st.scanned (segs.take c) ++ sub', ?_, fun x hx hsc ht => ?_, ?_⟩
    rotate_left
    · rw [← List.take_append_drop c segs, List.mem_append] at hx
      rcases hx with hx | hx
      · exact List.mem_append_left _ (List.mem_filter.2 ⟨hx, by simpa using hsc⟩)
      · have := heag _ _ _ _ _ _ _ _ _ hR heq x hx
        omega
    rotate_right
    · have := hfs.append hs'
      rwa [List.take_append_drop] at this
    · rw [searched_append, hms]
      refine .round hfill (hlent _) hcons (by omega) ?_ (by simp) (Or.inr (show w2 + 1 < w + 1 by omega)) ?_
      · intro x hx
        rw [List.drop_left] at hx
        obtain ⟨s, hs, hle⟩ := searched_from hx
        have := hk' s hs
        omega
      · rw [List.drop_left]
        exact ht2

end RegexSlicer
end Nd
