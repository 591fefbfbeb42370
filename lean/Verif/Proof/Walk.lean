import Verif.Proof.WalkEval
import Verif.Proof.Guided
/-!
# `WalkSlicer` cuts the stream by the computed lengths
-/
namespace Nd
open Nd.Spec

namespace WalkSlicer

def kind : SegKind :=
  { full := true, exact := true, honest := true, steady := true, early := true, moving := false, snap := true, policy := fun _ _ => True }

/-! ## Adjacent slices -/

/-- Non-empty slices, strictly sorted, between `p` and `q`. -/
structure Between (p q : Nat) (segs : List Seg) : Prop where
  strict : segs.Pairwise fun x y => x.pos < y.pos
  each : ∀ x ∈ segs, 0 < x.len ∧ p ≤ x.pos ∧ x.tail ≤ q

theorem Between.append {p q r : Nat} {a b : List Seg} (ha : Between p q a) (hb : Between q r b) (hpq : p ≤ q) (hqr : q ≤ r) : Between p r (a ++ b) := by
  constructor
  · rw [List.pairwise_append]
    refine ⟨ha.strict, hb.strict, fun x hx y hy => ?_⟩
    have h1 := ha.each x hx
    have h2 := hb.each y hy
    simp only [Seg.tail] at h1
    omega
  · intro x hx
    rcases List.mem_append.1 hx with hx | hx
    · have := ha.each x hx; omega
    · have := hb.each x hx; omega

theorem adjacent_between : ∀ (p : Nat) (ls : List Nat), (∀ l ∈ ls, 0 < l) → Between p (p + ls.sum) (adjacent p ls)
  | p, [], _ => ⟨List.Pairwise.nil, by simp [adjacent]⟩
  | p, l :: ls, h => by
    have hl := h l List.mem_cons_self
    have ih := adjacent_between (p + l) ls fun x hx => h x (List.mem_cons_of_mem _ hx)
    have h1 : Between p (p + l) [{ pos := p, len := l }] := ⟨List.pairwise_singleton _ _, by
      intro x hx
      simp only [List.mem_singleton] at hx
      subst hx
      simp [Seg.tail, hl]⟩
    have := h1.append ih (by omega) (by omega)
    simpa [adjacent, Nat.add_assoc] using this

theorem adjacent_shift (k : Nat) : ∀ (p : Nat) (ls : List Nat), k ≤ p → (adjacent p ls).map (Seg.shift k) = adjacent (p - k) ls
  | _, [], _ => rfl
  | p, l :: ls, h => by
    simp only [adjacent, List.map_cons, Seg.shift, adjacent_shift k (p + l) ls (by omega)]
    rw [show p + l - k = p - k + l by omega]

theorem pushSpans_spec (bytes : Nat) : ∀ (ls : List Nat) (segs : List Seg) (pos : Nat), (∀ l ∈ ls, 0 < l) → pos + ls.sum ≤ bytes →
    pushSpans bytes ls segs pos = (segs ++ adjacent pos ls, pos + ls.sum)
  | [], segs, pos, _, _ => by simp [pushSpans, adjacent]
  | l :: ls, segs, pos, h, hle => by
    have hl := h l List.mem_cons_self
    simp only [List.sum_cons] at hle
    simp only [pushSpans]
    rw [if_neg (by omega), pushSpans_spec bytes ls _ _ (fun x hx => h x (List.mem_cons_of_mem _ hx)) (by omega)]
    rw [Nat.min_eq_left (by omega), Nat.add_sub_cancel_left]
    simp [adjacent, Nat.add_assoc]

theorem Lens.pos {H : Nat} {rpns : List (List Tok)} {stream : Bytes} {ls : List Nat} (h : Lens H rpns stream ls) : ∀ l ∈ ls, 0 < l := by
  unfold Lens at h
  induction h with
  | nil => simp
  | @cons _ l _ ls hv _ ih =>
    intro x hx
    rcases List.mem_cons.1 hx with rfl | hx
    · obtain ⟨v, _, h1, rfl⟩ := hv
      have : (0 : Int) < v.toInt := by
        have := Int64.lt_iff_toInt_lt.1 h1
        simpa using this
      omega
    · exact ih x hx

theorem Lens.sum_pos {H : Nat} {rpns : List (List Tok)} {stream : Bytes} {ls : List Nat} (h : Lens H rpns stream ls) (hne : rpns ≠ []) : 0 < ls.sum := by
  have hp := h.pos
  unfold Lens at h
  cases h with
  | nil => exact absurd rfl hne
  | @cons _ l _ ls _ _ =>
    have := hp l List.mem_cons_self
    simp only [List.sum_cons]
    omega

theorem walks_between {H : Nat} {rpns : List (List Tok)} {p : Nat} {stream : Bytes} {segs : List Seg} (h : Walks (Lens H rpns) p stream segs) : Between p (p + stream.length) segs := by
  induction h with
  | nil p => exact ⟨List.Pairwise.nil, by simp⟩
  | cut p stream ls segs _ hl hle _ ih =>
    have h1 := adjacent_between p ls hl.pos
    rw [List.length_drop, show p + ls.sum + (stream.length - ls.sum) = p + stream.length by omega] at ih
    exact h1.append ih (by omega) (by omega)

theorem walks_shift {len : Bytes → List Nat → Prop} {k p : Nat} {stream : Bytes} {segs : List Seg} (h : Walks len p stream segs) (hk : k ≤ p) :
    Walks len (p - k) stream (segs.map (Seg.shift k)) := by
  induction h with
  | nil p => exact .nil _
  | cut p stream ls segs h1 h2 h3 _ ih =>
    rw [List.map_append, adjacent_shift k p ls hk]
    have := ih (by omega)
    rw [show p + ls.sum - k = p - k + ls.sum by omega] at this
    exact .cut _ _ _ _ h1 h2 h3 this

/-! ## The invariant -/

structure Common (H : Nat) (rpns : List (List Tok)) (st : WalkSlicer σ) (rem : Bytes) (segs : List Seg) : Prop where
  fetchers : st.fetchers = rpns
  fits : st.pos ≤ rem.length
  kept : Between 0 st.pos st.segments
  rest : ∃ rest, segs = st.segments ++ rest ∧ Walks (Lens H rpns) st.pos (rem.drop st.pos) rest

theorem loop_spec {Src : ByteSrc σ} {F M R L E} {H : Nat} (h : Serves Src F M R) (hA : Ample Src R L E) (hG : Grows Src R H) (hM : ∀ m, M m → AnyMargin m)
    {rpns : List (List Tok)} (hne : rpns ≠ []) {eof : Bool} {n0 w0 : Nat} {rem : Bytes} {segs : List Seg} (he : eof = true → n0 = rem.length) (hn0 : n0 ≤ rem.length) :
    ∀ (fuel : Nat) (st : WalkSlicer σ), At Src M R E (eof = true) n0 w0 rem st.src → Common H rpns st rem segs → st.pos ≤ n0 → st.pos < rem.length → rem.length - st.pos < fuel →
      (∃ e, Abort F e ∧ loop Src eof n0 fuel st = .error e) ∨
      ∃ eof' n' st', loop Src eof n0 fuel st = .ok ((eof', n'), st') ∧ At Src M R E (eof = true) n' w0 rem st'.src ∧ Common H rpns st' rem segs ∧ st'.pos ≤ n' ∧ n' ≤ rem.length ∧
        (eof' = true → st'.pos = n' ∧ n' = rem.length) ∧ (eof = true → eof' = true) ∧ st.segments.length ≤ st'.segments.length
  | 0, _, _, _, _, _, hf => by omega
  | fuel + 1, st, hP, hC, hpos, hlt, hf => by
    obtain ⟨rest, hall, hW⟩ := hC.rest
    simp only [loop]
    generalize hstream : rem.drop st.pos = stream at hW
    cases hW with
    | nil =>
      have := congrArg List.length hstream
      rw [List.length_drop, List.length_nil] at this
      omega
    | cut _ _ ls segs' hs1 hl hle hW =>
      subst hstream
      rw [List.length_drop] at hle
      have hlp := hl.pos
      have hsum := hl.sum_pos hne
      rw [hC.fetchers]
      rcases nextSpans_spec h hA hG hM hpos rpns ls st.src hP hl with ⟨e, hF, heq⟩ | ⟨s1, heq, hP1⟩
      · left; exact ⟨e, hF, by rw [heq]⟩
      rw [heq]
      simp only
      by_cases hfit : n0 < st.pos + ls.sum
      · rw [if_pos hfit]
        have hef : eof = false := by
          cases eof with
          | false => rfl
          | true => have := he rfl; omega
        exact Or.inr ⟨eof, n0, _, rfl, hP1, ⟨rfl, hC.fits, hC.kept, hC.rest⟩, hpos, hn0, (fun h => by rw [hef] at h; cases h), fun h => h, Nat.le_refl _⟩
      · rw [if_neg hfit]
        rcases hP1.fill h hA hG ls.sum with ⟨e, hF, heq⟩ | ⟨eof2, n2, s2, heq2, hP2, hn2, hnr2, _, he2, hE2, _⟩
        · left; exact ⟨e, Or.inl hF, by rw [heq]⟩
        rw [heq2]
        simp only
        rw [pushSpans_spec n2 ls _ _ hlp (by omega)]
        simp only
        have hC2 : Common H rpns { src := s2, fetchers := rpns, segments := st.segments ++ adjacent st.pos ls, pos := st.pos + ls.sum } rem segs := by
          refine ⟨rfl, by simp only; omega, ?_, segs', ?_, ?_⟩
          · exact hC.kept.append (adjacent_between st.pos ls hlp) (Nat.zero_le _) (Nat.le_add_right _ _)
          · rw [hall, List.append_assoc]
          · simp only
            rw [← List.drop_drop]
            exact hW
        by_cases hend : n2 ≤ st.pos + ls.sum
        · rw [if_pos hend]
          refine Or.inr ⟨eof2, n2, _, rfl, hP2, hC2, by simp only; omega, hnr2, fun h => ⟨by simp only; omega, he2 h⟩, hE2, ?_⟩
          simp
        · rw [if_neg hend]
          rcases loop_spec h hA hG hM hne he hn0 fuel _ (hP2.mono hn2) hC2 (by simp only; omega) (by simp only; omega) (by simp only; omega) with h' | ⟨eof', n', st', h1, h2, h3, h4, h5, h6, h7, h8⟩
          · left; exact h'
          · refine Or.inr ⟨eof', n', st', h1, h2, h3, h4, h5, h6, h7, ?_⟩
            simp only [List.length_append] at h8
            omega

def Idle (Src : ByteSrc σ) (R : σ → Phase → Nat → Bytes → Prop) (H : Nat) (rpns : List (List Tok)) (st : WalkSlicer σ) (w : Nat) (rem : Bytes) (segs : List Seg) : Prop :=
  Common H rpns st rem segs ∧ (∃ lb, R st.src (.idle lb) w rem) ∧ ∀ req n s', Src.fill st.src req = .ok ((false, n), s') → st.pos < n

def Rel (Src : ByteSrc σ) (R : σ → Phase → Nat → Bytes → Prop) (H N : Nat) (rpns : List (List Tok)) (st : WalkSlicer σ) : SegPhase → Nat → Bytes → List Seg → Prop
  | .idle lb, w, rem, segs => rem.length ≤ N ∧ lb ≤ st.segments.length ∧ Idle Src R H rpns st w rem segs
  | .lent eof count cap, w, rem, segs => rem.length ≤ N ∧ Common H rpns st rem segs ∧ count = st.segments.length ∧ cap = st.pos ∧ (eof = true → st.pos = rem.length) ∧ ∃ n, R st.src (.lent n) w rem ∧ st.pos ≤ n
  | .done, w, rem, segs => rem = [] ∧ Idle Src R H rpns st w rem segs

theorem fill_spec {Src : ByteSrc σ} {F M R L E} {H : Nat} (h : Serves Src F M R) (hA : Ample Src R L E) (hG : Grows Src R H) (hM : ∀ m, M m → AnyMargin m)
    {rpns : List (List Tok)} (hne : rpns ≠ []) (B fuel : Nat) (st : WalkSlicer σ) (w : Nat) (rem : Bytes) (segs : List Seg) (hI : Idle Src R H rpns st w rem segs) (hf : rem.length < fuel) :
      (∃ e, Abort F e ∧ (segSrc Src B fuel).fill st = .error e) ∨
      ∃ eof n w' s', (segSrc Src B fuel).fill st = .ok ((eof, n, s'.segments.length, s'.pos), s') ∧ Common H rpns s' rem segs ∧ (∃ m, R s'.src (.lent m) w' rem ∧ n ≤ m) ∧
        SegLent rem segs ((segSrc Src B fuel).slices s') n s'.segments.length ∧ s'.pos ≤ n ∧ n ≤ rem.length ∧ (eof = true → s'.pos = n ∧ n = rem.length) ∧
        w' ≤ w ∧ (eof = false → w' < w) ∧ st.segments.length ≤ s'.segments.length ∧
        (eof = false → ∃ n0 s0, Src.fill st.src (max B (2 * st.pos)) = .ok ((false, n0), s0)) := by
  obtain ⟨hC, ⟨lb, hR⟩, hnext⟩ := hI
  simp only [segSrc, fill]
  rcases h.fill _ _ _ _ (max B (2 * st.pos)) hR with ⟨e, hF, heq⟩ | ⟨eof, n0, w0, s1, heq, hR1, hn, hm, he, hne', hw, hw'⟩
  · left; exact ⟨e, Or.inl hF, by rw [heq]⟩
  rw [heq]
  simp only
  have lent : ∀ (st' : WalkSlicer σ) (n' : Nat) (E0 : Prop), At Src M R E E0 n' w0 rem st'.src → Common H rpns st' rem segs → st'.pos ≤ n' → 
      SegLent rem segs (Src.slice st'.src, st'.segments) n' st'.segments.length := by
    intro st' n' E0 hP hC' hp
    obtain ⟨m, w1, hR', hnm, hmr, _, _, hsl⟩ := hP
    obtain ⟨rest, hall, _⟩ := hC'.rest
    refine ⟨by rw [hall, List.length_append]; omega, by rw [hall, List.take_left], m, hnm, hmr, fun h0 => ?_, ?_⟩
    · obtain ⟨mm, h1, h2⟩ := hsl h0
      exact ⟨mm, hM mm h1, h2⟩
    · intro x hx
      rw [hall, List.take_left] at hx
      have := hC'.kept.each x hx
      omega
  have hP1 : At Src M R E (eof = true) n0 w0 rem s1 := ⟨n0, w0, hR1, Nat.le_refl _, hn, Nat.le_refl _, fun h0 => (hA.fill _ _ _ _ _ _ _ _ hR heq).2.1.2 h0, hm⟩
  by_cases hearly : (eof && decide (n0 ≤ st.pos)) = true
  · rw [if_pos hearly]
    simp only [Bool.and_eq_true, decide_eq_true_eq] at hearly
    obtain ⟨h1, h2⟩ := hearly
    have h3 := he h1
    have h4 := hC.fits
    right
    refine ⟨eof, n0, w0, { st with src := s1 }, ?_, ⟨hC.fetchers, hC.fits, hC.kept, hC.rest⟩, ⟨n0, hR1, Nat.le_refl _⟩, lent _ _ _ hP1 ⟨hC.fetchers, hC.fits, hC.kept, hC.rest⟩ (by simp only; omega),
      by simp only; omega, hn, fun _ => ⟨by simp only; omega, h3⟩, hw, fun h => hw' h trivial, Nat.le_refl _, fun h => by rw [h1] at h; cases h⟩
    simp only
    rw [Nat.min_eq_right (by omega)]
  · rw [if_neg hearly]
    have hpn : st.pos < rem.length ∧ st.pos ≤ n0 := by
      cases eof with
      | true =>
        simp only [Bool.true_and, decide_eq_true_eq] at hearly
        have := he rfl
        omega
      | false =>
        have := hnext _ _ _ heq
        omega
    rcases loop_spec h hA hG hM hne he hn fuel { st with src := s1 } hP1 ⟨hC.fetchers, hC.fits, hC.kept, hC.rest⟩ hpn.2 hpn.1 (by simp only; omega) with ⟨e, hF, hl⟩ | ⟨eof', n', st', hl, g1, g2, g3, g4, g5, g6, g7⟩
    · left; exact ⟨e, hF, by rw [hl]⟩
    · rw [hl]
      right
      have hL := lent _ _ _ g1 g2 g3
      obtain ⟨m, w1, q1, q2, q3, q4, q5, q6⟩ := g1
      refine ⟨eof', n', w1, st', ?_, g2, ⟨m, q1, q2⟩, hL, g3, g4, g5, by omega, ?_, g7, ?_⟩
      · simp only
        rw [Nat.min_eq_right g3]
      · intro hf'
        have : eof = false := by
          cases eof with
          | false => rfl
          | true => rw [g6 rfl] at hf'; cases hf'
        have := hw' this trivial
        omega
      · intro hf'
        cases eof with
        | false => exact ⟨_, _, rfl⟩
        | true => rw [g6 rfl] at hf'; cases hf'

/-- The state after `k` bytes and `d` slices have been consumed. -/
def cutState (st : WalkSlicer σ) (s2 : σ) (k d : Nat) : WalkSlicer σ :=
  { st with src := s2, segments := (st.segments.drop d).map (Seg.shift k), pos := st.pos - k }

theorem faithful {Src : ByteSrc σ} {F M R L E} {H : Nat} (h : Serves Src F M R) (hA : Ample Src R L E) (hG : Grows Src R H) (hM : ∀ m, M m → AnyMargin m)
    {rpns : List (List Tok)} (hne : rpns ≠ []) (B N fuel : Nat) (hfuel : N < fuel) :
    SegFaithful (segSrc Src B fuel) kind (Abort F) (Rel Src R H N rpns) := by
  constructor
  · rintro st lb w rem segs ⟨hN, hlb, hI⟩
    rcases fill_spec h hA hG hM hne B fuel st w rem segs hI (by omega) with h' | ⟨eof, n, w', s', h1, h2, ⟨m, h3, h4⟩, h5, h6, h7, h8, h9, h10, h11, _⟩
    · exact Or.inl h'
    · obtain ⟨rest, hall, hW⟩ := h2.rest
      refine Or.inr ⟨eof, n, _, _, s'.pos, w', s', h1, ⟨hN, h2, rfl, rfl, fun he => (h8 he).1.trans (h8 he).2, m, h3, by omega⟩, h5, h6, ?_, Or.inl rfl, ?_, ?_, h9, h10, fun _ => by omega, fun hk => by cases hk⟩
      · intro x hx
        rw [hall, List.drop_left] at hx
        exact ((walks_between hW).each x hx).2.1
      · intro he
        obtain ⟨g1, g2⟩ := h8 he
        refine ⟨?_, g1, fun _ => g2⟩
        rw [g1, g2, List.drop_eq_nil_of_le (Nat.le_refl _)] at hW
        cases hW with
        | nil => rw [hall]; simp
        | cut _ _ _ _ hc => exact absurd rfl hc
      · intro _ x hx
        rw [hall, List.take_left] at hx
        have := h2.kept.each x hx
        simp only [Seg.tail] at this
        omega
  · rintro st eof count cap w rem segs k ⟨hN, hC, rfl, rfl, heof, n, hR, hpn⟩ _
    obtain ⟨rest, hall, hW⟩ := hC.rest
    obtain ⟨s2, w2, heq2, hR2, hw2⟩ := h.consume _ _ _ _ (min k st.pos) hR (by omega)
    have hsort : Sorted st.segments := hC.kept.strict.imp fun h => Nat.le_of_lt h
    obtain ⟨d, hcut, hdl, hd1, hd2⟩ := cutSegs_spec (min k st.pos) st.segments hsort
    have hfit := hC.fits
    have htake : segs.take d = st.segments.take d := by rw [hall, List.take_append_of_le_length hdl]
    have hdrop : segs.drop d = st.segments.drop d ++ rest := by rw [hall, List.drop_append_of_le_length hdl]
    have hge : ∀ x ∈ segs.drop d, min k st.pos ≤ x.pos := by
      intro x hx
      rw [hdrop] at hx
      rcases List.mem_append.1 hx with hx | hx
      · exact hd2 x hx
      · have := ((walks_between hW).each x hx).2.1
        omega
    have hC2 : Common H rpns (cutState st s2 (min k st.pos) d)
        (rem.drop (min k st.pos)) ((segs.drop d).map (Seg.shift (min k st.pos))) := by
      refine ⟨hC.fetchers, by simp only [cutState, List.length_drop]; omega, ⟨?_, ?_⟩, rest.map (Seg.shift (min k st.pos)), by rw [hdrop, List.map_append]; rfl, ?_⟩
      · simp only [cutState, List.pairwise_map]
        refine (hC.kept.strict.sublist (List.drop_sublist d _)).imp_of_mem ?_
        intro a b ha hb hab
        have := hd2 a ha
        have := hd2 b hb
        simp only [Seg.shift]
        omega
      · intro x hx
        simp only [cutState] at hx
        obtain ⟨y, hy, rfl⟩ := List.mem_map.1 hx
        have h1 := hC.kept.each y (List.mem_of_mem_drop hy)
        have h2 := hd2 y hy
        simp only [Seg.tail, Seg.shift, cutState] at h1 ⊢
        omega
      · have := walks_shift hW (k := min k st.pos) (by omega)
        simp only [cutState]
        rw [List.drop_drop, show min k st.pos + (st.pos - min k st.pos) = st.pos by omega]
        exact this
    have hI : Idle Src R H rpns (cutState st s2 (min k st.pos) d) w2
        (rem.drop (min k st.pos)) ((segs.drop d).map (Seg.shift (min k st.pos))) := by
      refine ⟨hC2, ⟨_, hR2⟩, fun req n' s' hfl => ?_⟩
      have := hG.next _ _ _ _ _ _ _ _ _ hR (by omega) heq2 hfl
      simp only [cutState]
      omega
    refine ⟨min k st.pos, d, w2, cutState st s2 (min k st.pos) d, ?_, Nat.min_le_left _ _, Nat.min_le_right _ _, hdl, ?_, hge, ?_, hw2, fun _ hk => by omega, fun _ hk => ?_, fun _ _ hk _ _ _ _ _ _ => by omega⟩
    rotate_left
    · intro x hx
      rw [htake] at hx
      exact hd1 x hx
    rotate_left
    · have := cut_unique (a := st.segments) (b := []) (k := min k st.pos) (d := d) (by simpa using hdl) (by
            intro x hx
            have h1 := hC.kept.each x hx
            simp only [Seg.tail] at h1
            omega) (by simp) (by simpa using hd1) (by simpa using hd2)
      exact this
    · simp only [segSrc, heq2, hcut]
      rfl
    · by_cases hc : eof = true ∧ min k st.pos = st.pos
      · rw [if_pos hc]
        refine ⟨?_, hI⟩
        rw [hc.2, heof hc.1]; simp
      · rw [if_neg hc]
        refine ⟨by rw [List.length_drop]; omega, ?_, hI⟩
        simp [cutState]
  · rintro st w rem segs ⟨rfl, hI⟩
    rcases fill_spec h hA hG hM hne B fuel st w [] segs hI (by simp; omega) with h' | ⟨eof, n, w', s', h1, h2, ⟨m, h3, h4⟩, h5, h6, h7, h8, h9, h10, h11, _⟩
    · exact Or.inl h'
    · simp only [List.length_nil, Nat.le_zero] at h7
      subst h7
      obtain ⟨rest, hall, hW⟩ := h2.rest
      have hp : s'.pos = 0 := by omega
      rw [hp] at hW
      simp only [List.drop_zero] at hW
      have hrest : rest = [] := by
        cases hW with
        | nil => rfl
        | cut _ _ _ _ hc => exact absurd rfl hc
      have hlen : s'.segments.length = segs.length := by rw [hall, hrest]; simp
      have hseg : segs = [] := by
        cases segs with
        | nil => rfl
        | cons x xs =>
          rw [hrest, List.append_nil] at hall
          have := h2.kept.each x (by rw [← hall]; exact List.mem_cons_self)
          simp only [Seg.tail] at this
          omega
      have heof : eof = true := by
        cases eof with
        | true => rfl
        | false =>
          exfalso
          have hfl := h1
          simp only [segSrc, fill] at hfl
          obtain ⟨_, ⟨lb, hR⟩, hnext⟩ := hI
          rcases h.fill _ _ _ _ (max B (2 * st.pos)) hR with ⟨e, hF, heq⟩ | ⟨eof1, n1, w1, s1, heq, hR1, hn1, _, _, hne1, _⟩
          · rw [heq] at hfl; cases hfl
          · simp only [List.length_nil, Nat.le_zero] at hn1
            subst hn1
            cases eof1 with
            | false => have := (hne1 rfl).1; omega
            | true =>
              rw [heq] at hfl
              simp only [Bool.true_and, decide_eq_true_eq, Nat.zero_le, if_true] at hfl
              cases hfl
      subst heof
      rw [hlen, hp] at h1
      rw [hlen] at h5
      exact Or.inr ⟨w', s', h1, ⟨Nat.zero_le _, h2, hlen.symm, hp.symm, fun _ => by rw [hp]; rfl, m, h3, by omega⟩, h5, h9⟩

/-- A fresh slicer over a stream that can be walked. -/
theorem serves {Src : ByteSrc σ} {F M} {H : Nat} {s : σ} {w : Nat} {content : Bytes} (h : ServesGrowing Src F M H s w content) (hM : ∀ m, M m → AnyMargin m)
    {rpns : List (List Tok)} (hne : rpns ≠ []) {segs : List Seg} (hW : Walks (Lens H rpns) 0 content segs) (B fuel : Nat) (hfuel : content.length < fuel) :
    SegDelivers (segSrc Src B fuel) kind (Abort F) { src := s, fetchers := rpns, segments := [], pos := 0 } w content segs := by
  obtain ⟨R, L, E, h1, h2, h3, h4⟩ := h
  refine ⟨_, faithful h1 h2 h3 hM hne B content.length fuel hfuel, Nat.le_refl _, Nat.zero_le _, ⟨rfl, Nat.zero_le _, ⟨List.Pairwise.nil, by simp⟩, segs, rfl, hW⟩, ⟨1, h4⟩, ?_⟩
  intro req n s' hfl
  rcases h1.fill _ _ _ _ req h4 with ⟨e, _, h'⟩ | ⟨_, _, _, _, h', _, _, _, _, hne', _⟩
  · rw [hfl] at h'; cases h'
  · rw [hfl] at h'; cases h'
    have := (hne' rfl).1
    simp only
    omega

end WalkSlicer

end Nd
