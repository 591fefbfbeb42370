import Verif.Proof.Filter
import Verif.Proof.Loose
/-!
# Clients of `FilterStream` see the slices with the right indices
-/
namespace Nd
open Spec

/-- All lent slices lie in the part that may be consumed, and consuming everything, or up to one of their ends, is done
completely. -/
structure SegLands (S : SegSrc σ) (R : σ → SegPhase → Nat → Bytes → List Seg → Prop) : Prop where
  tails : ∀ s eof count cap w rem segs, R s (.lent eof count cap) w rem segs → ∀ x ∈ segs.take count, x.tail ≤ cap
  whole : ∀ s eof count cap w rem segs k k' c s', R s (.lent eof count cap) w rem segs → k ≤ cap →
    (k = cap ∨ ∃ x ∈ segs.take count, k = x.pos ∨ k = x.tail) → S.consume s k = .ok ((k', c), s') → k' = k

namespace FilterStream

/-- No slice that has not been scanned starts in the part that may be consumed. -/
def Limit (st : FilterStream σ) (segs : List Seg) (count : Nat) : Prop :=
  count ≤ st.srcScanned ∨ ∃ x, segs[st.srcScanned]? = some x ∧ st.maxConsume ≤ x.pos

theorem Limit.le {st : FilterStream σ} {count c k' : Nat} {l : List Seg} (h : Limit st l count) (hc : c ≤ count) (hk : k' ≤ st.maxConsume)
    (h1 : ∀ x ∈ l.take c, x.pos < k') : c ≤ st.srcScanned := by
  rcases h with h | ⟨x, hx, hm⟩
  · omega
  · rcases Nat.lt_or_ge st.srcScanned c with hlt | hge
    · have : x ∈ l.take c := by
        rw [List.mem_iff_getElem?]
        exact ⟨st.srcScanned, by rw [List.getElem?_take, if_pos hlt, hx]⟩
      have := h1 x this
      omega
    · exact hge

theorem limit_le (segs : List Seg) (n m : Nat) : limit segs n m ≤ m := by
  unfold limit
  split
  · exact Nat.min_le_right _ _
  · exact Nat.le_refl _

theorem limit_spec {segs : List Seg} {n m count : Nat} (hc : count ≤ segs.length) :
    (count ≤ n ∧ limit (segs.take count) n m = m) ∨ (n < count ∧ ∃ x, segs[n]? = some x ∧ limit (segs.take count) n m = min x.pos m) := by
  rcases Nat.lt_or_ge n count with h | h
  · right
    refine ⟨h, segs[n]'(by omega), by simp, ?_⟩
    have : (segs.take count)[n]? = some (segs[n]'(by omega)) := by
      rw [List.getElem?_take, if_pos h]; simp
    simp [limit, this]
  · left
    refine ⟨h, ?_⟩
    have : (segs.take count)[n]? = none := by rw [List.getElem?_take, if_neg (by omega)]
    simp [limit, this]

theorem getLast_mem {l : List Seg} {y : Seg} (h : l.getLast? = some y) : y ∈ l := List.mem_of_getLast? h

/-- The states of a filter that has ranges anchored at the end until the source ends. -/
def LooseRel (S : SegSrc σ) (R : σ → SegPhase → Nat → Bytes → List Seg → Prop) (P : Nat → Bool) (total : Nat) (st : FilterStream σ) (ph : LoosePhase)
    (w : Nat) (rem : Bytes) (out : List Seg) : Prop :=
  ∃ segs, out = keep P st.srcConsumed segs ∧ Common P total st segs ∧
    match ph with
    | .idle e => ((∃ lb, R st.src (.idle lb) w rem segs) ∨ (R st.src .done w rem segs ∧ rem = [])) ∧ SegHeld S st.src st.segments e ∧
      (e = true → st.cutter.isEmpty = true) ∧ (e = false → st.cutter.tailFilters ≠ []) ∧ st.maxConsume ≤ rem.length
    | .lent e count m => m = st.maxConsume ∧ count = st.segments.length ∧ ∃ scount scap b, R st.src (.lent e scount scap) w rem segs ∧
      m ≤ scap ∧ scap ≤ b ∧ scap ≤ rem.length ∧ SegFut S st.src e b ∧ (e = false → ∀ x ∈ st.segments, x.tail ≤ b) ∧ Limit st segs scount ∧
      (e = true → st.cutter.isEmpty = true ∧ scap = rem.length) ∧ (e = false → st.cutter.tailFilters ≠ [])

theorem loose {S : SegSrc σ} {K F R} (h : SegFaithful S K F R) (hk : SegKeeps S R) (hh : K.honest = true) (hfull : K.full = true) (hfree : K.Free)
    (P : Nat → Bool) (total : Nat) (hz : K.strict = false := by first | rfl | assumption) : SegLoose (segSrc S) F (LooseRel S R P total) := by
  refine ⟨?_, ?_⟩
  · rintro st e w rem out ⟨segs, rfl, hC, hs, hheld, he1, he2, hm⟩
    rcases h.fill_or_rest hk hh hs with ⟨er, hF, heq⟩ | ⟨eof, bytes, count, cap, w', s', heq, hR', hl, hcb, heof, hw, hw', hfut, htails⟩
    · left
      exact ⟨er, hF, by simp only [segSrc, FilterStream.fill, heq]⟩
    · right
      obtain ⟨st', hf, hC', rfl, hcons, hmax, hsc, g1, g2, g3⟩ := hC.fill heq hl fun hh => (heof hh).1
      have hend : st'.cutter.isEmpty = eof := by
        cases eof with
        | true => exact (g1 rfl).1
        | false =>
          have h0 := (hheld _ _ _ _ heq).1
          have h1 := he2 h0
          rw [← g2 rfl] at h1
          simp [Cutter.isEmpty, h1]
      rw [hend] at hf hmax
      obtain ⟨avail, v1, v2, v3, v4⟩ := hl.bytes_eq
      -- what is lent lies in the visible part
      have htl : ∀ x ∈ st'.segments, x.tail ≤ avail ∧ (eof = false → x.tail ≤ bytes) := by
        intro x hx
        rcases hsc with hsc | ⟨hsc, hse⟩
        · have hx' : x ∈ segs.take count := by
            have := hC'.mem hx
            rw [show segs.take st'.srcScanned = (segs.take count).take st'.srcScanned by rw [List.take_take, Nat.min_eq_left hsc]] at this
            exact List.mem_of_mem_take this
          exact ⟨v4 x hx', fun hef => htails hef x hx'⟩
        · cases eof with
          | true =>
            have hc := (heof rfl).1
            have := hC'.mem hx
            refine ⟨v4 x ?_, by simp⟩
            rw [hc, List.take_length]
            exact List.mem_of_mem_take this
          | false =>
            rw [hse] at hx
            have := (hheld _ _ _ _ heq).2 x hx
            exact ⟨by omega, fun _ => this⟩
      have hcr : cap ≤ rem.length := by omega
      refine ⟨eof, _, _, _, w', st', hf, ⟨segs, by rw [hcons], hC', rfl, rfl, count, cap, bytes, hR', ?_, hcb, hcr, hfut, fun hef x hx => (htl x hx).2 hef, ?_, ?_, ?_⟩, ?_, ?_, hw, hw', ?_⟩
      · rw [hmax]
        cases eof with
        | true =>
          obtain ⟨c1, c2, c3⟩ := heof rfl
          have c3 := c3 hfull
          rw [if_pos rfl]
          cases hgl : st'.segments.getLast? with
          | none => simp only [Option.map_none, Option.getD_none]; omega
          | some y =>
            simp only [Option.map_some, Option.getD_some]
            have := (htl y (getLast_mem hgl)).1
            omega
        | false =>
          rw [if_neg (by simp)]
          exact limit_le _ _ _
      · cases eof with
        | true => left; rw [(g1 rfl).2]; exact hl.count_le
        | false =>
          rw [if_neg (by simp)] at hmax
          rcases limit_spec (n := st'.srcScanned) (m := cap) hl.count_le with ⟨l1, l2⟩ | ⟨l1, x, l2, l3⟩
          · exact Or.inl l1
          · exact Or.inr ⟨x, l2, by rw [hmax, l3]; exact Nat.min_le_left _ _⟩
      · intro he
        subst he
        obtain ⟨c1, c2, c3⟩ := heof rfl
        exact ⟨hend, by rw [c2]; exact c3 hfull⟩
      · intro hef
        subst hef
        rw [g2 rfl]
        exact he2 (hheld _ _ _ _ heq).1
      · refine ⟨?_, ?_, avail, Nat.zero_le _, v2, ?_, ?_⟩
        · rw [← hcons, hC'.split]; simp
        · rw [← hcons]; exact hC'.prefix
        · exact v3
        · rw [← hcons, ← hC'.prefix]
          exact fun x hx => (htl x hx).1
      · intro he
        subst he
        rw [← hcons, hC'.all hend]
      · intro he
        cases eof with
        | true => rfl
        | false => exact absurd ((hheld _ _ _ _ heq).1) (by rw [he]; simp)
  · rintro st e count m w rem out k ⟨segs, rfl, hC, rfl, rfl, scount, scap, b, hR, hms, hsb, hsr, hfut, htl, hlim, he1, he2⟩ hkm
    have hk2 : (scap = 0 ∧ K.strict = false) ∨ min k st.maxConsume = scap ∨ (min k st.maxConsume ≤ scap ∧ K.policy (segs.take scount) (min k st.maxConsume)) :=
      Or.inr (Or.inr ⟨by omega, hfree _ _⟩)
    obtain ⟨k', c, w', s', heq, c1, c2, c3, c4, c5, hR', c6, -⟩ := h.consume _ _ _ _ _ _ _ _ hR hk2
    have hcs : c ≤ st.srcScanned := hlim.le c3 (by omega) c4
    obtain ⟨n, st', hf, hC', rfl, hn, hseg, hmax, hcut, d1, d2, d3⟩ := hC.consume heq c1 hcs c4 c5
    refine ⟨k', n, w', st', hf, hn, d2, ⟨_, d3.symm, hC', ?_, ?_, ?_, ?_, ?_⟩, c6⟩
    · by_cases hd : e = true ∧ k' = scap
      · rw [if_pos hd] at hR'
        refine Or.inr ⟨hR', List.drop_eq_nil_of_le ?_⟩
        rw [hd.2, (he1 hd.1).2]
        exact Nat.le_refl _
      · rw [if_neg hd] at hR'
        exact Or.inl ⟨_, hR'⟩
    · intro b' cnt m s3 hfill
      obtain ⟨f1, f2⟩ := hfut _ _ _ _ _ _ _ _ heq (by omega) hfill
      refine ⟨f1, fun x hx => ?_⟩
      rw [hseg] at hx
      obtain ⟨y, hy, rfl⟩ := List.mem_map.1 hx
      have h1 := htl f1 y (List.mem_of_mem_drop hy)
      have h2 : k' ≤ y.pos := by
        refine d2 y ?_
        rw [hC.split, List.drop_append_of_le_length hn]
        exact List.mem_append_left _ hy
      simp only [Seg.tail, Seg.shift] at h1 ⊢
      omega
    · intro he; rw [hcut]; exact (he1 he).1
    · intro he; rw [hcut]; exact he2 he
    · rw [hmax, List.length_drop]; omega

theorem reads {S : SegSrc σ} {K F} {s : σ} {w : Nat} {content : Bytes} {segs : List Seg} (h : SegServes S K F s w content segs) (hh : K.honest = true)
    (hfull : K.full = true) (hfree : K.Free) (hst : segs.Pairwise Seg.Lt) {oc : Bool} {rs : List RangeMapper} (hr : ∃ r ∈ rs, r.hasRightAnchor = true)
    {st : FilterStream σ} (hnew : FilterStream.new oc s rs = .ok st) (hz : K.strict = false := by first | rfl | assumption) :
    SegReads (segSrc S) F st (slicesOf content (keep (coverAny segs.length rs) 0 segs)) := by
  obtain ⟨R, hf, hk, hR⟩ := h
  unfold FilterStream.new at hnew
  cases hc : Cutter.ofRanges oc rs with
  | error e => rw [hc] at hnew; cases hnew
  | ok c =>
    rw [hc] at hnew
    cases hnew
    obtain ⟨h1, h2⟩ := Cutter.ofRanges_inv hc
    refine (loose hf hk hh hfull hfree (coverAny segs.length rs) segs.length).reads (w := w) ⟨segs, rfl, ⟨h1, by simp, Nat.zero_le _, fun i _ _ => h2 _ _, by simp [keep], hst⟩, Or.inl ⟨0, hR⟩, ?_, by simp, ?_, Nat.zero_le _⟩
    · intro b cnt m s' _
      exact ⟨rfl, by simp⟩
    · intro _
      unfold Cutter.ofRanges at hc
      simp only at hc
      cases hm : Cutter.minTrans oc (rs.filter RangeMapper.hasRightAnchor) with
      | error e => rw [hm] at hc; cases hc
      | ok t =>
        rw [hm] at hc
        cases hc
        obtain ⟨r, hr1, hr2⟩ := hr
        simp only
        exact List.ne_nil_of_mem (List.mem_filter.2 ⟨hr1, hr2⟩)

/-- A filter over such a source keeps the full protocol with clients that consume all they may. -/
def kind : SegKind where
  full := false
  exact := true
  honest := true
  steady := true
  early := true
  moving := false
  snap := true
  policy _ _ := False

/-- The states of a filter whose clients consume all they may. -/
def Rel (R : σ → SegPhase → Nat → Bytes → List Seg → Prop) (P : Nat → Bool) (total : Nat) (st : FilterStream σ) (ph : SegPhase)
    (w : Nat) (rem : Bytes) (out : List Seg) : Prop :=
  ∃ segs, out = keep P st.srcConsumed segs ∧ Common P total st segs ∧ (∀ x ∈ segs, 0 < x.len) ∧ (segs.Pairwise fun a b => a.tail ≤ b.pos) ∧
    match ph with
    | .idle lb => lb = 0 ∧ st.segments = [] ∧ st.maxConsume = 0 ∧ ∃ lb', R st.src (.idle lb') w rem segs
    | .lent e count cap => cap = st.maxConsume ∧ count = st.segments.length ∧ e = st.cutter.isEmpty ∧
      ∃ seof scount scap, R st.src (.lent seof scount scap) w rem segs ∧ (e = false → seof = false) ∧ cap ≤ scap ∧ Limit st segs scount ∧
        (cap = 0 ∨ cap = scap ∨ ∃ x ∈ segs.take scount, cap = x.pos ∨ cap = x.tail) ∧ ∀ x ∈ st.segments, x.pos < cap
    | .done => st.segments = [] ∧ st.maxConsume = 0 ∧ st.cutter.isEmpty = true ∧ ((∃ lb', R st.src (.idle lb') w rem segs) ∨ R st.src .done w rem segs)

theorem getLast_max {v : List Seg} (h : v.Pairwise fun a b => a.pos < b.pos) {y : Seg} (hy : v.getLast? = some y) : ∀ x ∈ v, x.pos ≤ y.pos := by
  intro x hx
  obtain ⟨ys, rfl⟩ := List.getLast?_eq_some_iff.1 hy
  rw [List.pairwise_append] at h
  rcases List.mem_append.1 hx with hx | hx
  · exact Nat.le_of_lt (h.2.2 x hx y (by simp))
  · simp at hx; rw [hx]; exact Nat.le_refl _

theorem disjoint_inc {l : List Seg} (hp : ∀ x ∈ l, 0 < x.len) (h : l.Pairwise fun a b => a.tail ≤ b.pos) : l.Pairwise fun a b => a.pos < b.pos :=
  h.imp_of_mem fun {a b} ha _ hab => by
    have := hp a ha
    simp only [Seg.tail] at hab
    omega

theorem faithful {S : SegSrc σ} {K F R} (h : SegFaithful S K F R) (hl : SegLands S R) (hh : K.honest = true) (hfree : K.Free) (P : Nat → Bool) (total : Nat) :
    SegFaithful (segSrc S) kind F (Rel R P total) := by
  refine ⟨?_, ?_, ?_⟩
  · rintro st lb w rem out ⟨segs, rfl, hC, hpos, hdis, rfl, hseg0, hm0, lb', hR⟩
    have hinc : segs.Pairwise fun a b => a.pos < b.pos := disjoint_inc hpos hdis
    rcases h.fill _ _ _ _ _ hR with ⟨er, hF, heq⟩ | ⟨eof, bytes, count, maxc, cap, w', s', heq, hR', hlent, hcb, hdrop, hmax, heof, hearly, hw, hw', hsteady, hmov⟩
    · left
      exact ⟨er, hF, by simp only [segSrc, FilterStream.fill, heq]⟩
    right
    obtain rfl : maxc = cap := by
      rcases hmax with rfl | hmax
      · rfl
      · rw [hh] at hmax; exact absurd hmax.2.2 (by simp)
    obtain ⟨st', hf, hC', rfl, hcons, hmaxc, hsc, g1, g2, g3⟩ := hC.fill heq hlent fun hh => (heof hh).1
    obtain ⟨avail, v1, v2, v3, v4⟩ := hlent.bytes_eq
    have hmem : ∀ x ∈ st'.segments, x ∈ segs.take count := by
      intro x hx
      rcases hsc with hsc | ⟨hsc, hse⟩
      · have := hC'.mem hx
        rw [show segs.take st'.srcScanned = (segs.take count).take st'.srcScanned by rw [List.take_take, Nat.min_eq_left hsc]] at this
        exact List.mem_of_mem_take this
      · rw [hse, hseg0] at hx; simp at hx
    have htails := hl.tails _ _ _ _ _ _ _ hR'
    have hvinc : st'.segments.Pairwise fun a b => a.pos < b.pos := by
      rw [hC'.v_eq]
      exact hinc.sublist ((keep_sublist _ _ _).trans (List.take_sublist _ _))
    have hlp : ∀ x ∈ st'.segments, x.pos < x.tail := fun x hx => by
      have := hpos x (List.mem_of_mem_take (hmem x hx))
      simp only [Seg.tail]; omega
    rw [hm0] at hf hmaxc
    -- the three forms of `max_consume`
    have hform : st'.maxConsume ≤ maxc ∧ Limit st' segs count ∧
        (st'.maxConsume = 0 ∨ st'.maxConsume = maxc ∨ ∃ x ∈ segs.take count, st'.maxConsume = x.pos ∨ st'.maxConsume = x.tail) ∧
        (∀ x ∈ st'.segments, x.pos < st'.maxConsume) ∧ st'.maxConsume ≤ avail ∧ (st'.cutter.isEmpty = false → st'.maxConsume ≤ bytes) ∧
        ∀ x ∈ segs.drop st'.srcScanned, st'.cutter.isEmpty = false → st'.maxConsume ≤ x.pos := by
      cases hem : st'.cutter.isEmpty with
      | true =>
        rw [hem, if_pos rfl] at hmaxc
        cases hgl : st'.segments.getLast? with
        | none =>
          rw [hgl] at hmaxc
          simp only [Option.map_none, Option.getD_none] at hmaxc
          have hnil : st'.segments = [] := List.getLast?_eq_none_iff.1 hgl
          refine ⟨by omega, ?_, Or.inl hmaxc, by simp [hnil], by omega, by simp, by simp⟩
          rcases Nat.lt_or_ge st'.srcScanned count with hlt | hge
          · right
            exact ⟨segs[st'.srcScanned]'(by have := hlent.count_le; omega), by simp, by omega⟩
          · exact Or.inl hge
        | some y =>
          rw [hgl] at hmaxc
          simp only [Option.map_some, Option.getD_some] at hmaxc
          have hy := hmem y (getLast_mem hgl)
          have hyt := htails y hy
          refine ⟨by omega, ?_, Or.inr (Or.inr ⟨y, hy, Or.inr hmaxc⟩), ?_, by have := v4 y hy; omega, by simp, by simp⟩
          · rcases Nat.lt_or_ge st'.srcScanned count with hlt | hge
            · right
              have hcl := hlent.count_le
              refine ⟨segs[st'.srcScanned]'(by omega), by simp, ?_⟩
              have hpw := hdis
              rw [← List.take_append_drop st'.srcScanned segs, List.pairwise_append] at hpw
              have := hpw.2.2 y (hC'.mem (getLast_mem hgl)) (segs[st'.srcScanned]'(by omega)) (by
                rw [List.drop_eq_getElem_cons (by omega)]; exact List.mem_cons_self)
              omega
            · exact Or.inl hge
          · intro x hx
            have h1 := getLast_max hvinc hgl x hx
            have h2 := hlp y (getLast_mem hgl)
            omega
      | false =>
        rw [hem, if_neg (by simp)] at hmaxc
        rcases limit_spec (n := st'.srcScanned) (m := maxc) hlent.count_le with ⟨l1, l2⟩ | ⟨l1, z, l2, l3⟩
        · rw [l2] at hmaxc
          refine ⟨by omega, Or.inl l1, Or.inr (Or.inl hmaxc), ?_, by omega, fun _ => by omega, ?_⟩
          · intro x hx
            have h1 := htails x (hmem x hx)
            have h2 := hlp x hx
            omega
          · intro x hx _
            rw [hmaxc]
            refine hdrop x ?_
            rw [show st'.srcScanned = count + (st'.srcScanned - count) by omega, ← List.drop_drop] at hx
            exact List.mem_of_mem_drop hx
        · rw [l3] at hmaxc
          have hz : z ∈ segs.take count := by
            rw [List.mem_iff_getElem?]
            exact ⟨st'.srcScanned, by rw [List.getElem?_take, if_pos l1, l2]⟩
          have hzt := htails z hz
          have hzm : min z.pos maxc = z.pos := by simp only [Seg.tail] at hzt; omega
          rw [hzm] at hmaxc
          have hsplit : segs = segs.take st'.srcScanned ++ segs.drop st'.srcScanned := (List.take_append_drop _ _).symm
          have hdz : segs.drop st'.srcScanned = z :: segs.drop (st'.srcScanned + 1) := by
            have hlt : st'.srcScanned < segs.length := by
              rw [List.getElem?_eq_some_iff] at l2; exact l2.1
            rw [List.drop_eq_getElem_cons hlt]
            congr 1
            rw [List.getElem?_eq_getElem hlt] at l2
            exact Option.some.inj l2
          have hpw := hinc
          rw [hsplit, List.pairwise_append] at hpw
          refine ⟨by simp only [Seg.tail] at hzt; omega, Or.inr ⟨z, l2, by omega⟩, Or.inr (Or.inr ⟨z, hz, Or.inl hmaxc⟩), ?_, ?_, ?_, ?_⟩
          · intro x hx
            have := hpw.2.2 x (hC'.mem hx) z (by rw [hdz]; simp)
            omega
          · simp only [Seg.tail] at hzt; omega
          · intro _; simp only [Seg.tail] at hzt; omega
          · intro x hx _
            rw [hdz] at hx
            have h3 := hpw.2.1
            rw [hdz, List.pairwise_cons] at h3
            rcases List.mem_cons.1 hx with rfl | hx
            · omega
            · have := h3.1 x hx; omega
    obtain ⟨f1, f2, f3, f4, f5, f6, f7⟩ := hform
    have hcount : st'.segments.length ≤ (keep P st.srcConsumed segs).length := by rw [← hcons, hC'.split]; simp
    have hpre : st'.segments = (keep P st.srcConsumed segs).take st'.segments.length := by rw [← hcons]; exact hC'.prefix
    have hbe : st'.cutter.isEmpty = true → (st'.segments.getLast?.map Seg.tail).getD 0 = st'.maxConsume := by
      intro hem
      rw [hem, if_pos rfl] at hmaxc
      exact hmaxc.symm
    refine ⟨st'.cutter.isEmpty, _, _, _, st'.maxConsume, w', st', hf, ⟨segs, by rw [hcons], hC', hpos, hdis, rfl, rfl, rfl, eof, count, maxc, hR', ?_, f1, f2, f3, f4⟩,
      ⟨hcount, hpre, avail, ?_, v2, v3, ?_⟩, ?_, ?_, Or.inl rfl, ?_, ?_, hw, ?_, fun _ => Nat.zero_le _, by simp [kind]⟩
    · intro hef
      cases eof with
      | false => rfl
      | true => rw [(g1 rfl).1] at hef; cases hef
    · cases hem : st'.cutter.isEmpty with
      | true => rw [if_pos rfl, hbe hem]; exact f5
      | false => rw [if_neg (by simp)]; exact v1
    · rw [← hpre]
      exact fun x hx => v4 x (hmem x hx)
    · cases hem : st'.cutter.isEmpty with
      | true => rw [if_pos rfl, hbe hem]; exact Nat.le_refl _
      | false => rw [if_neg (by simp)]; exact f6 hem
    · intro x hx
      cases hem : st'.cutter.isEmpty with
      | true =>
        rw [← hcons, hC'.all hem] at hx
        simp at hx
      | false =>
        rw [← hcons, hC'.split, List.drop_left] at hx
        exact f7 x ((keep_sublist _ _ _).subset hx) hem
    · intro hem
      refine ⟨by rw [← hcons, hC'.all hem], ?_, by simp [kind]⟩
      rw [hem, if_pos rfl, hbe hem]
    · intro _ x hx
      rw [← hpre] at hx
      exact Nat.le_of_lt (f4 x hx)
    · intro hem
      refine hw' ?_
      cases eof with
      | false => rfl
      | true => rw [(g1 rfl).1] at hem; cases hem
  · rintro st e count cap w rem out k ⟨segs, rfl, hC, hpos, hdis, rfl, rfl, rfl, seof, scount, scap, hR, he, hcap, hlim, hform, hlt⟩ hk
    have hmin : min k st.maxConsume = st.maxConsume := by
      rcases hk with hk | hk | ⟨_, hk⟩
      · omega
      · omega
      · exact absurd hk (by simp [kind])
    obtain ⟨k', c, w', s', heq, c1, c2, c3, c4, c5, hR', c6, -⟩ := h.consume _ _ _ _ _ _ _ st.maxConsume hR (Or.inr (Or.inr ⟨hcap, hfree _ _⟩))
    have hkk : k' = st.maxConsume := by
      rcases hform with h0 | h0
      · omega
      · exact hl.whole _ _ _ _ _ _ _ _ _ _ _ hR hcap h0 heq
    subst hkk
    obtain ⟨n, st', hf, hC', rfl, hn, hseg, hmax, hcut, d1, d2, d3⟩ := hC.consume (k := k) (by rw [hmin]; exact heq) (by omega) (hlim.le c3 (Nat.le_refl _) c4) c4 c5
    have hnall : n = st.segments.length := by
      rcases Nat.lt_or_ge n st.segments.length with hlt' | hge
      · exfalso
        have hmem : st.segments[n] ∈ (keep P st.srcConsumed segs).drop n := by
          rw [hC.split, List.drop_append_of_le_length hn, List.drop_eq_getElem_cons hlt']
          exact List.mem_append_left _ List.mem_cons_self
        have h1 := d2 _ hmem
        have h2 := hlt _ (List.getElem_mem hlt')
        omega
      · omega
    have hnil : st'.segments = [] := by rw [hseg, hnall]; simp
    have hpos' : ∀ x ∈ (segs.drop c).map (Seg.shift st.maxConsume), 0 < x.len := by
      intro x hx
      obtain ⟨y, hy, rfl⟩ := List.mem_map.1 hx
      exact hpos y (List.mem_of_mem_drop hy)
    have hdis' : ((segs.drop c).map (Seg.shift st.maxConsume)).Pairwise fun a b => a.tail ≤ b.pos := by
      rw [List.pairwise_map]
      refine (hdis.sublist (List.drop_sublist _ _)).imp_of_mem ?_
      intro a b ha hb hab
      have h1 := c5 a ha
      have h2 := c5 b hb
      rw [Seg.shift_tail _ _ h1]
      simp only [Seg.shift]
      omega
    refine ⟨st.maxConsume, n, w', st', hf, by omega, Nat.le_refl _, hn, d1, d2, ⟨_, d3.symm, hC', hpos', hdis', ?_⟩, c6, fun _ _ => rfl, fun _ _ => hnall, ?_⟩
    · by_cases hem : st.cutter.isEmpty = true
      · rw [if_pos ⟨hem, rfl⟩]
        refine ⟨hnil, by omega, by rw [hcut]; exact hem, ?_⟩
        split at hR'
        · exact Or.inr hR'
        · exact Or.inl ⟨_, hR'⟩
      · rw [if_neg (by simp [hem])]
        have hse := he (by simpa using hem)
        rw [if_neg (by simp [hse])] at hR'
        exact ⟨by omega, hnil, by omega, _, hR'⟩
    · intro _ _ hle x hx y hy hxk _
      have := hlt x (by rw [hC.prefix]; exact hx)
      rw [hxk] at this
      omega
  · rintro st w rem out ⟨segs, rfl, hC, hpos, hdis, hseg0, hm0, hem, hs⟩
    have hout := hC.all hem
    have key : ∀ {eof bytes count cap w' s'}, S.fill st.src = .ok ((eof, bytes, count, cap), s') → R s' (.lent eof count cap) w' rem segs →
        SegLent rem segs (S.slices s') bytes count → (eof = true → count = segs.length) → w' ≤ w →
        ∃ w' st', FilterStream.fill S st = .ok ((true, 0, (keep P st.srcConsumed segs).length, 0), st') ∧
          Rel R P total st' (.lent true (keep P st.srcConsumed segs).length 0) w' rem (keep P st.srcConsumed segs) ∧
          SegLent rem (keep P st.srcConsumed segs) ((segSrc S).slices st') 0 (keep P st.srcConsumed segs).length ∧ w' ≤ w := by
      intro eof bytes count cap w' s' heq hR' hlent hc hw
      obtain ⟨st', hf, hC', rfl, hcons, hmaxc, hsc, g1, g2, g3⟩ := hC.fill heq hlent hc
      have hem' := g3.1 hem
      have hout' := hC'.all hem'
      rw [hcons, hout, hseg0] at hout'
      rw [hem', hm0, ← hout'] at hmaxc
      simp at hmaxc
      rw [hem', hmaxc, ← hout'] at hf
      simp only [List.getLast?_nil, Option.map_none, Option.getD_none, if_true, List.length_nil, hm0] at hf
      rw [hout, hseg0]
      refine ⟨w', st', hf, ⟨segs, by rw [hcons, hout, hseg0], hC', hpos, hdis, hmaxc.symm, by rw [← hout'], hem'.symm, eof, count, cap, hR', by simp, Nat.zero_le _, ?_, Or.inl rfl, by simp [← hout']⟩, ?_, hw⟩
      · rcases Nat.lt_or_ge st'.srcScanned count with hlt | hge
        · right
          exact ⟨segs[st'.srcScanned]'(by have := hlent.count_le; omega), by simp, by omega⟩
        · exact Or.inl hge
      · refine ⟨Nat.le_refl _, by simp [segSrc, ← hout'], 0, Nat.le_refl _, Nat.zero_le _, by simp, by simp⟩
    rcases hs with ⟨lb, hR⟩ | hR
    · rcases h.fill _ _ _ _ _ hR with ⟨er, hF, heq⟩ | ⟨eof, bytes, count, maxc, cap, w', s', heq, hR', hlent, hcb, hdrop, hmax, heof, hearly, hw, hw', hsteady, hmov⟩
      · left
        exact ⟨er, hF, by simp only [segSrc, FilterStream.fill, heq]⟩
      · right
        obtain rfl : maxc = cap := by
          rcases hmax with rfl | hmax
          · rfl
          · rw [hh] at hmax; exact absurd hmax.2.2 (by simp)
        exact key heq hR' hlent (fun he => (heof he).1) hw
    · rcases h.rest _ _ _ _ hR with ⟨er, hF, heq⟩ | ⟨w', s', heq, hR', hlent, hw⟩
      · left
        exact ⟨er, hF, by simp only [segSrc, FilterStream.fill, heq]⟩
      · right
        exact key heq hR' hlent (fun _ => rfl) hw

theorem delivers {S : SegSrc σ} {K F R} (h : SegFaithful S K F R) (hl : SegLands S R) (hh : K.honest = true) (hfree : K.Free) {s : σ} {w : Nat} {content : Bytes}
    {segs : List Seg} (hR : R s (.idle 0) w content segs) (hpos : ∀ x ∈ segs, 0 < x.len) (hdis : segs.Pairwise fun a b => a.tail ≤ b.pos)
    {oc : Bool} {rs : List RangeMapper} {st : FilterStream σ} (hnew : FilterStream.new oc s rs = .ok st) :
    SegDelivers (segSrc S) kind F st w content (keep (coverAny segs.length rs) 0 segs) := by
  unfold FilterStream.new at hnew
  cases hc : Cutter.ofRanges oc rs with
  | error e => rw [hc] at hnew; cases hnew
  | ok c =>
    rw [hc] at hnew
    cases hnew
    obtain ⟨h1, h2⟩ := Cutter.ofRanges_inv hc
    refine ⟨_, faithful h hl hh hfree (coverAny segs.length rs) segs.length, segs, rfl, ⟨h1, by simp, Nat.zero_le _, fun i _ _ => h2 _ _, by simp [keep], ?_⟩, hpos, hdis, rfl, rfl, rfl, 0, hR⟩
    exact (disjoint_inc hpos hdis).imp fun h => Or.inl h

end FilterStream

end Nd
