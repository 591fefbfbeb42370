import Verif.Proof.Feeds
import Verif.Proof.Tight
/-!
# Streams of slices as the drains see them

A drain consumes in every round all it may.  `--lines` after `--find` and `--invert` serves such clients, although its
end of the stream may come in several rounds.
-/
namespace Nd
open Spec Props

/-- What a client sees that consumes in every round all it may; `v` bounds the number of rounds. -/
structure Rounds (S : SegSrc σ) (F : Err → Prop) (D : σ → Nat → Bytes → List Seg → Prop) : Prop where
  step : ∀ s v rem segs, D s v rem segs → (∃ e, F e ∧ S.fill s = .error e) ∨
    ∃ eof bytes count maxc s1 k c s2 v', S.fill s = .ok ((eof, bytes, count, maxc), s1) ∧ SegLent rem segs (S.slices s1) 0 count ∧
      S.consume s1 maxc = .ok ((k, c), s2) ∧ c = count ∧ k ≤ rem.length ∧ (∀ x ∈ segs.drop count, k ≤ x.pos) ∧
      D s2 v' (rem.drop k) ((segs.drop count).map (Seg.shift k)) ∧ (eof = true → count = segs.length ∧ (bytes = 0 → segs = [])) ∧
      ((eof = true ∧ bytes = 0) ∨ v' < v)

namespace FilterStream

/-- The states of a filter over a tight source between two rounds. -/
def Between (R : σ → SegPhase → Nat → Bytes → List Seg → Prop) (P : Nat → Bool) (total : Nat) (st : FilterStream σ) (v : Nat) (rem : Bytes) (out : List Seg) : Prop :=
  ∃ segs, out = keep P st.srcConsumed segs ∧ Common P total st segs ∧ (∀ x ∈ segs, 0 < x.len) ∧ (segs.Pairwise fun a b => a.tail ≤ b.pos) ∧
    st.segments = [] ∧ st.maxConsume ≤ rem.length ∧ (∀ x ∈ segs.drop st.srcScanned, st.maxConsume ≤ x.pos) ∧ (st.cutter.isEmpty = false → st.maxConsume = 0) ∧
    ((∃ lb w, R st.src (.idle lb) w rem segs ∧ (st.cutter.isEmpty = false → w + 2 ≤ v) ∧ (0 < st.maxConsume → w + 1 ≤ v)) ∨
      (∃ w, R st.src .done w rem segs ∧ rem = [] ∧ st.maxConsume = 0 ∧ st.cutter.isEmpty = true))

theorem consume_scanned {S : SegSrc σ} {st st' : FilterStream σ} {k k' n c : Nat} {s' : σ} (h : FilterStream.consume S st k = .ok ((k', n), st'))
    (hs : S.consume st.src (min k st.maxConsume) = .ok ((k', c), s')) : st'.srcScanned = st.srcScanned - c := by
  simp only [FilterStream.consume, hs] at h
  split at h
  · cases h
  · split at h
    · cases h
    · split at h
      · cases h
      · cases h
        rfl

theorem rounds {S : SegSrc σ} {K F R D} (h : SegFaithful S K F R) (ht : SegTight S R D) (hK : K.Firm) (P : Nat → Bool) (total : Nat) :
    Rounds (segSrc S) F (Between R P total) := by
  refine ⟨?_⟩
  rintro st v rem out ⟨segs, rfl, hC, hpos, hdis, hseg0, hmr, hun, hm0, hR⟩
  have hinc : segs.Pairwise fun a b => a.pos < b.pos := disjoint_inc hpos hdis
  -- what the source does
  have hsrc : (∃ e, F e ∧ S.fill st.src = .error e) ∨
      ∃ eof bytes count cap w' s', S.fill st.src = .ok ((eof, bytes, count, cap), s') ∧ R s' (.lent eof count cap) w' rem segs ∧ SegLent rem segs (S.slices s') bytes count ∧ cap ≤ rem.length ∧
        (∀ x ∈ segs.drop count, cap ≤ x.pos) ∧ (∀ x ∈ segs.take count, x.pos < cap) ∧ (eof = true → count = segs.length ∧ cap = rem.length) ∧
        (eof = false → (st.cutter.isEmpty = false → w' + 3 ≤ v) ∧ (0 < st.maxConsume → w' + 2 ≤ v)) ∧ (st.cutter.isEmpty = false → 0 < v) ∧ (0 < st.maxConsume → 0 < v) := by
    rcases hR with ⟨lb, w, hR, hv1, hv2⟩ | ⟨w, hR, hrem, hmc, hem⟩
    · rcases h.fill _ _ _ _ _ hR with he | ⟨eof, bytes, count, maxc, cap, w', s', heq, hR', hlent, hcb, hdrop, hmax, heof, hearly, hw, hw', hsteady, hmov⟩
      · exact Or.inl he
      right
      obtain rfl : maxc = cap := by
        rcases hmax with rfl | hmax
        · rfl
        · rw [hK.honest] at hmax; exact absurd hmax.2.2 (by simp)
      obtain ⟨avail, v1, v2, v3, v4⟩ := hlent.bytes_eq
      refine ⟨eof, bytes, count, maxc, w', s', heq, hR', hlent, by omega, hdrop, ?_, fun he => ?_, fun he => ?_, fun he => ?_, fun he => ?_⟩
      · cases eof with
        | false => exact fun x hx => ((ht.strict _ _ _ _ _ _ _ _ _ hR heq).2 x hx).1
        | true =>
          obtain ⟨e1, e2, e3⟩ := heof rfl
          have e3 := e3 hK.full
          intro x hx
          have h1 := v4 x hx
          have h2 := hpos x (List.mem_of_mem_take hx)
          simp only [Seg.tail] at h1
          omega
      · obtain ⟨e1, e2, e3⟩ := heof he
        exact ⟨e1, by rw [e2]; exact e3 hK.full⟩
      · have := hw' he
        exact ⟨fun h => by have := hv1 h; omega, fun h => by have := hv2 h; omega⟩
      · have := hv1 he; omega
      · have := hv2 he; omega
    · rcases h.rest _ _ _ _ hR with he | ⟨w', s', heq, hR', hlent, hw⟩
      · exact Or.inl he
      right
      obtain ⟨avail, v1, v2, v3, v4⟩ := hlent.bytes_eq
      subst hrem
      refine ⟨true, 0, segs.length, 0, w', s', heq, hR', hlent, by simp, by simp, fun x hx => ?_, by simp, by simp, by simp [hem], by omega⟩
      have h1 := v4 x hx
      have h2 := hpos x (List.mem_of_mem_take hx)
      simp only [Seg.tail, List.length_nil] at h1 v2
      omega
  clear hR
  rcases hsrc with ⟨er, hF, heq⟩ | ⟨eof, bytes, count, cap, w', s', heq, hR', hlent, hcr, hdrop, hstrict, heof, hv1, hv2, hv3⟩
  · exact Or.inl ⟨er, hF, by simp only [segSrc, FilterStream.fill, heq]⟩
  right
  obtain ⟨st', hf, hC', rfl, hcons, hmaxc, hsc, g1, g2, g3, g4⟩ := hC.fill heq hlent fun hh => (heof hh).1
  obtain ⟨avail, v1, v2, v3, v4⟩ := hlent.bytes_eq
  have hmem : ∀ x ∈ st'.segments, x ∈ segs.take count := by
    intro x hx
    rcases hsc with hsc | ⟨hsc, hse⟩
    · have := hC'.mem hx
      rw [show segs.take st'.srcScanned = (segs.take count).take st'.srcScanned by rw [List.take_take, Nat.min_eq_left hsc]] at this
      exact List.mem_of_mem_take this
    · rw [hse, hseg0] at hx; simp at hx
  have hvinc : st'.segments.Pairwise fun a b => a.pos < b.pos := by
    rw [hC'.v_eq]
    exact hinc.sublist ((keep_sublist _ _ _).trans (List.take_sublist _ _))
  -- what may be consumed
  have hform : st'.maxConsume ≤ rem.length ∧ (∀ x ∈ segs.drop st'.srcScanned, st'.maxConsume ≤ x.pos) ∧ (∀ x ∈ st'.segments, x.pos < st'.maxConsume) ∧
      (st'.cutter.isEmpty = false → st'.maxConsume ≤ cap) := by
    cases hem : st'.cutter.isEmpty with
    | true =>
      rw [hem, if_pos rfl] at hmaxc
      cases hgl : st'.segments.getLast? with
      | none =>
        rw [hgl] at hmaxc
        simp only [Option.map_none, Option.getD_none] at hmaxc
        have hnil : st'.segments = [] := List.getLast?_eq_none_iff.1 hgl
        rw [hmaxc]
        refine ⟨hmr, fun x hx => hun x ?_, by simp [hnil], by simp⟩
        rw [show st'.srcScanned = st.srcScanned + (st'.srcScanned - st.srcScanned) by omega, ← List.drop_drop] at hx
        exact List.mem_of_mem_drop hx
      | some y =>
        rw [hgl] at hmaxc
        simp only [Option.map_some, Option.getD_some] at hmaxc
        rw [hmaxc]
        have hy := hmem y (getLast_mem hgl)
        refine ⟨Nat.le_trans (v4 y hy) v2, fun x hx => ?_, fun x hx => ?_, by simp⟩
        · have hpw := hdis
          rw [← List.take_append_drop st'.srcScanned segs, List.pairwise_append] at hpw
          exact hpw.2.2 y (hC'.mem (getLast_mem hgl)) x hx
        · have h1 := getLast_max hvinc hgl x hx
          have h2 := hpos y (List.mem_of_mem_take hy)
          simp only [Seg.tail]
          omega
    | false =>
      rw [hem, if_neg (by simp)] at hmaxc
      rcases limit_spec (n := st'.srcScanned) (m := cap) hlent.count_le with ⟨l1, l2⟩ | ⟨l1, z, l2, l3⟩
      · rw [l2] at hmaxc
        rw [hmaxc]
        refine ⟨hcr, fun x hx => hdrop x ?_, fun x hx => hstrict x (hmem x hx), fun _ => Nat.le_refl _⟩
        rw [show st'.srcScanned = count + (st'.srcScanned - count) by omega, ← List.drop_drop] at hx
        exact List.mem_of_mem_drop hx
      · rw [l3] at hmaxc
        have hsplit : segs = segs.take st'.srcScanned ++ segs.drop st'.srcScanned := (List.take_append_drop _ _).symm
        have hdz : segs.drop st'.srcScanned = z :: segs.drop (st'.srcScanned + 1) := by
          have hlt : st'.srcScanned < segs.length := by
            rw [List.getElem?_eq_some_iff] at l2; exact l2.1
          rw [List.drop_eq_getElem_cons hlt]
          congr 1
          rw [List.getElem?_eq_getElem hlt] at l2
          exact Option.some.inj l2
        have hpw := hinc
        rw [hsplit, List.pairwise_append] at hpw
        refine ⟨by omega, fun x hx => ?_, fun x hx => ?_, fun _ => by omega⟩
        · rw [hdz] at hx
          have h3 := hpw.2.1
          rw [hdz, List.pairwise_cons] at h3
          rcases List.mem_cons.1 hx with rfl | hx
          · omega
          · have := h3.1 x hx; omega
        · have h1 := hpw.2.2 x (hC'.mem hx) z (by rw [hdz]; simp)
          have h2 := hstrict x (hmem x hx)
          omega
  obtain ⟨f1, f2, f3, f4⟩ := hform
  -- the source gives what it can
  obtain ⟨k', c, w'', s'', hcq, c1, c2, c3, c4, c5, hR'', c6, -⟩ := h.consume _ _ _ _ _ _ _ (min st'.maxConsume cap) hR' (Or.inr (Or.inr ⟨Nat.min_le_right _ _, hK.free _ _⟩))
  have hk' : k' = min st'.maxConsume cap := ht.complete _ _ _ _ _ _ _ _ _ _ _ hR' (Nat.min_le_right _ _) hcq
  have hcq' : S.consume st'.src (min st'.maxConsume st'.maxConsume) = .ok ((k', c), s'') := by
    rw [← hcq, Nat.min_self]
    rcases Nat.le_total st'.maxConsume cap with hle | hle
    · rw [Nat.min_eq_left hle]
    · rw [Nat.min_eq_right hle]
      exact ht.clamp _ _ _ _ _ _ _ _ hR' hle
  have hcs : c ≤ st'.srcScanned := by
    rcases Nat.lt_or_ge st'.srcScanned c with hlt | hge
    · exfalso
      have hcl := hlent.count_le
      have hx : segs[st'.srcScanned]'(by omega) ∈ segs.take c := by
        rw [List.mem_iff_getElem?]
        exact ⟨st'.srcScanned, by rw [List.getElem?_take, if_pos hlt, List.getElem?_eq_getElem (by omega)]⟩
      have h1 := c4 _ hx
      have h2 := f2 (segs[st'.srcScanned]'(by omega)) (by rw [List.drop_eq_getElem_cons (by omega)]; exact List.mem_cons_self)
      omega
    · exact hge
  obtain ⟨n, st'', hf', hC'', rfl, hn, hseg, hmax'', hcut, d1, d2, d3⟩ := hC'.consume hcq' (by omega) hcs c4 c5
  have hall : n = st'.segments.length := by
    rcases Nat.lt_or_ge n st'.segments.length with hlt | hge
    · exfalso
      have hx : st'.segments[n]'hlt ∈ (keep P st'.srcConsumed segs).drop n := by
        rw [hC'.split, List.drop_append_of_le_length hn, List.drop_eq_getElem_cons hlt]
        exact List.mem_append_left _ List.mem_cons_self
      have h1 := d2 _ hx
      have h2 := f3 _ (List.getElem_mem hlt)
      have h3 := hstrict _ (hmem _ (List.getElem_mem hlt))
      omega
    · omega
  subst hall
  have hcount : st'.segments.length ≤ (keep P st.srcConsumed segs).length := by rw [← hcons, hC'.split]; simp
  have hpre : st'.segments = (keep P st.srcConsumed segs).take st'.segments.length := by rw [← hcons]; exact hC'.prefix
  -- how many rounds are left
  refine ⟨st'.cutter.isEmpty, _, _, _, st', k', _, st'', (if st'.cutter.isEmpty = false then w' + 2 else if k' < st'.maxConsume then w' + 1 else 0), hf,
    ⟨hcount, hpre, avail, Nat.zero_le _, v2, v3, ?_⟩, hf', rfl, by omega, ?_, ⟨_, by rw [← hcons]; exact d3.symm, hC'', ?_, ?_, ?_, ?_, ?_, ?_, ?_⟩, ?_, ?_⟩
  · rw [← hpre]
    exact fun x hx => v4 x (hmem x hx)
  · rw [← hcons]; exact d2
  · intro x hx
    obtain ⟨y, hy, rfl⟩ := List.mem_map.1 hx
    exact hpos y (List.mem_of_mem_drop hy)
  · rw [List.pairwise_map]
    refine ((hdis.sublist (List.drop_sublist c segs)).imp_of_mem fun {a b} ha hb hab => ?_)
    have h1 := c5 a ha
    simp only [Seg.tail, Seg.shift] at hab ⊢
    omega
  · rw [hseg]; simp
  · rw [hmax'', List.length_drop]; omega
  · intro x hx
    rw [← List.map_drop] at hx
    obtain ⟨y, hy, rfl⟩ := List.mem_map.1 hx
    rw [consume_scanned hf' hcq', List.drop_drop, show c + (st'.srcScanned - c) = st'.srcScanned by omega] at hy
    have h1 := f2 y hy
    rw [hmax'']
    simp only [Seg.shift]
    omega
  · intro he
    rw [hcut] at he
    have := f4 he
    rw [hmax'']
    omega
  · by_cases hd : eof = true ∧ k' = cap
    · rw [if_pos hd] at hR''
      have hcl := (heof hd.1).2
      refine Or.inr ⟨_, hR'', List.drop_eq_nil_of_le (by omega), by rw [hmax'']; omega, by rw [hcut]; exact (g1 hd.1).1⟩
    · rw [if_neg hd] at hR''
      refine Or.inl ⟨_, _, hR'', fun he => ?_, fun hm => ?_⟩
      · rw [hcut] at he
        rw [if_pos he]
        omega
      · rw [hmax''] at hm
        split
        · omega
        · rw [if_pos (by omega)]
          omega
  · intro hem
    refine ⟨by rw [← hcons, hC'.all hem], ?_⟩
    rw [if_pos hem]
    intro hb
    rw [hem, if_pos rfl] at hmaxc
    rw [← hcons, hC'.all hem]
    cases hgl : st'.segments.getLast? with
    | none => exact List.getLast?_eq_none_iff.1 hgl
    | some y =>
      exfalso
      rw [hgl] at hb
      simp only [Option.map_some, Option.getD_some, Seg.tail] at hb
      have := hpos y (List.mem_of_mem_take (hmem y (getLast_mem hgl)))
      omega
  · have hbm : st'.cutter.isEmpty = true → (st'.segments.getLast?.map Seg.tail).getD st.maxConsume = st'.maxConsume := fun hem => by
      rw [hem, if_pos rfl] at hmaxc
      exact hmaxc.symm
    cases hem : st'.cutter.isEmpty with
    | false =>
      right
      have hst : st.cutter.isEmpty = false := by
        cases hst : st.cutter.isEmpty with
        | false => rfl
        | true => rw [g3 hst] at hem; cases hem
      have hef : eof = false := by
        cases eof with
        | false => rfl
        | true => rw [(g1 rfl).1] at hem; cases hem
      have := (hv1 hef).1 hst
      simp only [if_true]
      omega
    | true =>
      rw [if_pos rfl, hbm hem]
      by_cases hz : st'.maxConsume = 0
      · exact Or.inl ⟨rfl, hz⟩
      right
      have hst : st.cutter.isEmpty = false ∨ 0 < st.maxConsume := by
        cases hst : st.cutter.isEmpty with
        | false => exact Or.inl rfl
        | true =>
          right
          have h1 := hC.all hst
          rw [← hcons, hC'.all hem, hseg0] at h1
          have h2 := hbm hem
          rw [h1] at h2
          simp only [List.getLast?_nil, Option.map_none, Option.getD_none] at h2
          omega
      simp only [Bool.true_eq_false, if_false]
      split
      · have hef : eof = false := by
          cases eof with
          | false => rfl
          | true => have := (heof rfl).2; omega
        obtain ⟨e1, e2⟩ := hv1 hef
        rcases hst with hst | hst
        · have := e1 hst; omega
        · have := e2 hst; omega
      · rcases hst with hst | hst
        · have := hv2 hst; omega
        · have := hv3 hst; omega

end FilterStream

namespace ScatterDrain

/-- One round of the drain. -/
theorem round' {S : SegSrc σ} {F D} (h : Rounds S F D) (d : ScatterDrain σ) (v : Nat) (rem : Bytes) (segs : List Seg) (hD : D d.src v rem segs) (h0 : d.srcConsumed = 0) :
    (∃ e, F e ∧ S.fill d.src = .error e) ∨
    ∃ eof bytes count maxc src v' rem' segs' d', S.fill d.src = .ok ((eof, bytes, count, maxc), src) ∧
      SegLent rem segs (S.slices src) 0 count ∧
      ({ d with src := src } : ScatterDrain σ).fresh (S.slices src).2 count = .ok (segs.take count) ∧
      ({ d with src := src } : ScatterDrain σ).advance S count maxc = .ok d' ∧
      D d'.src v' rem' segs' ∧ d'.srcConsumed = 0 ∧ d'.lines = d.lines + count ∧ d'.offset + rem'.length = d.offset + rem.length ∧
      absOf d.offset rem (segs.drop count) = absOf d'.offset rem' segs' ∧ ((eof = true ∧ bytes = 0) ∨ v' < v) ∧
      (eof = true → segs' = [] ∧ (bytes = 0 → segs = [])) := by
  rcases h.step _ _ _ _ hD with he | ⟨eof, bytes, count, maxc, src, k, c, s2, v', heq, hl, hc, rfl, hk, hdrop, hD', heof, hv⟩
  · exact Or.inl he
  right
  refine ⟨eof, bytes, c, maxc, src, v', rem.drop k, (segs.drop c).map (Seg.shift k), { src := s2, srcConsumed := 0, offset := d.offset + k, lines := d.lines + c }, heq, hl, ?_, ?_, hD', rfl, rfl,
    ?_, (absOf_shift d.offset rem (segs.drop c) k hdrop).symm, hv, fun he => ?_⟩
  · unfold fresh
    have := hl.count_le
    rw [hl.segs_eq]
    simp only [h0]
    rw [if_pos ⟨by omega, by simp; omega⟩]
    simp [List.take_take]
  · unfold advance
    simp only [hc, h0, Nat.zero_add, ckSub, Nat.le_refl, if_true, Nat.sub_self]
  · simp only [List.length_drop]
    omega
  · obtain ⟨h1, h2⟩ := heof he
    exact ⟨by rw [h1]; simp, h2⟩

/-- What remains to be printed. -/
def Pending' (D : σ → Nat → Bytes → List Seg → Prop) (f : Formatting) (d : ScatterDrain σ) (v : Nat) (p : Bytes) : Prop :=
  ∃ rem segs, D d.src v rem segs ∧ d.srcConsumed = 0 ∧ d.offset + rem.length < 2 ^ 64 ∧ p = (absOf d.offset rem segs).flatMap f.line

theorem feed_produces' {S : SegSrc σ} {F D} (h : Rounds S F D) (f : Formatting) : Produces (feed S f) F (fun d _ v p => Pending' D f d v p) (fun _ => True) := by
  rintro d v p req buf ⟨rem, segs, hD, h0, h64, rfl⟩
  unfold feed
  rcases round' h d v rem segs hD h0 with ⟨e, hF, heq⟩ | ⟨eof, bytes, count, maxc, src, v', rem', segs', d', heq, hl, hfr, had, hD', h0', hlines, hoff, habs, hv, heof⟩
  · exact Or.inl ⟨e, hF, by simp only [heq]⟩
  right
  have hseg := Format.segments_line f d.offset (S.slices src).1 (segs.take count) fun x hx => by
    have := hl.inside x hx
    omega
  have habs' : ((segs.take count).map fun x => (d.offset + x.pos, x.bytes (S.slices src).1)) = absOf d.offset rem (segs.take count) := by
    have := hl.abs d.offset
    rw [hl.segs_eq, List.take_take, Nat.min_self] at this
    exact this
  rw [habs'] at hseg
  refine ⟨eof, (absOf d.offset rem (segs.take count)).flatMap f.line, d', (absOf d'.offset rem' segs').flatMap f.line, ?_, ?_, ?_, ?_⟩
  · simp only [heq, hfr, hseg, had]
  · rw [← habs, ← List.flatMap_append]
    simp only [absOf, ← List.map_append, List.take_append_drop]
  · intro he
    obtain ⟨h1, _⟩ := heof he
    rw [h1]
    exact ⟨rfl, trivial⟩
  · intro he
    subst he
    exact ⟨v', by simpa using hv, rem', segs', hD', h0', by omega, rfl⟩

variable {ν : Type} [DecidableEq ν]

theorem scatter_eq' {S : SegSrc σ} {F D} (h : Rounds S F D) (f : Formatting) :
    ∀ (fuel : Nat) (d : ScatterDrain σ) (c : ScatterContext ν) (v : Nat) (rem : Bytes) (segs : List Seg),
      D d.src v rem segs → d.srcConsumed = 0 → d.offset + rem.length < 2 ^ 64 → v < fuel →
      (∃ e, F e ∧ scatter S f fuel d c = .error e) ∨ scatter S f fuel d c = dumpSlices f d.lines (absOf d.offset rem segs) c
  | 0, _, _, _, _, _, _, _, _, hf => by omega
  | fuel + 1, d, c, v, rem, segs, hD, h0, h64, hf => by
    unfold scatter
    rcases round' h d v rem segs hD h0 with ⟨e, hF, heq⟩ | ⟨eof, bytes, count, maxc, src, v', rem', segs', d', heq, hl, hfr, had, hD', h0', hlines, hoff, habs, hv, heof⟩
    · exact Or.inl ⟨e, hF, by simp only [heq]⟩
    simp only [heq]
    by_cases hend : eof = true ∧ bytes = 0
    · right
      rw [if_pos hend]
      rw [(heof hend.1).2 hend.2]
      rfl
    · rw [if_neg hend]
      have hall := dumpAll_eq f d.offset d.lines (S.slices src).1 0 (segs.take count) c fun x hx => by
        have := hl.inside x hx
        omega
      have habs' : ((segs.take count).map fun x => (d.offset + x.pos, x.bytes (S.slices src).1)) = absOf d.offset rem (segs.take count) := by
        have := hl.abs d.offset
        rw [hl.segs_eq, List.take_take, Nat.min_self] at this
        exact this
      rw [habs', Nat.add_zero] at hall
      have hsplit : absOf d.offset rem segs = absOf d.offset rem (segs.take count) ++ absOf d'.offset rem' segs' := by
        rw [← habs]
        simp only [absOf, ← List.map_append, List.take_append_drop]
      have hcl : (absOf d.offset rem (segs.take count)).length = count := by
        have := hl.count_le
        simp [absOf]
        omega
      rw [hsplit, dumpSlices_append]
      simp only [hfr, hall, had]
      cases hd : dumpSlices f d.lines (absOf d.offset rem (segs.take count)) c with
      | error e => right; rfl
      | ok c' =>
        simp only
        rw [hcl, ← hlines]
        exact scatter_eq' h f fuel d' c' v' rem' segs' hD' h0' (by omega) (by have := hv.resolve_left hend; omega)

end ScatterDrain

/-- The drains print and write what the rounds show. -/
theorem Rounds.drains {g : DynSeg} {F D} (h : Rounds g.src F D) {B v : Nat} (hB : 0 < B) {content : Bytes} {segs : List Seg} (hD : D g.st v content segs) (hlen : content.length < 2 ^ 64) :
    Drains g F B v (slicesOf content segs) True := by
  refine ⟨fun f fuel hf => ?_, fun _ f fuel c hf => ?_⟩
  · exact buffered_delivers' (ScatterDrain.feed_produces' h f) hB ⟨content, segs, hD, rfl, by simpa [ScatterDrain.new] using hlen, by rw [← absOf_zero]; rfl⟩ hf
  · have := ScatterDrain.scatter_eq' h f fuel (ScatterDrain.new g.st) c v content segs hD rfl (by simpa [ScatterDrain.new] using hlen) (by omega)
    simpa only [ScatterDrain.new, absOf_zero] using this

end Nd
