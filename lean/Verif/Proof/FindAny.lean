import Verif.Proof.Exact
/-!
# `--find` with an array that may overlap itself
-/
namespace Nd
open Nd.Spec

/-- What a scan finds: occurrences, in order, and for every occurrence one that overlaps it. -/
theorem findIter_sound (p : Bytes) (hne : p ≠ []) : ∀ (l : Bytes) (skip i : Nat),
    (∀ j ∈ findIter p skip i l, i + skip ≤ j ∧ p <+: l.drop (j - i)) ∧ (findIter p skip i l).Pairwise (· < ·) ∧
    ∀ q, skip ≤ q → p <+: l.drop q → ∃ j ∈ findIter p skip i l, j ≤ i + q ∧ i + q < j + p.length
  | [], skip, i => by
    refine ⟨by simp [findIter], by simp [findIter], fun q _ hq => ?_⟩
    rw [List.drop_nil] at hq
    exact absurd (List.prefix_nil.1 hq) hne
  | b :: l, skip + 1, i => by
    obtain ⟨h1, h2, h3⟩ := findIter_sound p hne l skip (i + 1)
    simp only [findIter]
    refine ⟨fun j hj => ?_, h2, fun q hq hpq => ?_⟩
    · obtain ⟨a, b'⟩ := h1 j hj
      refine ⟨by omega, ?_⟩
      rw [show j - i = (j - (i + 1)) + 1 by omega, List.drop_succ_cons]
      exact b'
    · obtain ⟨q, rfl⟩ : ∃ q', q = q' + 1 := ⟨q - 1, by omega⟩
      rw [List.drop_succ_cons] at hpq
      obtain ⟨j, a, b', c⟩ := h3 q (by omega) hpq
      exact ⟨j, a, by omega, by omega⟩
  | b :: l, 0, i => by
    have hlen : 0 < p.length := List.length_pos_iff.2 hne
    simp only [findIter, List.isPrefixOf_iff_prefix]
    by_cases hp : p <+: b :: l
    · rw [if_pos hp]
      obtain ⟨h1, h2, h3⟩ := findIter_sound p hne l (p.length - 1) (i + 1)
      refine ⟨fun j hj => ?_, ?_, fun q _ hpq => ?_⟩
      · rcases List.mem_cons.1 hj with rfl | hj
        · refine ⟨by omega, ?_⟩
          rw [Nat.sub_self, List.drop_zero]
          exact hp
        · obtain ⟨a, b'⟩ := h1 j hj
          refine ⟨by omega, ?_⟩
          rw [show j - i = (j - (i + 1)) + 1 by omega, List.drop_succ_cons]
          exact b'
      · refine List.pairwise_cons.2 ⟨fun j hj => ?_, h2⟩
        have := (h1 j hj).1
        omega
      · by_cases hq : q < p.length
        · exact ⟨i, List.mem_cons_self, by omega, by omega⟩
        · obtain ⟨q, rfl⟩ : ∃ q', q = q' + 1 := ⟨q - 1, by omega⟩
          rw [List.drop_succ_cons] at hpq
          obtain ⟨j, a, b', c⟩ := h3 q (by omega) hpq
          exact ⟨j, List.mem_cons_of_mem _ a, by omega, by omega⟩
    · rw [if_neg hp]
      obtain ⟨h1, h2, h3⟩ := findIter_sound p hne l 0 (i + 1)
      refine ⟨fun j hj => ?_, h2, fun q _ hpq => ?_⟩
      · obtain ⟨a, b'⟩ := h1 j hj
        refine ⟨by omega, ?_⟩
        rw [show j - i = (j - (i + 1)) + 1 by omega, List.drop_succ_cons]
        exact b'
      · by_cases hq : q = 0
        · subst hq; exact absurd hpq hp
        · obtain ⟨q, rfl⟩ : ∃ q', q = q' + 1 := ⟨q - 1, by omega⟩
          rw [List.drop_succ_cons] at hpq
          obtain ⟨j, a, b', c⟩ := h3 q (by omega) hpq
          exact ⟨j, a, by omega, by omega⟩

namespace ExactMatchSlicer

/-- What a client has seen, `top` bytes of the content having been searched. -/
structure Found (p content : Bytes) (top : Nat) (seen : List (Nat × Bytes)) : Prop where
  sorted : seen.Pairwise fun x y => x.1 < y.1
  real : ∀ x ∈ seen, x.2 = p ∧ p <+: content.drop x.1 ∧ x.1 < top
  cover : ∀ i, i < top → p <+: content.drop i → ∃ x ∈ seen, x.1 ≤ i ∧ i < x.1 + p.length

structure Seen (p content : Bytes) (R : σ → Phase → Nat → Bytes → Prop) (E : σ → Prop) (Src : ByteSrc σ) (c : SegClient (ExactMatchSlicer σ)) (w : Nat) : Prop where
  pat : c.st.pattern = p
  off : c.offset + c.st.scanned ≤ content.length
  len : ∀ x ∈ c.st.segments, x.len = p.length
  lent : c.lent = c.st.segments.map fun x => (c.offset + x.pos, p)
  found : Found p content (c.offset + c.st.scanned) (c.got ++ c.lent)
  eof : c.eof = true → c.offset + c.st.scanned = content.length ∧ E c.st.src
  cap : ∀ m, c.cap = some m → m = c.st.scanned ∧ ∃ n, R c.st.src (.lent n) w (content.drop c.offset) ∧ c.st.scanned ≤ n ∧ (E c.st.src ∨ c.st.scanned + p.length ≤ n + 1)
  idle : c.cap = none → ∃ lb l, R c.st.src (.idle lb) w (content.drop c.offset) ∧ Keeps Src c.st.src l ∧ (E c.st.src ∨ (c.st.scanned + p.length ≤ l + 1 ∧ c.st.scanned ≤ l))

theorem seen_fill {p content : Bytes} (hne : p ≠ []) {Src : ByteSrc σ} {F M R L E} (h : Serves Src F M R) (hA : Ample Src R L E)
    (hL : p.length ≤ L) (B : Nat) {c : SegClient (ExactMatchSlicer σ)} {w : Nat} (hc : Seen p content R E Src c w) (hcap : c.cap = none) :
    (∃ e, F e ∧ c.step (segSrc Src B) none = .error e) ∨
    ∃ c' w', c.step (segSrc Src B) none = .ok c' ∧ Seen p content R E Src c' w' ∧ (∃ m, c'.cap = some m) ∧ w' ≤ w ∧ (c'.eof = false → w' < w) ∧ (E c.st.src → c'.eof = true) := by
  obtain ⟨lb, l, hR, hK, hW⟩ := hc.idle hcap
  have hlen : 0 < p.length := List.length_pos_iff.2 hne
  have hoff := hc.off
  simp only [SegClient.step, hcap, segSrc, fill]
  rcases h.fill _ _ _ _ B hR with ⟨er, hF, heq⟩ | ⟨eof, n, w', s', heq, hR', hn, hm, he', hne', hw', hw''⟩
  · left; exact ⟨er, hF, by rw [heq]⟩
  right
  obtain ⟨a1, a2, a3⟩ := hA.fill _ _ _ _ _ _ _ _ hR heq
  rw [heq]
  simp only
  simp only [List.length_drop] at hn he'
  have hempty : ¬ c.st.pattern.isEmpty = true := by rw [hc.pat]; simpa using hne
  have hscan : c.st.scanned ≤ n := by
    cases eof with
    | true => rw [he' rfl]; omega
    | false =>
      have := hK _ _ _ heq
      rcases hW with hW | hW
      · exact absurd (a3 hW) (by simp)
      · omega
  have hstream : (Src.slice s').take n = (content.drop c.offset).take n ∧ n ≤ (Src.slice s').length ∨ n = 0 := by
    rcases Nat.eq_zero_or_pos n with h0 | h0
    · exact Or.inr h0
    · obtain ⟨m, _, h2⟩ := hm h0
      left
      rw [h2]
      refine ⟨by rw [List.take_append_of_le_length (by simp; omega), List.take_take, Nat.min_self], by simp; omega⟩
  have htake : (Src.slice s').take n = (content.drop c.offset).take n := by
    rcases hstream with h' | h'
    · exact h'.1
    · subst h'; simp
  have hsc : (if eof = true then n else holdBack n p.length) ≤ n ∧ c.st.scanned ≤ (if eof = true then n else holdBack n p.length) ∧
      (eof = false → (if eof = true then n else holdBack n p.length) = n + 1 - p.length ∧ p.length ≤ n) := by
    cases eof with
    | true => simp; exact hscan
    | false =>
      have h1 := a1 rfl
      have h2 := hK _ _ _ heq
      have h3 : c.st.scanned + p.length ≤ n + 1 := by
        rcases hW with hW | hW
        · exact absurd (a3 hW) (by simp)
        · omega
      simp only [Bool.false_eq_true, if_false, holdBack]
      rw [if_pos (by omega)]
      omega
  have hsceof : eof = true → (if eof = true then n else holdBack n p.length) = n := fun he => if_pos he
  generalize hscdef : (if eof = true then n else holdBack n p.length) = sc at hsc hsceof
  obtain ⟨f1, f2, f3⟩ := findIter_sound p hne (((Src.slice s').take n).drop c.st.scanned) 0 0
  have hbound : ∀ j ∈ findIter p 0 0 (((Src.slice s').take n).drop c.st.scanned), p <+: content.drop (c.offset + (c.st.scanned + j)) ∧ c.st.scanned + j + p.length ≤ n := by
    intro j hj
    have h1 := (f1 j hj).2
    rw [Nat.sub_zero, List.drop_drop, htake, List.drop_take, List.drop_drop, List.prefix_take_iff] at h1
    refine ⟨h1.1, ?_⟩
    have := h1.2
    omega
  have hlt : ∀ q, q + p.length ≤ n → q < sc := by
    intro q hq
    cases eof with
    | true => rw [hsceof rfl]; omega
    | false => have := hsc.2.2 rfl; omega
  rw [if_neg hempty, if_neg (by rcases hstream with h' | h' <;> omega), hc.pat]
  simp only [hscdef, List.take_length]
  have hnew : ((c.st.segments ++ (findIter p 0 0 (((Src.slice s').take n).drop c.st.scanned)).map fun pos => ({ pos := c.st.scanned + pos, len := p.length } : Seg)).map
      fun x => (c.offset + x.pos, x.bytes (Src.slice s'))) =
      (c.st.segments ++ (findIter p 0 0 (((Src.slice s').take n).drop c.st.scanned)).map fun pos => ({ pos := c.st.scanned + pos, len := p.length } : Seg)).map
      fun x => (c.offset + x.pos, p) := by
    apply List.map_congr_left
    intro x hx
    have key : x.len = p.length ∧ p <+: content.drop (c.offset + x.pos) ∧ x.pos + p.length ≤ n := by
      rcases List.mem_append.1 hx with hx | hx
      · have h1 : (c.offset + x.pos, p) ∈ c.got ++ c.lent := by
          rw [hc.lent]
          exact List.mem_append_right _ (List.mem_map_of_mem hx)
        obtain ⟨_, h2, h3⟩ := hc.found.real _ h1
        refine ⟨hc.len x hx, h2, ?_⟩
        simp only at h3
        have h4 := h2.length_le
        simp only [List.length_drop] at h4
        cases eof with
        | true => rw [he' rfl]; omega
        | false =>
          have := hK _ _ _ heq
          rcases hW with hW | hW
          · exact absurd (a3 hW) (by simp)
          · omega
      · obtain ⟨j, hj, rfl⟩ := List.mem_map.1 hx
        exact ⟨rfl, hbound j hj⟩
    simp only [Prod.mk.injEq, true_and, Seg.bytes, key.1]
    have h1 : ((Src.slice s').drop x.pos).take p.length = (((Src.slice s').take n).drop x.pos).take p.length := by
      rw [List.drop_take, List.take_take, Nat.min_eq_left (by omega)]
    rw [h1, htake, List.drop_take, List.take_take, Nat.min_eq_left (by omega), List.drop_drop]
    exact (List.prefix_iff_eq_take.1 key.2.1).symm
  rw [hnew]
  refine ⟨_, w', rfl, ⟨rfl, by simp only; omega, ?_, rfl, ⟨?_, ?_, ?_⟩, ?_, ?_, by simp⟩, ⟨sc, rfl⟩, hw', fun he => hw'' he trivial, a3⟩
  · intro x hx
    simp only at hx
    rcases List.mem_append.1 hx with hx | hx
    · exact hc.len x hx
    · obtain ⟨j, _, rfl⟩ := List.mem_map.1 hx
      rfl
  · simp only [List.map_append]
    rw [← hc.lent, ← List.append_assoc]
    refine List.pairwise_append.2 ⟨hc.found.sorted, ?_, ?_⟩
    · rw [List.map_map, List.pairwise_map]
      refine f2.imp fun h => ?_
      simp only [Function.comp]
      omega
    · intro x hx y hy
      rw [List.map_map] at hy
      obtain ⟨j, hj, rfl⟩ := List.mem_map.1 hy
      have := (hc.found.real x hx).2.2
      simp only [Function.comp]
      omega
  · simp only [List.map_append]
    rw [← hc.lent, ← List.append_assoc]
    intro x hx
    rcases List.mem_append.1 hx with hx | hx
    · obtain ⟨h1, h2, h3⟩ := hc.found.real x hx
      exact ⟨h1, h2, by omega⟩
    · rw [List.map_map] at hx
      obtain ⟨j, hj, rfl⟩ := List.mem_map.1 hx
      obtain ⟨h1, h2⟩ := hbound j hj
      refine ⟨rfl, h1, ?_⟩
      have := hlt _ h2
      simp only [Function.comp]
      omega
  · simp only [List.map_append]
    rw [← hc.lent, ← List.append_assoc]
    intro i hi hpi
    by_cases hold : i < c.offset + c.st.scanned
    · obtain ⟨x, h1, h2⟩ := hc.found.cover i hold hpi
      exact ⟨x, List.mem_append_left _ h1, h2⟩
    · have hpl := hpi.length_le
      simp only [List.length_drop] at hpl
      have hin : i - c.offset + p.length ≤ n := by
        cases eof with
        | true => rw [he' rfl]; omega
        | false => have := hsc.2.2 rfl; omega
      obtain ⟨j, h1, h2, h3⟩ := f3 (i - c.offset - c.st.scanned) (by omega) (by
        rw [List.drop_drop, htake, List.drop_take, List.drop_drop, List.prefix_take_iff]
        rw [show c.offset + (c.st.scanned + (i - c.offset - c.st.scanned)) = i by omega]
        exact ⟨hpi, by omega⟩)
      refine ⟨(c.offset + (c.st.scanned + j), p), List.mem_append_right _ ?_, by simp only; omega, by simp only; omega⟩
      rw [List.map_map]
      exact List.mem_map.2 ⟨j, h1, rfl⟩
  · intro he
    simp only at he
    refine ⟨?_, a2.2 he⟩
    have h1 := hsceof he
    have h2 := he' he
    simp only
    omega
  · intro m hm
    simp only [Option.some.injEq] at hm
    refine ⟨hm.symm, n, hR', hsc.1, ?_⟩
    cases eof with
    | true => exact Or.inl (a2.2 rfl)
    | false => have := hsc.2.2 rfl; right; simp only; omega

theorem seen_consume {p content : Bytes} {Src : ByteSrc σ} {F M R L E} (h : Serves Src F M R) (hA : Ample Src R L E)
    (B : Nat) {c : SegClient (ExactMatchSlicer σ)} {w : Nat} (hc : Seen p content R E Src c w) {m : Nat} (hcap : c.cap = some m) (k : Nat) :
    ∃ c' w', c.step (segSrc Src B) (some k) = .ok c' ∧ Seen p content R E Src c' w' ∧ c'.cap = none ∧ w' ≤ w ∧ c'.eof = c.eof ∧ (E c'.st.src ↔ E c.st.src) := by
  obtain ⟨rfl, n, hR, hsn, hW⟩ := hc.cap m hcap
  have hoff := hc.off
  simp only [SegClient.step, hcap, segSrc, show min (min k c.st.scanned) c.st.scanned = min k c.st.scanned by omega]
  have hk' : min k c.st.scanned ≤ n := by omega
  obtain ⟨s2, w2, heq2, hR2, hw2⟩ := h.consume _ _ _ _ (min k c.st.scanned) hR hk'
  rw [heq2]
  have hall : ∀ x ∈ c.st.segments, (c.offset + x.pos, p) ∈ c.got ++ c.lent := by
    intro x hx
    rw [hc.lent]
    exact List.mem_append_right _ (List.mem_map_of_mem hx)
  have hsort : Sorted c.st.segments := by
    have h1 := (List.pairwise_append.1 hc.found.sorted).2.1
    rw [hc.lent, List.pairwise_map] at h1
    exact h1.imp fun h => by simp only at h; omega
  obtain ⟨d, hcut, hdl, hd1, hd2⟩ := cutSegs_spec (min k c.st.scanned) c.st.segments hsort
  simp only [hcut]
  generalize hkk : min k c.st.scanned = kk at *
  have hlent : c.lent.drop d = ((c.st.segments.drop d).map (Seg.shift kk)).map fun x => (c.offset + kk + x.pos, p) := by
    rw [hc.lent, ← List.map_drop, List.map_map]
    apply List.map_congr_left
    intro x hx
    have := hd2 x hx
    simp only [Function.comp, Seg.shift, Prod.mk.injEq, and_true]
    omega
  have hcE := hA.consume _ _ _ heq2
  have hseen : c.got ++ c.lent.take d ++ c.lent.drop d = c.got ++ c.lent := by rw [List.append_assoc, List.take_append_drop]
  refine ⟨_, w2, rfl, ⟨hc.pat, by simp only; omega, ?_, hlent, ?_, ?_, by simp, fun _ => ⟨if kk = 0 then max 1 n else 1, n - kk, ?_, fun req n' s3 h3 => hA.keep _ _ _ _ _ _ _ _ _ _ hR hk' heq2 h3 rfl, ?_⟩⟩, rfl, hw2, rfl, hcE⟩
  · intro x hx
    simp only at hx
    obtain ⟨y, hy, rfl⟩ := List.mem_map.1 hx
    exact hc.len y (List.mem_of_mem_drop hy)
  · simp only [hseen]
    rw [show c.offset + kk + (c.st.scanned - kk) = c.offset + c.st.scanned by omega]
    exact hc.found
  · intro he
    obtain ⟨h1, h2⟩ := hc.eof he
    exact ⟨by simp only; omega, hcE.2 h2⟩
  · simp only
    rw [← List.drop_drop]
    exact hR2
  · simp only
    rcases hW with hW | hW
    · exact Or.inl (hcE.2 hW)
    · right; omega

theorem seen_run {p content : Bytes} (hne : p ≠ []) {Src : ByteSrc σ} {F M R L E} (h : Serves Src F M R) (hA : Ample Src R L E)
    (hL : p.length ≤ L) (B : Nat) : ∀ (ops : List (Option Nat)) (c : SegClient (ExactMatchSlicer σ)) (w : Nat), Seen p content R E Src c w →
    (∃ e, F e ∧ c.run (segSrc Src B) ops = .error e) ∨ ∃ c' w', c.run (segSrc Src B) ops = .ok c' ∧ Seen p content R E Src c' w'
  | [], c, w, hc => Or.inr ⟨c, w, rfl, hc⟩
  | op :: ops, c, w, hc => by
    have next : ∀ c' w', c.step (segSrc Src B) op = .ok c' → Seen p content R E Src c' w' →
        (∃ e, F e ∧ c.run (segSrc Src B) (op :: ops) = .error e) ∨ ∃ c' w', c.run (segSrc Src B) (op :: ops) = .ok c' ∧ Seen p content R E Src c' w' := by
      intro c' w' h1 h2
      simp only [SegClient.run, h1]
      exact seen_run hne h hA hL B ops c' w' h2
    cases hcap : c.cap with
    | none =>
      cases op with
      | none =>
        rcases seen_fill hne h hA hL B hc hcap with ⟨e, hF, heq⟩ | ⟨c', w', h1, h2, _⟩
        · exact Or.inl ⟨e, hF, by simp only [SegClient.run, heq]⟩
        · exact next c' w' h1 h2
      | some k => exact next c w (by simp only [SegClient.step, hcap]) hc
    | some m =>
      cases op with
      | none => exact next c w (by simp only [SegClient.step, hcap]) hc
      | some k =>
        obtain ⟨c', w', h1, h2, _⟩ := seen_consume h hA B hc hcap k
        exact next c' w' h1 h2

theorem seen_rounds {p content : Bytes} (hne : p ≠ []) {Src : ByteSrc σ} {F M R L E} (h : Serves Src F M R) (hA : Ample Src R L E)
    (hL : p.length ≤ L) (B k : Nat) : ∀ (n : Nat) (c : SegClient (ExactMatchSlicer σ)) (w : Nat), Seen p content R E Src c w → c.cap = none →
    (w < n ∨ c.eof = true) →
    (∃ e, F e ∧ c.run (segSrc Src B) ((List.replicate n [none, some k]).flatten) = .error e) ∨
    ∃ c', c.run (segSrc Src B) ((List.replicate n [none, some k]).flatten) = .ok c' ∧ c'.eof = true
  | 0, c, w, hc, _, hn => Or.inr ⟨c, rfl, by rcases hn with h | h; (· omega); (· exact h)⟩
  | n + 1, c, w, hc, hcap, hn => by
    simp only [List.replicate_succ, List.flatten_cons, List.cons_append, List.nil_append, SegClient.run]
    rcases seen_fill hne h hA hL B hc hcap with ⟨e, hF, heq⟩ | ⟨c', w', h1, h2, ⟨m, h3⟩, h4, h5, h6⟩
    · exact Or.inl ⟨e, hF, by rw [heq]⟩
    obtain ⟨c2, w2, g1, g2, g3, g4, g5, g6⟩ := seen_consume h hA B h2 h3 k
    simp only [h1, g1]
    refine seen_rounds hne h hA hL B k n c2 w2 g2 g3 ?_
    rw [g5]
    cases he : c'.eof with
    | true => exact Or.inr rfl
    | false =>
      rcases hn with hn | hn
      · have := h5 he; left; omega
      · rw [h6 (hc.eof hn).2] at he; cases he

end ExactMatchSlicer

end Nd
