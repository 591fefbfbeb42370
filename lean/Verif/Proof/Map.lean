import Verif.Model.Map
import Verif.Spec.Map
import Verif.Proof.SegTools
import Verif.Proof.SegOrder
import Verif.Proof.Cut
import Verif.Proof.SegKeeps
/-!
# Slice streams computed from another slice stream
-/
namespace Nd
open Spec

/-- What the generic proof needs to know about an instance: `rest aux later len` is what will be produced for the
source segments `later`, `Inv aux seen later len` an invariant. -/
structure MapLaws (ops : MapOps α) (rest : α → List Seg → Nat → List Seg) (Inv : α → List Seg → List Seg → Nat → Prop) (H : Nat) : Prop where
  grow : ∀ aux seen news later len bytes, Inv aux seen (news ++ later) len → bytes ≤ len → (∀ x ∈ news, x.tail ≤ bytes) →
    (ops.grow aux false bytes news).1 ++ rest (ops.grow aux false bytes news).2 later len = rest aux (news ++ later) len ∧
    Inv (ops.grow aux false bytes news).2 (seen ++ news) later len ∧ ∀ z ∈ (ops.grow aux false bytes news).1, z.tail ≤ bytes
  finish : ∀ aux seen news len, Inv aux seen news len →
    (ops.grow aux true len news).1 = rest aux news len ∧ rest (ops.grow aux true len news).2 [] len = [] ∧
    Inv (ops.grow aux true len news).2 (seen ++ news) [] len
  limit : ∀ aux seen later len maxc, Inv aux seen later len → (∀ x ∈ later, maxc ≤ x.pos) →
    ∀ z ∈ rest aux later len, min maxc (ops.limit aux maxc) ≤ z.pos
  slack : ∀ aux seen later len maxc, Inv aux seen later len → (∀ x ∈ seen, x.pos ≤ maxc) → ∀ x ∈ seen, x.tail ≤ min maxc (ops.limit aux maxc) + H
  shift : ∀ aux seen later len k c, Inv aux seen later len → k ≤ len → (∀ x ∈ seen.drop c, k ≤ x.pos) → (∀ x ∈ later, k ≤ x.pos) →
    (∀ z ∈ rest aux later len, k ≤ z.pos) →
    rest (ops.unwind aux k) (later.map (Seg.shift k)) (len - k) = (rest aux later len).map (Seg.shift k) ∧
    Inv (ops.unwind aux k) ((seen.drop c).map (Seg.shift k)) (later.map (Seg.shift k)) (len - k)

namespace MapStream

/-- What such a stream guarantees over a source of kind `K`. -/
def kind (K : SegKind) : SegKind where
  full := true
  exact := false
  honest := true
  steady := true
  early := false
  moving := false
  snap := false
  policy := fun _ _ => K.Free

/-- Slices of `len` bytes, sorted by start. -/
def Good (out : List Seg) (len : Nat) : Prop := Sorted out ∧ ∀ z ∈ out, 0 < z.len ∧ z.tail ≤ len

/-- The states of the stream. -/
structure Rel (S : SegSrc σ) (R : σ → SegPhase → Nat → Bytes → List Seg → Prop) (rest : α → List Seg → Nat → List Seg) (Inv : α → List Seg → List Seg → Nat → Prop) (H : Nat)
    (m : MapStream σ α) (ph : SegPhase) (w : Nat) (rem : Bytes) (out : List Seg) : Prop where
  inner : ∃ segs sph, R m.src sph w rem segs ∧ out = m.segments ++ rest m.aux (segs.drop m.srcScanned) rem.length ∧
    Inv m.aux (segs.take m.srcScanned) (segs.drop m.srcScanned) rem.length ∧ Good out rem.length ∧ m.srcScanned ≤ segs.length ∧
    match ph with
    | .idle lb => sph = .idle m.srcScanned ∧ lb ≤ m.segments.length ∧ ∀ b c mc s', S.fill m.src = .ok ((false, b, c, mc), s') → ∀ z ∈ m.segments, z.tail ≤ b
    | .lent eof count cap => count = m.segments.length ∧ ∃ scap, sph = .lent eof m.srcScanned scap ∧ cap = min scap m.maxConsume ∧ scap ≤ rem.length ∧
      (∀ z ∈ rest m.aux (segs.drop m.srcScanned) rem.length, cap ≤ z.pos) ∧
      (eof = true → rest m.aux (segs.drop m.srcScanned) rem.length = [] ∧ m.srcScanned = segs.length ∧ scap = rem.length ∧ m.maxConsume = scap) ∧
      (eof = false → ∀ x ∈ segs.take m.srcScanned, x.tail ≤ cap + H) ∧
      (0 < rem.length → ∃ s0 lb w0 bytes mc, R s0 (.idle lb) w0 rem segs ∧ S.fill s0 = .ok ((eof, bytes, m.srcScanned, mc), m.src) ∧ scap ≤ bytes ∧ ∀ z ∈ m.segments, z.tail ≤ bytes)
    | .done => sph = .done ∧ out = [] ∧ m.srcScanned = segs.length ∧ rem = []

theorem faithful {S : SegSrc σ} {K F R} (h : SegFaithful S K F R) (hk : SegKeeps S R) (hfull : K.full = true) (hh : K.honest = true) (hst : K.steady = true) (he : K.early = true)
    {ops : MapOps α} {rest Inv H} (laws : MapLaws ops rest Inv H) (hp : ∀ lent k, (∀ x ∈ lent, x.tail ≤ k + H) → K.policy lent k)
    (hz : K.strict = false := by first | rfl | assumption) :
    SegFaithful (segSrc S ops) (kind K) F (Rel S R rest Inv H) := by
  refine ⟨?_, ?_, ?_⟩
  · rintro m lb w rem out ⟨segs, sph, hR, rfl, hInv, hgood, hsl, rfl, hlb, hfl⟩
    simp only [segSrc]
    rcases h.fill _ _ _ _ _ hR with ⟨e, hF, heq⟩ | ⟨eof, bytes, count, maxc, cap, w', s', heq, hR', hl, hcb, hdrop, hmax, heof, hearly, hw, hw', hsteady, hmov⟩
    · exact Or.inl ⟨e, hF, by simp only [heq]⟩
    right
    have hmc : maxc = cap := by
      rcases hmax with h | ⟨_, _, h, _⟩
      · exact h
      · rw [hh] at h; cases h
    subst hmc
    have hsc : m.srcScanned ≤ count := hsteady hst
    have hcl := hl.count_le
    obtain ⟨avail, hav1, hav2, hav3, hav4⟩ := hl.bytes_eq
    have hse := hl.segs_eq
    have hlen : (S.slices s').2.length = count := by rw [hse, List.length_take]; omega
    simp only [heq]
    rw [if_neg (by omega)]
    have htt : ((S.slices s').2.take count).drop m.srcScanned = (segs.take count).drop m.srcScanned := by
      rw [hse, List.take_take, Nat.min_self]
    rw [htt]
    have hsplit : segs.drop m.srcScanned = (segs.take count).drop m.srcScanned ++ segs.drop count := by
      conv => lhs; rw [← List.take_append_drop count segs]
      rw [List.drop_append_of_le_length (by simp; omega)]
    have hseen : segs.take m.srcScanned ++ (segs.take count).drop m.srcScanned = segs.take count := by
      have : segs.take m.srcScanned = (segs.take count).take m.srcScanned := by rw [List.take_take, Nat.min_eq_left hsc]
      rw [this, List.take_append_drop]
    generalize hnews : (segs.take count).drop m.srcScanned = news at *
    have hnm : ∀ x ∈ news, x ∈ segs.take count := by intro x hx; rw [← hseen]; simp [hx]
    cases eof with
    | true =>
      obtain ⟨g1, g2, g3⟩ := heof rfl
      have hbl := g3 hfull
      have hlater : segs.drop count = [] := by rw [g1, List.drop_length]
      rw [hsplit, hlater, List.append_nil] at hInv hgood
      rw [hsplit, hlater, List.append_nil]
      obtain ⟨f1, f2, f3⟩ := laws.finish _ _ _ _ hInv
      rw [hbl]
      simp only [if_true]
      rw [hseen] at f3
      refine ⟨true, rem.length, _, _, min maxc rem.length, w', _, rfl, ⟨segs, _, hR', ?_, ?_, hgood, hcl, rfl, maxc, rfl, rfl, by omega, ?_, ?_, by simp, fun _ => ⟨m.src, m.srcScanned, w, bytes, maxc, hR, heq, by omega, ?_⟩⟩, ?_, by omega, ?_, Or.inl rfl, ?_,
        by simp [kind], hw, by simp, fun _ => by simp; omega, by simp [kind]⟩
      · simp only [hlater, f1, f2, List.append_nil]
      · simp only [hlater]; exact f3
      · simp only [hlater, f2]; simp
      · intro _
        simp only [hlater, f2]
        exact ⟨trivial, g1, by omega, by omega⟩
      · rw [f1, hbl]
        exact fun z hz => (hgood.2 z hz).2
      · rw [f1]
        refine ⟨by simp, List.take_length.symm, rem.length, by omega, Nat.le_refl _, ?_, ?_⟩
        · intro h0
          have : avail = rem.length := by omega
          rw [← this]
          exact hav3 (by omega)
        · intro x hx
          exact (hgood.2 x (List.mem_of_mem_take hx)).2
      · intro x hx
        rw [f1, List.drop_length] at hx
        simp at hx
      · intro _
        rw [f1]
        exact ⟨rfl, by omega, fun _ => rfl⟩
    | false =>
      have hwit := hk.within _ _ _ _ _ _ _ _ _ hR heq
      rw [hsplit] at hInv hgood
      rw [hsplit]
      obtain ⟨f1, f2, f3⟩ := laws.grow _ _ _ _ _ bytes hInv (by omega) (fun x hx => hwit x (hnm x hx))
      rw [hseen] at f2
      simp only [Bool.false_eq_true, if_false]
      have hall : ∀ z ∈ m.segments ++ (ops.grow m.aux false bytes news).1, z.tail ≤ bytes := by
        intro z hz
        rcases List.mem_append.1 hz with hz | hz
        · exact hfl _ _ _ _ heq z hz
        · exact f3 z hz
      rw [← f1, ← List.append_assoc] at hgood ⊢
      have hlim := laws.limit _ _ _ _ maxc f2 hdrop
      refine ⟨false, bytes, _, _, min maxc (ops.limit (ops.grow m.aux false bytes news).2 maxc), w', _, rfl, ⟨segs, _, hR', rfl, f2, hgood, hcl, rfl, maxc, rfl, rfl, by omega, hlim, by simp, fun _ => ?_, fun _ => ⟨m.src, m.srcScanned, w, bytes, maxc, hR, heq, hcb, hall⟩⟩, ?_,
        by omega, ?_, Or.inl rfl, by simp, by simp [kind], hw, hw', fun _ => by simp; omega, by simp [kind]⟩
      · exact laws.slack _ _ _ _ maxc f2 (fun x hx => hearly he x hx)
      · refine ⟨by simp, List.take_left.symm, avail, hav1, hav2, hav3, ?_⟩
        intro x hx
        rw [List.take_left] at hx
        have := hall x hx
        omega
      · intro x hx
        rw [List.drop_left] at hx
        exact hlim x hx
  · rintro m eof count cap w rem out k ⟨segs, sph, hR, rfl, hInv, hgood, hsl, rfl, scap, rfl, rfl, hscap, hlim, hfin, hne, hprov⟩ hkk
    replace hkk := hkk.imp And.left id
    have hpol : scap = 0 ∨ min k m.maxConsume = scap ∨ (min k m.maxConsume ≤ scap ∧ K.policy (segs.take m.srcScanned) (min k m.maxConsume)) := by
      cases eof with
      | true =>
        obtain ⟨_, _, _, hm⟩ := hfin rfl
        rcases hkk with h0 | h1 | ⟨h1, h2⟩
        · left; omega
        · right; left; omega
        · right; right; exact ⟨by omega, h2 _ _⟩
      | false =>
        have hs := hne rfl
        rcases hkk with h0 | h1 | ⟨h1, h2⟩
        · by_cases h0' : scap = 0
          · exact Or.inl h0'
          · right; right
            refine ⟨by omega, hp _ _ fun x hx => ?_⟩
            have := hs x hx
            omega
        · right; right
          refine ⟨by omega, hp _ _ fun x hx => ?_⟩
          have := hs x hx
          omega
        · right; right; exact ⟨by omega, h2 _ _⟩
    obtain ⟨k', c, w', s', heq, c1, c2, c3, c4, c5, hR', c6, c7, c8, c9⟩ := h.consume _ _ _ _ _ _ _ _ hR (hpol.imp (fun h => ⟨h, hz⟩) id)
    obtain ⟨fr, hcut, f1, f2, f3⟩ := cutSegs_spec k' m.segments (List.pairwise_append.1 hgood.1).1
    have hkrem : k' ≤ rem.length := by omega
    have hrest : ∀ z ∈ rest m.aux (segs.drop m.srcScanned) rem.length, k' ≤ z.pos := by
      intro z hz; have := hlim z hz; omega
    have hlater : ∀ x ∈ segs.drop m.srcScanned, k' ≤ x.pos := by
      intro x hx
      apply c5
      have : segs.drop m.srcScanned = (segs.drop c).drop (m.srcScanned - c) := by
        rw [List.drop_drop]; congr 1; omega
      rw [this] at hx
      exact List.mem_of_mem_drop hx
    have hseen : (segs.take m.srcScanned).drop c = (segs.drop c).take (m.srcScanned - c) := List.drop_take
    obtain ⟨g1, g2⟩ := laws.shift _ _ _ _ k' c hInv hkrem (fun x hx => by
      rw [hseen] at hx
      exact c5 x (List.mem_of_mem_take hx)) hlater hrest
    have hdrop : (m.segments ++ rest m.aux (segs.drop m.srcScanned) rem.length).drop fr = m.segments.drop fr ++ rest m.aux (segs.drop m.srcScanned) rem.length :=
      List.drop_append_of_le_length f1
    have hall : ∀ z ∈ (m.segments ++ rest m.aux (segs.drop m.srcScanned) rem.length).drop fr, k' ≤ z.pos := by
      intro z hz
      rw [hdrop] at hz
      rcases List.mem_append.1 hz with hz | hz
      · exact f3 z hz
      · exact hrest z hz
    have hlen : (rem.drop k').length = rem.length - k' := by simp
    have hgood' : Good (((m.segments ++ rest m.aux (segs.drop m.srcScanned) rem.length).drop fr).map (Seg.shift k')) (rem.length - k') := by
      refine ⟨hgood.1.shift fr k', ?_⟩
      intro z hz
      obtain ⟨y, hy, rfl⟩ := List.mem_map.1 hz
      have h1 := hgood.2 y (List.mem_of_mem_drop hy)
      have h2 := hall y hy
      rw [Seg.shift_tail _ _ h2]
      simp only [Seg.shift]
      omega
    have hd1 : ((segs.drop c).map (Seg.shift k')).drop (m.srcScanned - c) = (segs.drop m.srcScanned).map (Seg.shift k') := by
      rw [← List.map_drop, List.drop_drop]; congr 2; omega
    have hd2 : ((segs.drop c).map (Seg.shift k')).take (m.srcScanned - c) = ((segs.take m.srcScanned).drop c).map (Seg.shift k') := by
      rw [← List.map_take, hseen]
    refine ⟨k', fr, w', { src := s', segments := (m.segments.drop fr).map (Seg.shift k'), aux := ops.unwind m.aux k', srcScanned := m.srcScanned - c, maxConsume := m.maxConsume - k' }, ?_, by omega, by omega, f1, ?_, hall, ?_, c6, ?_, by simp [kind], by simp [kind]⟩
    · simp only [segSrc, heq]
      rw [if_neg (by omega)]
      simp only [hcut]
      rw [if_neg (by omega)]
    · intro z hz
      rw [List.take_append_of_le_length f1] at hz
      exact f2 z hz
    · refine ⟨(segs.drop c).map (Seg.shift k'), if eof = true ∧ k' = scap then .done else .idle (m.srcScanned - c), hR', ?_, ?_, ?_, by simp; omega, ?_⟩
      · rw [hdrop, List.map_append, hlen]
        simp only
        rw [hd1, g1]
      · rw [hlen]
        simp only
        rw [hd1, hd2]
        exact g2
      · rw [hlen]
        exact hgood'
      · cases eof with
        | true =>
          obtain ⟨e1, e2, e3, e4⟩ := hfin rfl
          rw [show min scap m.maxConsume = scap by omega]
          by_cases hks : k' = scap
          · simp only [hks, and_self, if_true]
            refine ⟨trivial, ?_, by simp; omega, ?_⟩
            · rw [← hks]
              cases hx : ((m.segments ++ rest m.aux (segs.drop m.srcScanned) rem.length).drop fr).map (Seg.shift k') with
              | nil => rfl
              | cons z zs =>
                have := hgood'.2 z (by rw [hx]; simp)
                simp only [Seg.tail] at this
                omega
            · rw [e3]; simp
          · simp only [hks, and_false, if_false]
            refine ⟨trivial, by simp, fun b cc mc s2 hf => ?_⟩
            obtain ⟨s0, lb0, w0, bytes, mc0, hR0, hf0, hb0, hb⟩ := hprov (by omega)
            have := (hk.keep _ _ _ _ _ _ _ _ _ _ _ _ _ _ _ _ _ _ _ hR0 hf0 heq (by omega) hf).1 rfl
            cases this
        | false =>
          simp only [Bool.false_eq_true, false_and, if_false]
          refine ⟨trivial, by simp, fun b cc mc s2 hf => ?_⟩
          intro z hz
          obtain ⟨y, hy, rfl⟩ := List.mem_map.1 hz
          have hy2 := hgood.2 y (by simp [List.mem_of_mem_drop hy])
          obtain ⟨s0, lb0, w0, bytes, mc0, hR0, hf0, hb0, hb⟩ := hprov (by simp only [Seg.tail] at hy2; omega)
          have := (hk.keep _ _ _ _ _ _ _ _ _ _ _ _ _ _ _ _ _ _ _ hR0 hf0 heq (by omega) hf).2 rfl
          have h1 := hb y (List.mem_of_mem_drop hy)
          have h2 := f3 y hy
          rw [Seg.shift_tail _ _ h2]
          omega
    · intro hE hkc
      obtain ⟨_, _, _, e4⟩ := hfin hE
      have := c7 hE (by omega)
      omega
  · rintro m w rem out ⟨segs, sph, hR, hout, hInv, hgood, hsl, rfl, rfl, hfin, rfl⟩
    simp only [segSrc]
    rcases h.rest _ _ _ _ hR with ⟨e, hF, heq⟩ | ⟨w', s', heq, hR', hl, hw⟩
    · exact Or.inl ⟨e, hF, by simp only [heq]⟩
    right
    have hse := hl.segs_eq
    rw [List.take_length] at hse
    simp only [heq]
    rw [if_neg (by rw [hse]; omega)]
    obtain ⟨o1, o2⟩ := List.append_eq_nil_iff.1 hout.symm
    simp only [hse, List.take_length, if_true]
    rw [hfin, List.drop_length] at hInv o2 ⊢
    obtain ⟨l1, l2, l3⟩ := laws.finish _ _ _ _ hInv
    simp only [List.length_nil] at l1 l2 l3 o2
    rw [o2] at l1
    rw [List.take_length, List.append_nil] at l3
    rw [l1, o1]
    refine ⟨w', _, rfl, ⟨segs, _, hR', ?_, ?_, hgood, Nat.le_refl _, rfl, 0, rfl, by simp, by simp, ?_, ?_, by simp, by simp⟩, ?_, hw⟩
    · simp [l2]
    · simpa using l3
    · simp [l2]
    · simp [l2]
    · obtain ⟨avail, hav1, hav2, hav3, hav4⟩ := hl.bytes_eq
      exact ⟨by simp, by simp, avail, hav1, hav2, hav3, by simp⟩

/-- What a successful fill says about the source. -/
theorem fill_inv {S : SegSrc σ} {ops : MapOps α} {m : MapStream σ α} {eof bytes count maxc m'} (h : (segSrc S ops).fill m = .ok ((eof, bytes, count, maxc), m')) :
    ∃ mc, S.fill m.src = .ok ((eof, bytes, m'.srcScanned, mc), m'.src) ∧
      m'.segments = m.segments ++ (ops.grow m.aux eof bytes (((S.slices m'.src).2.take m'.srcScanned).drop m.srcScanned)).1 ∧ count = m'.segments.length := by
  simp only [segSrc] at h
  split at h
  · cases h
  · rename_i eof' bytes' count' maxc' s' heq
    split at h
    · cases h
    · cases h
      exact ⟨maxc', heq, rfl, rfl⟩

/-- What a successful consume says about the source. -/
theorem consume_inv {S : SegSrc σ} {ops : MapOps α} {m : MapStream σ α} {k k' c m'} (h : (segSrc S ops).consume m k = .ok ((k', c), m')) :
    ∃ c', S.consume m.src (min k m.maxConsume) = .ok ((k', c'), m'.src) := by
  simp only [segSrc] at h
  split at h
  · cases h
  · rename_i bytes srcCount s' heq
    split at h
    · cases h
    · split at h
      · cases h
      · split at h
        · cases h
        · cases h
          exact ⟨srcCount, heq⟩

theorem keeps {S : SegSrc σ} {K F R} (h : SegFaithful S K F R) (hk : SegKeeps S R) (hst : K.steady = true) {ops : MapOps α} {rest Inv H} (laws : MapLaws ops rest Inv H) :
    SegKeeps (segSrc S ops) (Rel S R rest Inv H) := by
  refine ⟨?_, ?_⟩
  · rintro m lb w rem out bytes count maxc m' ⟨segs, sph, hR, rfl, hInv, hgood, hsl, rfl, hlb, hfl⟩ hfill x hx
    obtain ⟨mc, hf, hseg, hcount⟩ := fill_inv hfill
    have hwit := hk.within _ _ _ _ _ _ _ _ _ hR hf
    rcases h.fill _ _ _ _ _ hR with ⟨e, hF, heq⟩ | ⟨eof, b2, c2, maxc2, cap, w', s', heq, hR', hl, hcb, hdrop, hmax, heof, hearly, hw, hw', hsteady, hmov⟩
    · rw [heq] at hf; cases hf
    rw [heq] at hf
    cases hf
    have hsc := hsteady hst
    have hse := hl.segs_eq
    obtain ⟨avail, hav1, hav2, -, -⟩ := hl.bytes_eq
    have hcl := hl.count_le
    rw [hse, List.take_take, Nat.min_self] at hseg
    have hsplit : segs.drop m.srcScanned = (segs.take m'.srcScanned).drop m.srcScanned ++ segs.drop m'.srcScanned := by
      conv => lhs; rw [← List.take_append_drop m'.srcScanned segs]
      rw [List.drop_append_of_le_length (by simp; omega)]
    rw [hsplit] at hInv hx
    obtain ⟨f1, f2, f3⟩ := laws.grow _ _ _ _ _ bytes hInv (by omega) (fun x hx => hwit x (List.mem_of_mem_drop hx))
    rw [← f1, ← List.append_assoc, ← hseg, hcount, List.take_left, hseg] at hx
    rcases List.mem_append.1 hx with hx | hx
    · exact hfl _ _ _ _ heq x hx
    · exact f3 x hx
  · rintro m lb w rem out eof bytes count maxc m1 k k' c m2 eof' bytes' count' maxc' m3 ⟨segs, sph, hR, -, -, -, -, rfl, -⟩ h1 h2 hk' h3
    obtain ⟨mc, hf, -, -⟩ := fill_inv h1
    obtain ⟨c', hc⟩ := consume_inv h2
    obtain ⟨mc', hf', -, -⟩ := fill_inv h3
    exact hk.keep _ _ _ _ _ _ _ _ _ _ _ _ _ _ _ _ _ _ _ hR hf hc hk' hf'

theorem serves {S : SegSrc σ} {K F} {s : σ} {w : Nat} {content : Bytes} {segs : List Seg} (h : SegServes S K F s w content segs) (hfull : K.full = true) (hh : K.honest = true)
    (hst : K.steady = true) (he : K.early = true) {ops : MapOps α} {rest Inv H} (laws : MapLaws ops rest Inv H)
    (hp : ∀ lent k, (∀ x ∈ lent, x.tail ≤ k + H) → K.policy lent k) (aux : α) (hInv : Inv aux [] segs content.length)
    (hgood : Good (rest aux segs content.length) content.length) (hz : K.strict = false := by first | rfl | assumption) :
    SegServes (segSrc S ops) (kind K) F (new s aux) w content (rest aux segs content.length) := by
  obtain ⟨R, h1, h2, h3⟩ := h
  refine ⟨_, faithful h1 h2 hfull hh hst he laws hp, keeps h1 h2 hst laws, ⟨segs, _, h3, ?_, ?_, hgood, ?_⟩⟩
  · simp [new]
  · simpa [new] using hInv
  · simp [new]

end MapStream

/-! ## The closure `map_segment` -/

theorem evaluate_spec (m : SegmentMapper) (g : Int × Int) : m.evaluate g g = (m.toSpec.1.on g, m.toSpec.2.on g) := by
  simp only [SegmentMapper.evaluate, SegmentMapperAnchor.evaluate, SegmentMapper.toSpec, RangeEnd.on]
  congr 1
  · by_cases h : m.start.anchor = 0 <;> simp [h]
  · by_cases h : m.stop.anchor = 0 <;> simp [h]

theorem mapSegment_spec (len tail : Nat) (g : Int × Int) (m : SegmentMapper) (ht : tail = len ∨ (len ≤ tail ∧ m.toSpec.2.on g ≤ len)) :
    mapSegment tail g m = clipped len (m.toSpec.1.on g) (m.toSpec.2.on g) := by
  simp only [mapSegment, clipped, evaluate_spec]
  by_cases h : max 0 (m.toSpec.1.on g) < min (len : Int) (m.toSpec.2.on g)
  · rw [if_pos h, if_pos (by omega)]
    congr 2 <;> omega
  · rw [if_neg h, if_neg (by omega)]

theorem filterMap_congr' {f g : β → Option γ} : ∀ {l : List β}, (∀ x ∈ l, f x = g x) → l.filterMap f = l.filterMap g
  | [], _ => rfl
  | x :: l, h => by
    simp only [List.filterMap_cons, h x (by simp), filterMap_congr' fun y hy => h y (List.mem_cons_of_mem x hy)]

theorem mapAll_spec (len tail : Nat) (g : Int × Int) (ms : List SegmentMapper) (ht : ∀ m ∈ ms, tail = len ∨ (len ≤ tail ∧ m.toSpec.2.on g ≤ len)) :
    ms.filterMap (mapSegment tail g) = images (ms.map SegmentMapper.toSpec) len g := by
  unfold images
  rw [List.filterMap_map]
  apply filterMap_congr'
  intro m hm
  exact mapSegment_spec len tail g m (ht m hm)

theorem clipped_mem {len : Nat} {a b : Int} {z : Seg} (h : clipped len a b = some z) :
    0 < z.len ∧ z.tail ≤ len ∧ (z.tail : Int) ≤ b ∧ (z.pos : Int) = max 0 a := by
  unfold clipped at h
  split at h
  · cases h
    simp only [Seg.tail]
    omega
  · cases h

theorem images_mem {ranges : List (RangeEnd × RangeEnd)} {len : Nat} {g : Int × Int} {z : Seg} (h : z ∈ images ranges len g) :
    ∃ r ∈ ranges, 0 < z.len ∧ z.tail ≤ len ∧ (z.tail : Int) ≤ r.2.on g ∧ (z.pos : Int) = max 0 (r.1.on g) := by
  obtain ⟨r, hr, h2⟩ := List.mem_filterMap.1 h
  exact ⟨r, hr, clipped_mem h2⟩

/-- `g` seen from a position `k` bytes further. -/
def back (k : Nat) (g : Int × Int) : Int × Int := (g.1 - k, g.2 - k)

theorem on_back (r : RangeEnd) (k : Nat) (g : Int × Int) : r.on (back k g) = r.on g - k := by
  simp only [RangeEnd.on, back]
  split <;> omega

theorem clipped_back (len k : Nat) (a b : Int) (hk : k ≤ len) (h : ∀ z, clipped len a b = some z → k ≤ z.pos) :
    clipped (len - k) (a - k) (b - k) = (clipped len a b).map (Seg.shift k) := by
  by_cases hc : max 0 a < min (len : Int) b
  · have := h _ (if_pos hc)
    simp only at this
    unfold clipped
    rw [if_pos hc, if_pos (by omega)]
    simp only [Option.map_some, Seg.shift]
    congr 2 <;> omega
  · unfold clipped
    rw [if_neg hc, if_neg (by omega)]
    rfl

theorem images_back (ranges : List (RangeEnd × RangeEnd)) (len k : Nat) (g : Int × Int) (hk : k ≤ len) (h : ∀ z ∈ images ranges len g, k ≤ z.pos) :
    images ranges (len - k) (back k g) = (images ranges len g).map (Seg.shift k) := by
  unfold images
  rw [List.map_filterMap]
  apply filterMap_congr'
  intro r hr
  rw [on_back, on_back]
  exact clipped_back _ _ _ _ hk fun z hz => h z (List.mem_filterMap.2 ⟨r, hr, hz⟩)

theorem flatMap_images_back (ranges : List (RangeEnd × RangeEnd)) (len k : Nat) (hk : k ≤ len) : ∀ (gs : List (Int × Int)),
    (∀ z ∈ gs.flatMap (images ranges len), k ≤ z.pos) →
    (gs.map (back k)).flatMap (images ranges (len - k)) = (gs.flatMap (images ranges len)).map (Seg.shift k)
  | [], _ => rfl
  | g :: gs, h => by
    simp only [List.map_cons, List.flatMap_cons, List.map_append]
    rw [images_back _ _ _ _ hk fun z hz => h z (by simp [hz]), flatMap_images_back ranges len k hk gs fun z hz => h z (by simp only [List.flatMap_cons, List.mem_append]; exact Or.inr hz)]

theorem min?_le_of_mem' {l : List Int} {x : Int} (h : x ∈ l) : l.min?.getD 0 ≤ x := by
  cases hm : l.min? with
  | none => rw [List.min?_eq_none_iff] at hm; subst hm; simp at h
  | some a => exact (List.min?_eq_some_iff.1 hm).2 x h

theorem phantom_le (ms : List SegmentMapper) (p g : Int × Int) (m : SegmentMapper) (hm : m ∈ ms) (h1 : p.1 ≤ g.1) (h2 : p.2 ≤ g.2) :
    (phantomLimit ms p : Int) ≤ max 0 (m.toSpec.1.on g) := by
  unfold phantomLimit
  have := min?_le_of_mem' (List.mem_map_of_mem (f := fun (m : SegmentMapper) => min (m.evaluate p p).1 (m.evaluate p p).2) hm)
  simp only [evaluate_spec] at this ⊢
  have h3 : m.toSpec.1.on p ≤ m.toSpec.1.on g := by
    simp only [RangeEnd.on]; split <;> omega
  omega

theorem le_phantom (ms : List SegmentMapper) (p : Int × Int) (b : Int) (hne : ms ≠ []) (h : ∀ m ∈ ms, b ≤ m.toSpec.1.on p ∧ b ≤ m.toSpec.2.on p) :
    b ≤ phantomLimit ms p := by
  unfold phantomLimit
  cases hm : (ms.map fun (m : SegmentMapper) => min (m.evaluate p p).1 (m.evaluate p p).2).min? with
  | none => rw [List.min?_eq_none_iff] at hm; simp at hm; exact absurd hm hne
  | some a =>
    obtain ⟨m, h1, rfl⟩ := List.mem_map.1 (List.min?_eq_some_iff.1 hm).1
    have := h m h1
    simp only [evaluate_spec, Option.getD_some]
    omega

/-! ## `--invert` -/

theorem gapsBefore_append (later : List Seg) : ∀ (news : List Seg) (p : Int), gapsBefore p (news ++ later) = gapsBefore p news ++ gapsBefore (lastEnd p news) later
  | [], _ => rfl
  | x :: xs, p => by simp only [List.cons_append, gapsBefore, lastEnd, gapsBefore_append later xs, List.append_assoc]

theorem lastEnd_append (later : List Seg) : ∀ (news : List Seg) (p : Int), lastEnd p (news ++ later) = lastEnd (lastEnd p news) later
  | [], _ => rfl
  | x :: xs, p => by simp only [List.cons_append, lastEnd, lastEnd_append later xs]

theorem gaps_append (p : Int) (news later : List Seg) (len : Nat) : gaps p (news ++ later) len = gapsBefore p news ++ gaps (lastEnd p news) later len := by
  simp only [gaps, gapsBefore_append, lastEnd_append, List.append_assoc]

theorem le_lastEnd : ∀ (news : List Seg) (p : Int), p ≤ lastEnd p news ∧ ∀ x ∈ news, (x.tail : Int) ≤ lastEnd p news
  | [], p => by simp [lastEnd]
  | x :: xs, p => by
    have := le_lastEnd xs (max p (x.tail : Int))
    simp only [lastEnd]
    refine ⟨by omega, ?_⟩
    intro y hy
    rcases List.mem_cons.1 hy with rfl | hy
    · omega
    · exact this.2 y hy

theorem lastEnd_le (b : Int) : ∀ (news : List Seg) (p : Int), p ≤ b → (∀ x ∈ news, (x.tail : Int) ≤ b) → lastEnd p news ≤ b
  | [], p, h, _ => h
  | x :: xs, p, h, h2 => by
    have := h2 x (by simp)
    exact lastEnd_le b xs _ (by omega) fun y hy => h2 y (by simp [hy])

theorem gapsBefore_mem : ∀ (news : List Seg) (p : Int) (g : Int × Int), g ∈ gapsBefore p news → p ≤ g.1 ∧ g.1 < g.2 ∧ ∃ x ∈ news, g.2 = (x.pos : Int)
  | [], p, g, h => by simp [gapsBefore] at h
  | x :: xs, p, g, h => by
    simp only [gapsBefore, List.mem_append] at h
    rcases h with h | h
    · split at h
      · simp only [List.mem_singleton] at h
        subst h
        exact ⟨Int.le_refl _, by omega, x, by simp, rfl⟩
      · simp at h
    · obtain ⟨h1, h2, y, hy, h3⟩ := gapsBefore_mem xs _ g h
      exact ⟨by omega, h2, y, by simp [hy], h3⟩

theorem gaps_mem {p : Int} {segs : List Seg} {len : Nat} {g : Int × Int} (h : g ∈ gaps p segs len) : p ≤ g.1 ∧ g.1 < g.2 := by
  rcases List.mem_append.1 h with h | h
  · have := gapsBefore_mem _ _ _ h
    exact ⟨this.1, this.2.1⟩
  · split at h
    · simp only [List.mem_singleton] at h
      subst h
      exact ⟨(le_lastEnd segs p).1, by assumption⟩
    · simp at h

theorem gapsBefore_back (k : Nat) : ∀ (segs : List Seg) (p : Int), (∀ x ∈ segs, k ≤ x.pos) →
    gapsBefore (p - k) (segs.map (Seg.shift k)) = (gapsBefore p segs).map (back k) ∧ lastEnd (p - k) (segs.map (Seg.shift k)) = lastEnd p segs - k
  | [], p, _ => by simp [gapsBefore, lastEnd]
  | x :: xs, p, h => by
    have hx := h x (by simp)
    have ht := Seg.shift_tail x k hx
    have hp : (Seg.shift k x).pos = x.pos - k := rfl
    have hm : max (p - (k : Int)) ((Seg.shift k x).tail : Int) = max p (x.tail : Int) - k := by
      rw [ht]; simp only [Seg.tail]; omega
    obtain ⟨h1, h2⟩ := gapsBefore_back k xs (max p (x.tail : Int)) fun y hy => h y (by simp [hy])
    simp only [List.map_cons, gapsBefore, lastEnd, hm, h1, h2, hp, List.map_append, and_true]
    congr 1
    by_cases hlt : p < (x.pos : Int)
    · rw [if_pos hlt, if_pos (by omega)]
      simp only [back, List.map_cons, List.map_nil]
      congr 2; omega
    · rw [if_neg hlt, if_neg (by omega)]; rfl

theorem gaps_back (k : Nat) (segs : List Seg) (p : Int) (len : Nat) (hk : k ≤ len) (h : ∀ x ∈ segs, k ≤ x.pos) :
    gaps (p - k) (segs.map (Seg.shift k)) (len - k) = (gaps p segs len).map (back k) := by
  obtain ⟨h1, h2⟩ := gapsBefore_back k segs p h
  simp only [gaps, h1, h2, List.map_append]
  congr 1
  by_cases hlt : lastEnd p segs < (len : Int)
  · rw [if_pos hlt, if_pos (by omega)]
    simp only [back, List.map_cons, List.map_nil]
    congr 2; omega
  · rw [if_neg hlt, if_neg (by omega)]; rfl

namespace Bridge

theorem scan_spec (ms : List SegmentMapper) (len tail : Nat) : ∀ (news : List Seg) (p : Int),
    (∀ g ∈ gapsBefore p news, ∀ m ∈ ms, tail = len ∨ (len ≤ tail ∧ m.toSpec.2.on g ≤ len)) →
    scan ms tail p news = ((gapsBefore p news).flatMap (images (ms.map SegmentMapper.toSpec) len), lastEnd p news)
  | [], p, _ => rfl
  | x :: xs, p, h => by
    have ih := scan_spec ms len tail xs (max p (x.tail : Int)) fun g hg => h g (by simp only [gapsBefore, List.mem_append]; exact Or.inr hg)
    simp only [scan, gapsBefore, lastEnd]
    by_cases hlt : p < (x.pos : Int)
    · rw [if_neg (by omega), if_pos hlt, ih]
      simp only [List.cons_append, List.nil_append, List.flatMap_cons]
      rw [mapAll_spec len tail (p, (x.pos : Int)) ms (h _ (by simp [gapsBefore, hlt]))]
    · rw [if_pos (by omega), if_neg hlt, ih]
      rfl

/-- What is still to come. -/
def rest (ms : List SegmentMapper) (p : Int) (later : List Seg) (len : Nat) : List Seg :=
  (gaps p later len).flatMap (images (ms.map SegmentMapper.toSpec) len)

/-- The invariant of the stream. -/
structure Inv (ms : List SegmentMapper) (H : Nat) (p : Int) (seen later : List Seg) (len : Nat) : Prop where
  seen_le : ∀ x ∈ seen, (x.tail : Int) ≤ p ∧ x.len ≤ H
  last_le : p ≤ len
  later_le : ∀ x ∈ later, x.tail ≤ len ∧ x.len ≤ H
  fits : ∀ g ∈ gapsBefore p later, ∀ m ∈ ms, m.toSpec.2.on g ≤ g.2
  len_le : len ≤ usizeMax

theorem laws (ms : List SegmentMapper) (hms : ms ≠ []) (H : Nat) (hH : ∀ m ∈ ms, -(H : Int) ≤ m.toSpec.1.on (0, 1) ∧ -(H : Int) ≤ m.toSpec.2.on (0, 1)) :
    MapLaws (ops ms) (rest ms) (Inv ms H) H := by
  have hon : ∀ (r : RangeEnd) (p : Int), r.on (p, p + 1) = r.on (0, 1) + p := by
    intro r p; simp only [RangeEnd.on]; split <;> omega
  refine ⟨?_, ?_, ?_, ?_, ?_⟩
  · intro p seen news later len bytes hI hb hn
    have hfit : ∀ g ∈ gapsBefore p news, ∀ m ∈ ms, m.toSpec.2.on g ≤ g.2 := fun g hg => hI.fits g (by rw [gapsBefore_append]; simp [hg])
    have hs := scan_spec ms len usizeMax news p fun g hg m hm => by
      obtain ⟨_, _, x, hx, h3⟩ := gapsBefore_mem _ _ _ hg
      have h1 := hfit g hg m hm
      have h2 := hn x hx
      simp only [Seg.tail] at h2
      exact Or.inr ⟨hI.len_le, by omega⟩
    simp only [ops, Bool.false_eq_true, false_and, if_false, hs]
    refine ⟨?_, ⟨?_, ?_, fun x hx => hI.later_le x (by simp [hx]), fun g hg => hI.fits g (by rw [gapsBefore_append]; simp [hg]), hI.len_le⟩, ?_⟩
    · simp only [rest, gaps_append, List.flatMap_append]
    · intro x hx
      have := le_lastEnd news p
      rcases List.mem_append.1 hx with hx | hx
      · have := hI.seen_le x hx
        omega
      · exact ⟨this.2 x hx, (hI.later_le x (by simp [hx])).2⟩
    · exact lastEnd_le _ _ _ hI.last_le fun x hx => by have := (hI.later_le x (by simp [hx])).1; omega
    · intro z hz
      obtain ⟨g, hg, hz⟩ := List.mem_flatMap.1 hz
      obtain ⟨r, hr, h1, h2, h3, h4⟩ := images_mem hz
      obtain ⟨m, hm, rfl⟩ := List.mem_map.1 hr
      obtain ⟨_, _, x, hx, h5⟩ := gapsBefore_mem _ _ _ hg
      have h6 := hfit g hg m hm
      have h7 := hn x hx
      simp only [Seg.tail] at h7 h3 ⊢
      omega
  · intro p seen news len hI
    have hs := scan_spec ms len len news p fun g hg m hm => Or.inl rfl
    have hle := lastEnd_le _ news p hI.last_le fun x hx => by have := (hI.later_le x hx).1; omega
    have hle2 := le_lastEnd news p
    simp only [ops, if_true, hs, true_and]
    have hrest : ∀ q : Int, (len : Int) ≤ q → rest ms q [] len = [] := by
      intro q hq
      simp only [rest, gaps, gapsBefore, lastEnd, List.nil_append]
      have : ¬ q < (len : Int) := by omega
      simp [this]
    have hseen : ∀ q : Int, lastEnd p news ≤ q → ∀ x ∈ seen ++ news, (x.tail : Int) ≤ q ∧ x.len ≤ H := by
      intro q hq x hx
      rcases List.mem_append.1 hx with hx | hx
      · have := hI.seen_le x hx
        omega
      · have h1 := hle2.2 x hx
        exact ⟨by omega, (hI.later_le x hx).2⟩
    by_cases hlt : lastEnd p news < (len : Int)
    · rw [if_pos hlt]
      refine ⟨?_, hrest _ (Int.le_refl _), hseen _ hle, Int.le_refl _, by simp, by simp [gapsBefore], hI.len_le⟩
      simp only [rest, gaps, if_pos hlt, List.flatMap_append, List.flatMap_cons, List.flatMap_nil, List.append_nil]
      rw [mapAll_spec len len _ ms fun _ _ => Or.inl rfl]
    · rw [if_neg hlt]
      refine ⟨?_, hrest _ (by simp only; omega), hseen _ (Int.le_refl _), hle, by simp, by simp [gapsBefore], hI.len_le⟩
      simp only [rest, gaps, if_neg hlt, List.append_nil]
  · intro p seen later len maxc hI hlat z hz
    obtain ⟨g, hg, hz⟩ := List.mem_flatMap.1 hz
    obtain ⟨r, hr, h1, h2, h3, h4⟩ := images_mem hz
    obtain ⟨m, hm, rfl⟩ := List.mem_map.1 hr
    obtain ⟨g1, g2⟩ := gaps_mem hg
    have := phantom_le ms (p, p + 1) g m hm g1 (by simp only; omega)
    simp only [ops]
    omega
  · intro p seen later len maxc hI hpos x hx
    have h1 := hI.seen_le x hx
    have h2 := hpos x hx
    have := le_phantom ms (p, p + 1) (p - H) hms fun m hm => by
      have := hH m hm
      rw [hon, hon]
      omega
    simp only [ops]
    simp only [Seg.tail] at h1 ⊢
    omega
  · intro p seen later len k c hI hk hseen hlat hrest
    simp only [ops]
    refine ⟨?_, ⟨?_, by have := hI.last_le; omega, ?_, ?_, by have := hI.len_le; omega⟩⟩
    · simp only [rest]
      rw [gaps_back k later p len hk hlat]
      exact flatMap_images_back _ _ _ hk _ hrest
    · intro x hx
      obtain ⟨y, hy, rfl⟩ := List.mem_map.1 hx
      have h1 := hI.seen_le y (List.mem_of_mem_drop hy)
      have h2 := hseen y hy
      rw [Seg.shift_tail _ _ h2]
      simp only [Seg.shift]
      simp only [Seg.tail] at h1 ⊢
      omega
    · intro x hx
      obtain ⟨y, hy, rfl⟩ := List.mem_map.1 hx
      have h1 := hI.later_le y hy
      have h2 := hlat y hy
      rw [Seg.shift_tail _ _ h2]
      simp only [Seg.shift]
      omega
    · rw [(gapsBefore_back k later p hlat).1]
      intro g hg m hm
      obtain ⟨g, hg', rfl⟩ := List.mem_map.1 hg
      have := hI.fits g hg' m hm
      rw [on_back]
      simp only [back]
      omega

end Bridge

/-! ## `--extend` -/

namespace Extend

/-- What is still to come. -/
def rest (ms : List SegmentMapper) (_ : Unit) (later : List Seg) (len : Nat) : List Seg := extend (ms.map SegmentMapper.toSpec) later len

/-- The invariant of the stream. -/
structure Inv (ms : List SegmentMapper) (D : Nat) (_ : Unit) (seen later : List Seg) (len : Nat) : Prop where
  seen_le : ∀ x ∈ seen, x.len ≤ D
  later_le : ∀ x ∈ later, x.tail ≤ len ∧ x.len ≤ D ∧ 0 < x.len
  fits : ∀ x ∈ later, ∀ m ∈ ms, m.toSpec.2.on ((x.pos : Int), (x.tail : Int)) ≤ x.tail
  sorted : (extend (ms.map SegmentMapper.toSpec) later len).Pairwise Seg.Le
  len_le : len ≤ usizeMax

theorem le_iff (a b : Seg) : le a b = true ↔ Seg.Le a b := by
  simp only [le, Seg.Le, Seg.tail, decide_eq_true_eq]
  omega

theorem grow_spec (ms : List SegmentMapper) (len tail : Nat) (news : List Seg)
    (h : ∀ x ∈ news, ∀ m ∈ ms, tail = len ∨ (len ≤ tail ∧ m.toSpec.2.on ((x.pos : Int), (x.tail : Int)) ≤ len))
    (hs : (extend (ms.map SegmentMapper.toSpec) news len).Pairwise Seg.Le) :
    stableSort le (news.flatMap fun x => ms.filterMap (mapSegment tail ((x.pos : Int), (x.tail : Int)))) = extend (ms.map SegmentMapper.toSpec) news len := by
  have he : (news.flatMap fun x => ms.filterMap (mapSegment tail ((x.pos : Int), (x.tail : Int)))) = extend (ms.map SegmentMapper.toSpec) news len := by
    unfold extend
    clear hs
    induction news with
    | nil => rfl
    | cons x xs ih =>
      simp only [List.flatMap_cons]
      rw [mapAll_spec len tail _ ms (h x (by simp)), ih fun y hy => h y (by simp [hy])]
  rw [he]
  exact stableSort_of_pairwise (hs.imp fun h => (le_iff _ _).2 h)

theorem extend_back (ranges : List (RangeEnd × RangeEnd)) (len k : Nat) (hk : k ≤ len) (later : List Seg) (hl : ∀ x ∈ later, k ≤ x.pos)
    (h : ∀ z ∈ extend ranges later len, k ≤ z.pos) : extend ranges (later.map (Seg.shift k)) (len - k) = (extend ranges later len).map (Seg.shift k) := by
  have h1 : ∀ (l : List Seg) (n : Nat), extend ranges l n = (l.map fun x => ((x.pos : Int), (x.tail : Int))).flatMap (images ranges n) := by
    intro l n; unfold extend; rw [List.flatMap_map]
  rw [h1] at h
  rw [h1, h1, ← flatMap_images_back ranges len k hk _ h]
  congr 1
  rw [List.map_map, List.map_map]
  apply List.map_congr_left
  intro x hx
  have := hl x hx
  simp only [Function.comp, back, Seg.shift, Seg.tail]
  congr 1 <;> omega

theorem laws (ms : List SegmentMapper) (hms : ms ≠ []) (H D : Nat) (hH : ∀ m ∈ ms, (D : Int) - H ≤ m.toSpec.1.on (0, 1) ∧ (D : Int) - H ≤ m.toSpec.2.on (0, 1)) (hD : D ≤ H) :
    MapLaws (ops ms) (rest ms) (Inv ms D) H := by
  have hon : ∀ (r : RangeEnd) (p : Int), r.on (p, p + 1) = r.on (0, 1) + p := by
    intro r p; simp only [RangeEnd.on]; split <;> omega
  refine ⟨?_, ?_, ?_, ?_, ?_⟩
  · intro p seen news later len bytes hI hb hn
    have hex : extend (ms.map SegmentMapper.toSpec) (news ++ later) len = extend (ms.map SegmentMapper.toSpec) news len ++ extend (ms.map SegmentMapper.toSpec) later len := by
      simp only [extend, List.flatMap_append]
    have hso := hI.sorted
    rw [hex] at hso
    obtain ⟨s1, s2, _⟩ := List.pairwise_append.1 hso
    have hg := grow_spec ms len usizeMax news (fun x hx m hm => by
      have h1 := hI.fits x (by simp [hx]) m hm
      have h2 := hn x hx
      exact Or.inr ⟨hI.len_le, by omega⟩) s1
    simp only [ops, Bool.false_eq_true, if_false, hg]
    refine ⟨hex.symm, ⟨?_, fun x hx => hI.later_le x (by simp [hx]), fun x hx => hI.fits x (by simp [hx]), s2, hI.len_le⟩, ?_⟩
    · intro x hx
      rcases List.mem_append.1 hx with hx | hx
      · exact hI.seen_le x hx
      · exact (hI.later_le x (by simp [hx])).2.1
    · intro z hz
      obtain ⟨x, hx, hz⟩ := List.mem_flatMap.1 hz
      obtain ⟨r, hr, h1, h2, h3, h4⟩ := images_mem hz
      obtain ⟨m, hm, rfl⟩ := List.mem_map.1 hr
      have h5 := hI.fits x (by simp [hx]) m hm
      have h6 := hn x hx
      omega
  · intro p seen news len hI
    have hg := grow_spec ms len len news (fun x hx m hm => Or.inl rfl) hI.sorted
    simp only [ops, if_true, hg]
    refine ⟨rfl, rfl, ⟨?_, by simp, by simp, by simp [extend], hI.len_le⟩⟩
    intro x hx
    rcases List.mem_append.1 hx with hx | hx
    · exact hI.seen_le x hx
    · exact (hI.later_le x (by simp [hx])).2.1
  · intro p seen later len maxc hI hlat z hz
    obtain ⟨x, hx, hz⟩ := List.mem_flatMap.1 hz
    obtain ⟨r, hr, h1, h2, h3, h4⟩ := images_mem hz
    obtain ⟨m, hm, rfl⟩ := List.mem_map.1 hr
    have h5 := hlat x hx
    have h6 := (hI.later_le x hx).2.2
    have := phantom_le ms ((maxc : Int), (maxc : Int) + 1) ((x.pos : Int), (x.tail : Int)) m hm (by simp only; omega) (by simp only [Seg.tail]; omega)
    simp only [ops]
    omega
  · intro p seen later len maxc hI hpos x hx
    have h1 := hI.seen_le x hx
    have h2 := hpos x hx
    have := le_phantom ms ((maxc : Int), (maxc : Int) + 1) ((maxc : Int) + D - H) hms fun m hm => by
      have := hH m hm
      rw [hon, hon]
      omega
    simp only [ops]
    simp only [Seg.tail]
    omega
  · intro p seen later len k c hI hk hseen hlat hrest
    have he := extend_back (ms.map SegmentMapper.toSpec) len k hk later hlat hrest
    refine ⟨he, ⟨?_, ?_, ?_, ?_, by have := hI.len_le; omega⟩⟩
    · intro x hx
      obtain ⟨y, hy, rfl⟩ := List.mem_map.1 hx
      exact hI.seen_le y (List.mem_of_mem_drop hy)
    · intro x hx
      obtain ⟨y, hy, rfl⟩ := List.mem_map.1 hx
      have h1 := hI.later_le y hy
      have h2 := hlat y hy
      rw [Seg.shift_tail _ _ h2]
      simp only [Seg.shift]
      omega
    · intro x hx m hm
      obtain ⟨y, hy, rfl⟩ := List.mem_map.1 hx
      have h1 := hI.fits y hy m hm
      have h2 := hlat y hy
      have h3 := on_back m.toSpec.2 k ((y.pos : Int), (y.tail : Int))
      have h4 : back k ((y.pos : Int), (y.tail : Int)) = (((Seg.shift k y).pos : Int), ((Seg.shift k y).tail : Int)) := by
        simp only [back, Seg.shift, Seg.tail]
        congr 1 <;> omega
      rw [← h4, h3, Seg.shift_tail _ _ h2]
      omega
    · rw [he]
      rw [List.pairwise_map]
      refine hI.sorted.imp_of_mem ?_
      intro a b ha hb hab
      have h1 := hrest a ha
      have h2 := hrest b hb
      simp only [Seg.Le, Seg.shift, Seg.tail] at hab ⊢
      omega

end Extend

end Nd
