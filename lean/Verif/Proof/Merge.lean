import Verif.Model.Merge
import Verif.Proof.SegTools
/-!
# Merging neighbouring slices
-/
namespace Nd
open Spec

namespace Spec

theorem mergeFrom_shift (n k : Nat) : ∀ (xs : List Seg) (a : Seg), k ≤ a.pos → (∀ x ∈ xs, k ≤ x.pos) →
    (mergeFrom n a xs).map (Seg.shift k) = mergeFrom n (a.shift k) (xs.map (Seg.shift k))
  | [], a, _, _ => rfl
  | x :: xs, a, ha, h => by
    have hx := h x (by simp)
    have hxs := fun y hy => h y (List.mem_cons_of_mem x hy)
    have h1 := Seg.shift_tail a k ha
    have h2 := Seg.shift_tail x k hx
    have hat : a.pos ≤ a.tail := by simp [Seg.tail]
    have hxt : x.pos ≤ x.tail := by simp [Seg.tail]
    simp only [mergeFrom, List.map_cons, h1]
    by_cases hc : x.pos ≤ a.tail + n
    · rw [if_pos hc, if_pos (by simp only [Seg.shift]; omega), mergeFrom_shift n k xs _ (by simpa using ha) hxs, h2]
      congr 1
      simp only [Seg.shift]
      congr 1
      omega
    · rw [if_neg hc, if_neg (by simp only [Seg.shift]; omega), List.map_cons, mergeFrom_shift n k xs _ hx hxs]

theorem merge_shift (n k : Nat) (xs : List Seg) (h : ∀ x ∈ xs, k ≤ x.pos) :
    (merge n xs).map (Seg.shift k) = merge n (xs.map (Seg.shift k)) := by
  cases xs with
  | nil => rfl
  | cons x xs => exact mergeFrom_shift n k xs x (h x (by simp)) fun y hy => h y (by simp [hy])

theorem mergeFrom_mem {n : Nat} {z : Seg} : ∀ {xs : List Seg} {a : Seg}, z ∈ mergeFrom n a xs → z.pos = a.pos ∨ ∃ x ∈ xs, z.pos = x.pos
  | [], a, h => by simp only [mergeFrom, List.mem_singleton] at h; exact Or.inl (by rw [h])
  | x :: xs, a, h => by
    simp only [mergeFrom] at h
    split at h
    · rcases mergeFrom_mem h with h | ⟨y, hy, h⟩
      · exact Or.inl h
      · exact Or.inr ⟨y, by simp [hy], h⟩
    · rcases List.mem_cons.1 h with h | h
      · exact Or.inl (by rw [h])
      · rcases mergeFrom_mem h with h | ⟨y, hy, h⟩
        · exact Or.inr ⟨x, by simp, h⟩
        · exact Or.inr ⟨y, by simp [hy], h⟩

theorem merge_mem {n : Nat} {z : Seg} {xs : List Seg} (h : z ∈ merge n xs) : ∃ x ∈ xs, z.pos = x.pos := by
  cases xs with
  | nil => simp [merge] at h
  | cons x xs =>
    rcases mergeFrom_mem h with h | ⟨y, hy, h⟩
    · exact ⟨x, by simp, h⟩
    · exact ⟨y, by simp [hy], h⟩

/-- More than `n` bytes between any two. -/
def Apart (n : Nat) (segs : List Seg) : Prop := segs.Pairwise fun a b => a.tail + n < b.pos

theorem mergeFrom_apart (n : Nat) : ∀ (xs : List Seg) (a : Seg), Sorted (a :: xs) → Apart n (mergeFrom n a xs)
  | [], a, _ => by simp [mergeFrom, Apart]
  | x :: xs, a, h => by
    have ⟨h1, h2⟩ := List.pairwise_cons.1 h
    have ⟨h3, h4⟩ := List.pairwise_cons.1 h2
    simp only [mergeFrom]
    split
    · apply mergeFrom_apart
      exact List.pairwise_cons.2 ⟨fun y hy => h1 y (by simp [hy]), h4⟩
    · refine List.pairwise_cons.2 ⟨?_, mergeFrom_apart n xs x h2⟩
      intro z hz
      rcases mergeFrom_mem hz with hz | ⟨y, hy, hz⟩
      · omega
      · have := h3 y hy; omega

theorem merge_apart (n : Nat) (xs : List Seg) (h : Sorted xs) : Apart n (merge n xs) := by
  cases xs with
  | nil => simp [merge, Apart]
  | cons x xs => exact mergeFrom_apart n xs x h

theorem Apart.sorted {n : Nat} {segs : List Seg} (h : Apart n segs) : Sorted segs :=
  h.imp fun {a b} hab => by simp only [Seg.tail] at hab; omega

theorem Apart.shift {n : Nat} {segs : List Seg} (h : Apart n segs) (c k : Nat) (hk : ∀ x ∈ segs.drop c, k ≤ x.pos) :
    Apart n ((segs.drop c).map (Seg.shift k)) := by
  unfold Apart
  rw [List.pairwise_map]
  have h' : (segs.drop c).Pairwise fun a b => a.tail + n < b.pos := List.Pairwise.sublist (List.drop_sublist _ _) h
  refine List.Pairwise.imp_of_mem ?_ h'
  intro a b ha hb hab
  have h1 := hk a ha
  have h2 := hk b hb
  rw [Seg.shift_tail a k h1]
  simp only [Seg.shift]
  have : a.pos ≤ a.tail := by simp [Seg.tail]
  omega

end Spec

/-- The segment starts where one of `pool` starts and ends where one of `pool` ends. -/
def Comp (pool : List Seg) (s : Seg) : Prop := (∃ x ∈ pool, x.pos = s.pos) ∧ ∃ y ∈ pool, y.tail = s.tail ∧ s.pos ≤ y.pos

theorem Comp.self {pool : List Seg} {s : Seg} (h : s ∈ pool) : Comp pool s := ⟨⟨s, h, rfl⟩, s, h, rfl, Nat.le_refl _⟩

theorem Comp.mono {p q : List Seg} {s : Seg} (h : Comp p s) (hs : ∀ x ∈ p, x ∈ q) : Comp q s := by
  obtain ⟨⟨x, hx, h1⟩, y, hy, h2⟩ := h
  exact ⟨⟨x, hs x hx, h1⟩, y, hs y hy, h2⟩

theorem Comp.shift {segs : List Seg} {m c k : Nat} {s : Seg} (h : Comp (segs.take m) s) (hc : ∀ y ∈ segs.take c, y.pos < k) (hk : k ≤ s.pos) :
    Comp ((((segs.drop c).map (Seg.shift k))).take (m - c)) (s.shift k) := by
  have hp : ((segs.drop c).map (Seg.shift k)).take (m - c) = ((segs.take m).drop c).map (Seg.shift k) := by
    rw [← List.map_take, List.drop_take]
  rw [hp]
  obtain ⟨⟨x, hx, h1⟩, y, hy, h2, h3⟩ := h
  refine ⟨⟨x.shift k, List.mem_map_of_mem (mem_take_drop hc hx (by omega)), by simp [Seg.shift, h1]⟩, y.shift k,
    List.mem_map_of_mem (mem_take_drop hc hy (by omega)), ?_, by simp only [Seg.shift]; omega⟩
  rw [Seg.shift_tail _ _ hk, Seg.shift_tail _ _ (by omega), h2]

namespace Accumulator

def seg (a : Accumulator) : Seg := { pos := a.start, len := a.stop - a.start }

/-- What the accumulator and the segments `xs` will become. -/
def rest (a : Accumulator) (xs : List Seg) : List Seg := if a.count = 0 then merge a.thresh xs else mergeFrom a.thresh a.seg xs

theorem seg_tail (a : Accumulator) (h : a.start ≤ a.stop) : a.seg.tail = a.stop := by simp only [seg, Seg.tail]; omega

theorem init_seg (a : Accumulator) (s : Seg) : (a.init s.pos s.tail).seg = s := by
  simp [init, seg, Seg.tail]

theorem appendAll_spec (pool : List Seg) : ∀ (xs : List Seg) (a : Accumulator) (out : List Seg), 0 < a.count → a.start ≤ a.stop → Comp pool a.seg →
    (∀ x ∈ xs, x ∈ pool) → Sorted (a.seg :: xs) →
    ∃ closed a', a.appendAll xs out = .ok (out ++ closed, a') ∧ 0 < a'.count ∧ a'.thresh = a.thresh ∧ a'.start ≤ a'.stop ∧ Comp pool a'.seg ∧
      (∀ z ∈ closed, Comp pool z) ∧ ∀ ys, mergeFrom a.thresh a.seg (xs ++ ys) = closed ++ mergeFrom a.thresh a'.seg ys
  | [], a, out, hc, hs, hp, _, _ => ⟨[], a, by simp [appendAll], hc, rfl, hs, hp, by simp, by simp⟩
  | x :: xs, a, out, hc, hs, hp, hxs, hso => by
    have hx := hxs x (by simp)
    have ht := a.seg_tail hs
    have ⟨h1, h2⟩ := List.pairwise_cons.1 hso
    have h1x : a.start ≤ x.pos := h1 x (by simp)
    have hxt : x.pos ≤ x.tail := by simp [Seg.tail]
    simp only [appendAll, append, List.cons_append, mergeFrom, ht]
    by_cases hm : x.pos ≤ a.stop + a.thresh
    · rw [if_pos (by omega)]
      have hseg : ({ a with count := a.count + 1, stop := max a.stop x.tail } : Accumulator).seg = { pos := a.seg.pos, len := max a.stop x.tail - a.seg.pos } := rfl
      have hcomp : Comp pool ({ a with count := a.count + 1, stop := max a.stop x.tail } : Accumulator).seg := by
        obtain ⟨⟨u, hu, hu1⟩, v, hv, hv1, hv2⟩ := hp
        refine ⟨⟨u, hu, hu1⟩, ?_⟩
        rw [seg_tail _ (by simp only; omega)]
        simp only
        by_cases hle : x.tail ≤ a.stop
        · exact ⟨v, hv, by rw [hv1, ht]; omega, hv2⟩
        · exact ⟨x, hx, by omega, h1x⟩
      obtain ⟨closed, a', g1, g2, g3, g4, g5, g6, g7⟩ := appendAll_spec pool xs { a with count := a.count + 1, stop := max a.stop x.tail } out
        (by simp) (by simp only; omega) hcomp (fun y hy => hxs y (by simp [hy]))
        (List.pairwise_cons.2 ⟨fun y hy => h1 y (by simp [hy]), (List.pairwise_cons.1 h2).2⟩)
      refine ⟨closed, a', g1, g2, g3, g4, g5, g6, fun ys => ?_⟩
      simp only [if_pos hm]
      rw [← g7 ys, hseg]
    · rw [if_neg (by omega)]
      simp only [pop]
      rw [if_neg (by omega)]
      simp only
      obtain ⟨closed, a', g1, g2, g3, g4, g5, g6, g7⟩ := appendAll_spec pool xs
        (({ a with count := 0, start := usizeMax, stop := usizeMax } : Accumulator).init x.pos x.tail) (out ++ [a.seg])
        (by simp [init]) (by simp only [init]; omega) (by rw [init_seg]; exact Comp.self hx) (fun y hy => hxs y (by simp [hy]))
        (by rw [init_seg]; exact h2)
      refine ⟨a.seg :: closed, a', ?_, g2, g3, g4, g5, ?_, fun ys => ?_⟩
      · rw [List.append_assoc] at g1; exact g1
      · intro z hz
        rcases List.mem_cons.1 hz with rfl | hz
        · exact hp
        · exact g6 z hz
      · rw [if_neg hm, List.cons_append]
        congr 1
        have := g7 ys
        rw [init_seg] at this
        exact this

end Accumulator

namespace MergeStream
open Accumulator

/-- The invariant of the accumulator with `len` bytes remaining. -/
structure AccOk (a : Accumulator) (pool : List Seg) (n len : Nat) : Prop where
  thresh : a.thresh = n
  empty : a.count = 0 → len ≤ a.start ∧ len ≤ a.stop
  busy : 0 < a.count → a.start ≤ a.stop ∧ Comp pool a.seg

theorem extend_spec (m : MergeStream σ) (segs slices : List Seg) (eof : Bool) (count maxc n len : Nat) (hsl : slices = segs.take count)
    (hcl : count ≤ segs.length) (hsc : m.srcScanned ≤ count) (hso : Sorted segs) (hacc : AccOk m.acc (segs.take m.srcScanned) n len)
    (hcomp : ∀ z ∈ m.segments, Comp (segs.take m.srcScanned) z) (hlen : len ≤ usizeMax) (hcap : maxc ≤ len)
    (hdrop : ∀ x ∈ segs.drop count, maxc ≤ x.pos) (heof : eof = true → count = segs.length) :
    ∃ m', m.extendSegmentBuf slices eof count maxc = .ok m' ∧ m'.src = m.src ∧ m'.srcScanned = count ∧
      m'.segments ++ m'.acc.rest (segs.drop count) = m.segments ++ m.acc.rest (segs.drop m.srcScanned) ∧
      m.segments.length ≤ m'.segments.length ∧ AccOk m'.acc (segs.take count) n len ∧ (∀ z ∈ m'.segments, Comp (segs.take count) z) ∧
      (0 < m'.acc.count → eof = false ∧ maxc ≤ m'.acc.furthest) := by
  subst hsl
  have hmono : ∀ x ∈ segs.take m.srcScanned, x ∈ segs.take count := fun x hx => by
    obtain ⟨i, hi, rfl⟩ := List.mem_take_iff_getElem.1 hx
    exact List.mem_take_iff_getElem.2 ⟨i, by omega, rfl⟩
  -- the loop
  have hmid : ∃ out a, m.scan (segs.take count) count = .ok (out, a) ∧
      out ++ a.rest (segs.drop count) = m.segments ++ m.acc.rest (segs.drop m.srcScanned) ∧
      m.segments.length ≤ out.length ∧ AccOk a (segs.take count) n len ∧ (∀ z ∈ out, Comp (segs.take count) z) := by
    unfold scan
    by_cases hlt : m.srcScanned < count
    · rw [if_pos hlt, if_neg (by simp; omega), List.take_take, Nat.min_self]
      have hsplit : segs.drop m.srcScanned = (segs.take count).drop m.srcScanned ++ segs.drop count := by
        conv => lhs; rw [← List.take_append_drop count segs]
        rw [List.drop_append_of_le_length (by simp; omega)]
      have hsorted : Sorted ((segs.take count).drop m.srcScanned) :=
        List.Pairwise.sublist ((List.drop_sublist _ _).trans (List.take_sublist _ _)) hso
      have hpool : ∀ x ∈ (segs.take count).drop m.srcScanned, x ∈ segs.take count := fun x hx => List.mem_of_mem_drop hx
      have hbefore : ∀ x ∈ segs.take m.srcScanned, ∀ y ∈ (segs.take count).drop m.srcScanned, x.pos ≤ y.pos := by
        intro x hx y hy
        refine hso.split m.srcScanned x hx y ?_
        rw [hsplit]
        exact List.mem_append_left _ hy
      rw [hsplit]
      cases hd : (segs.take count).drop m.srcScanned with
      | nil =>
        have := congrArg List.length hd
        simp at this
        omega
      | cons first tl =>
        rw [hd] at hsorted hpool hbefore
        simp only [resume]
        by_cases h0 : 0 < m.acc.count
        · rw [if_pos h0]
          simp only
          obtain ⟨hb1, hb2⟩ := hacc.busy h0
          have hsortacc : Sorted (m.acc.seg :: first :: tl) := by
            refine List.pairwise_cons.2 ⟨fun y hy => ?_, hsorted⟩
            obtain ⟨⟨x, hx, hxp⟩, _⟩ := hb2
            rw [← hxp]
            exact hbefore x hx y hy
          obtain ⟨closed, a', g1, g2, g3, g4, g5, g6, g7⟩ := appendAll_spec (segs.take count) (first :: tl) m.acc m.segments h0 hb1 (hb2.mono hmono) hpool hsortacc
          refine ⟨_, a', g1, ?_, by simp, ⟨by rw [g3, hacc.thresh], by omega, fun _ => ⟨g4, g5⟩⟩, ?_⟩
          · unfold Accumulator.rest
            rw [if_neg (by omega), if_neg (by omega), List.append_assoc, g3, ← g7]
          · intro z hz
            rcases List.mem_append.1 hz with hz | hz
            · exact (hcomp z hz).mono hmono
            · exact g6 z hz
        · rw [if_neg h0]
          simp only
          obtain ⟨closed, a', g1, g2, g3, g4, g5, g6, g7⟩ := appendAll_spec (segs.take count) tl (m.acc.init first.pos first.tail) m.segments (by simp [init])
            (by simp [init, Seg.tail]) (by rw [init_seg]; exact Comp.self (hpool _ (by simp))) (fun y hy => hpool y (by simp [hy])) (by rw [init_seg]; exact hsorted)
          refine ⟨_, a', g1, ?_, by simp, ⟨by rw [g3]; exact hacc.thresh, by omega, fun _ => ⟨g4, g5⟩⟩, ?_⟩
          · unfold Accumulator.rest
            rw [if_neg (by omega), if_pos (by omega), List.append_assoc, g3]
            have := g7 (segs.drop count)
            rw [init_seg] at this
            exact congrArg _ this.symm
          · intro z hz
            rcases List.mem_append.1 hz with hz | hz
            · exact (hcomp z hz).mono hmono
            · exact g6 z hz
    · rw [if_neg hlt]
      have heq : m.srcScanned = count := by omega
      rw [← heq]
      exact ⟨_, _, rfl, rfl, Nat.le_refl _, hacc, hcomp⟩
  obtain ⟨out, a, h1, h2, h3, h4, h5⟩ := hmid
  unfold extendSegmentBuf
  rw [h1]
  simp only
  unfold suspend
  by_cases h0 : a.count = 0
  · rw [if_pos h0]
    exact ⟨_, rfl, rfl, rfl, h2, h3, h4, h5, fun h => by simp only at h; omega⟩
  · rw [if_neg h0]
    by_cases hk : eof = false ∧ maxc ≤ a.furthest
    · rw [if_pos hk]
      exact ⟨_, rfl, rfl, rfl, h2, h3, h4, h5, fun _ => hk⟩
    · rw [if_neg hk]
      obtain ⟨hb1, hb2⟩ := h4.busy (by omega)
      simp only [pop]
      rw [if_neg (by omega)]
      simp only
      refine ⟨_, rfl, rfl, rfl, ?_, by simp; omega, ⟨h4.thresh, fun _ => ⟨hlen, hlen⟩, by simp⟩, ?_, by simp⟩
      · rw [← h2]
        simp only [Accumulator.rest, if_true, if_neg h0, List.append_assoc]
        congr 1
        show a.seg :: merge a.thresh (segs.drop count) = _
        cases hd : segs.drop count with
        | nil => rfl
        | cons y ys =>
          simp only [mergeFrom, merge]
          rw [if_neg]
          rw [seg_tail _ hb1]
          have he : eof = false := by
            cases eof with
            | false => rfl
            | true => rw [heof rfl, List.drop_length] at hd; cases hd
          have hf : ¬ maxc ≤ a.furthest := fun h => hk ⟨he, h⟩
          unfold furthest at hf
          rw [if_neg h0] at hf
          have := hdrop y (by rw [hd]; simp)
          omega
      · intro z hz
        rcases List.mem_append.1 hz with hz | hz
        · exact h5 z hz
        · rw [List.mem_singleton] at hz
          rw [hz]
          exact hb2

/-- What a merging stream guarantees over a source of kind `K`. -/
def kind (K : SegKind) : SegKind where
  full := K.full
  exact := K.exact && K.snap
  honest := K.moving
  steady := true
  early := true
  moving := false
  snap := K.snap
  policy := fun lent k => K.Free ∨ ∃ x ∈ lent, x.pos = k

/-- The states of a merging stream. -/
structure Rel (R : σ → SegPhase → Nat → Bytes → List Seg → Prop) (n : Nat) (m : MergeStream σ) (ph : SegPhase) (w : Nat) (rem : Bytes) (out : List Seg) : Prop where
  inner : ∃ segs sph, R m.src sph w rem segs ∧ Sorted segs ∧ rem.length ≤ usizeMax ∧ out = m.segments ++ m.acc.rest (segs.drop m.srcScanned) ∧
    AccOk m.acc (segs.take m.srcScanned) n rem.length ∧ (∀ z ∈ m.segments, Comp (segs.take m.srcScanned) z) ∧
    m.srcScanned ≤ segs.length ∧ Apart n out ∧
    match ph with
    | .idle lb => sph = .idle m.srcScanned ∧ lb ≤ m.segments.length
    | .lent eof count cap => count = m.segments.length ∧ (eof = true → m.srcScanned = segs.length) ∧ ∃ scap, sph = .lent eof m.srcScanned scap ∧ scap ≤ rem.length ∧
      ((m.acc.count = 0 ∧ cap = scap ∧ (m.maxConsume = cap ∨ cap = 0)) ∨
       (0 < m.acc.count ∧ eof = false ∧ cap = m.acc.start ∧ m.maxConsume = cap ∧ cap ≤ scap))
    | .done => sph = .done ∧ m.acc.count = 0 ∧ m.srcScanned = segs.length

theorem rest_mem {a : Accumulator} {xs : List Seg} {z : Seg} (h : z ∈ a.rest xs) : (0 < a.count ∧ z.pos = a.start) ∨ ∃ x ∈ xs, z.pos = x.pos := by
  unfold Accumulator.rest at h
  split at h
  · exact Or.inr (merge_mem h)
  · rcases mergeFrom_mem h with h | h
    · exact Or.inl ⟨by omega, h⟩
    · exact Or.inr h

theorem rest_first (a : Accumulator) (xs : List Seg) (h : 0 < a.count) : ∃ z ∈ a.rest xs, z.pos = a.start := by
  have key : ∀ (xs : List Seg) (b : Seg), ∃ z ∈ mergeFrom a.thresh b xs, z.pos = b.pos := by
    intro xs
    induction xs with
    | nil => intro b; exact ⟨b, by simp [mergeFrom], rfl⟩
    | cons x xs ih =>
      intro b
      simp only [mergeFrom]
      split
      · exact ih _
      · exact ⟨b, by simp, rfl⟩
  unfold Accumulator.rest
  rw [if_neg (by omega)]
  exact key xs a.seg

theorem rest_shift (a : Accumulator) (k : Nat) (xs : List Seg) (ha : 0 < a.count → k ≤ a.start ∧ a.start ≤ a.stop) (h : ∀ x ∈ xs, k ≤ x.pos) :
    (a.rest xs).map (Seg.shift k) = ({ a with start := a.start - k, stop := a.stop - k } : Accumulator).rest (xs.map (Seg.shift k)) := by
  unfold Accumulator.rest
  simp only
  split
  · exact merge_shift _ _ _ h
  · rename_i hc
    obtain ⟨h1, h2⟩ := ha (by omega)
    rw [mergeFrom_shift _ _ _ _ h1 h]
    congr 1
    simp only [seg, Seg.shift]
    congr 1
    omega

theorem faithful {S : SegSrc σ} {K F R} (h : SegFaithful S K F R) (hh : K.honest = true) (hst : K.steady = true) (he : K.early = true)
    (hp : ∀ lent k, (∃ x ∈ lent, x.pos = k) → K.policy lent k) (n : Nat)
    (hz : K.strict = false := by first | rfl | assumption) : SegFaithful (segSrc S) (kind K) F (Rel R n) := by
  refine ⟨?_, ?_, ?_⟩
  · rintro m lb w rem out ⟨segs, sph, hR, hso, hlen, rfl, hacc, hcomp, hsl, hap, rfl, hlb⟩
    simp only [segSrc]
    rcases h.fill _ _ _ _ _ hR with ⟨e, hF, heq⟩ | ⟨eof, bytes, count, maxc, cap, w', s', heq, hR', hl, hcb, hdrop, hmax, heof, hearly, hw, hw', hsteady, hmov⟩
    · exact Or.inl ⟨e, hF, by simp only [heq]⟩
    right
    have hmc : maxc = cap := by
      rcases hmax with h | ⟨_, _, h, _⟩
      · exact h
      · rw [hh] at h; cases h
    subst hmc
    obtain ⟨avail, hav1, hav2, hav3, hav4⟩ := hl.bytes_eq
    obtain ⟨m', h1, h2, h3, h4, h5, h6, h7, h8⟩ := extend_spec { m with src := s' } segs _ eof count maxc n rem.length hl.segs_eq hl.count_le
      (hsteady hst) hso hacc hcomp hlen (by omega) hdrop (fun he => (heof he).1)
    simp only [heq, h1]
    simp only at h2 h3 h4 h5
    rw [← h4] at hap ⊢
    have hsorted : ∀ z ∈ m'.segments, 0 < m'.acc.count → z.tail + n < m'.acc.start := by
      intro z hz hc
      obtain ⟨z', hz1, hz2⟩ := rest_first m'.acc (segs.drop count) hc
      have := (List.pairwise_append.1 hap).2.2 z hz z' hz1
      omega
    -- the permitted amount
    have hupd : ∃ m2 cap2, m'.updateMaxConsume eof bytes maxc = m2 ∧ m2.src = m'.src ∧ m2.segments = m'.segments ∧ m2.acc = m'.acc ∧ m2.srcScanned = m'.srcScanned ∧
        ((m'.acc.count = 0 ∧ cap2 = maxc ∧ (m2.maxConsume = cap2 ∨ (cap2 = 0 ∧ eof = false))) ∨
          (0 < m'.acc.count ∧ eof = false ∧ cap2 = m'.acc.start ∧ m2.maxConsume = cap2 ∧ cap2 ≤ maxc)) := by
      unfold updateMaxConsume
      by_cases hE : eof = true
      · subst hE
        have hc0 : m'.acc.count = 0 := by
          rcases Nat.eq_zero_or_pos m'.acc.count with h0 | h0
          · exact h0
          · have := (h8 h0).1; cases this
        exact ⟨_, maxc, rfl, rfl, rfl, rfl, rfl, Or.inl ⟨hc0, rfl, Or.inl (heof rfl).2.1.symm⟩⟩
      · have hE' : eof = false := by simpa using hE
        subst hE'
        simp only [Bool.false_eq_true, if_false]
        rcases Nat.eq_zero_or_pos m'.acc.count with h0 | h0
        · by_cases hle : maxc ≤ m'.acc.furthest
          · rw [if_pos hle]
            unfold furthest at hle
            rw [if_pos h0] at hle
            exact ⟨_, maxc, rfl, rfl, rfl, rfl, rfl, Or.inl ⟨h0, rfl, Or.inr ⟨by omega, trivial⟩⟩⟩
          · rw [if_neg hle]
            exact ⟨_, maxc, rfl, rfl, rfl, rfl, rfl, Or.inl ⟨h0, rfl, Or.inl rfl⟩⟩
        · rw [if_pos (h8 h0).2]
          refine ⟨_, m'.acc.start, rfl, rfl, rfl, rfl, rfl, Or.inr ⟨h0, trivial, rfl, rfl, ?_⟩⟩
          obtain ⟨⟨x, hx, hxp⟩, _⟩ := (h6.busy h0).2
          have := hearly he x hx
          rw [hxp] at this
          exact this
    obtain ⟨m2, cap2, hm2, e1, e2, e3, e4, hcap⟩ := hupd
    rw [hm2]
    have hcle : cap2 ≤ maxc := by rcases hcap with ⟨_, h, _⟩ | ⟨_, _, _, _, h⟩ <;> omega
    refine ⟨eof, bytes, m2.segments.length, m2.maxConsume, cap2, w', m2, rfl, ?_, ?_, by omega, ?_, ?_, ?_, ?_, hw, hw', ?_, by simp [kind]⟩
    · refine ⟨segs, .lent eof count maxc, by rw [e1, h2]; exact hR', hso, hlen, by rw [e2, e3, e4, h3], by rw [e3, e4, h3]; exact h6, ?_, ?_, hap, rfl, ?_, maxc, ?_, by omega, ?_⟩
      · rw [e2, e4, h3]; exact h7
      · rw [e4, h3]; exact hl.count_le
      · intro hE; rw [e4, h3]; exact (heof hE).1
      · rw [e4, h3]
      · rw [e3]
        rcases hcap with ⟨g1, g2, g3⟩ | g
        · exact Or.inl ⟨g1, g2, g3.imp id And.left⟩
        · exact Or.inr g
    · refine ⟨by rw [e2]; simp, by simp [e2], avail, hav1, hav2, ?_, ?_⟩
      · intro h0
        rw [e1, h2]
        exact hav3 h0
      · intro z hz
        rw [e2, List.take_left] at hz
        obtain ⟨_, y, hy, hyt, _⟩ := h7 z hz
        have := hav4 y hy
        omega
    · intro z hz
      rw [e2, List.drop_left] at hz
      rcases hcap with ⟨g1, g2, _⟩ | ⟨g1, _, g2, _, _⟩
      · rcases rest_mem hz with ⟨g, _⟩ | ⟨x, hx, hzx⟩
        · omega
        · have := hdrop x hx; omega
      · rcases rest_mem hz with ⟨_, g⟩ | ⟨x, hx, hzx⟩
        · omega
        · obtain ⟨⟨u, hu, hup⟩, _⟩ := (h6.busy g1).2
          have := hso.split count u hu x hx
          have : u.pos = m'.acc.start := hup
          omega
    · rcases hcap with ⟨g1, g2, g3 | ⟨g3, g4⟩⟩ | ⟨_, _, _, g, _⟩
      · exact Or.inl g3
      · by_cases hm : K.moving = true
        · have := hmov hm g4; omega
        · exact Or.inr ⟨g3, g4, by simpa [kind] using hm⟩
      · exact Or.inl g
    · intro hE
      obtain ⟨g1, g2, g3⟩ := heof hE
      rcases hcap with ⟨g, hc, _⟩ | ⟨_, g, _⟩
      · refine ⟨?_, by omega, g3⟩
        rw [e2, g1, List.drop_length]
        unfold Accumulator.rest
        rw [if_pos g]
        simp [merge]
      · rw [hE] at g; cases g
    · intro _ z hz
      rw [e2, List.take_left] at hz
      rcases hcap with ⟨g1, g2, _⟩ | ⟨g1, _, g2, _, _⟩
      · obtain ⟨⟨x, hx, hxp⟩, _⟩ := h7 z hz
        have := hearly he x hx
        omega
      · have := hsorted z hz g1
        simp only [Seg.tail] at this
        omega
    · intro _
      rw [e2]
      omega
  · rintro m eof count cap w rem out k ⟨segs, sph, hR, hso, hlen, rfl, hacc, hcomp, hsl, hap, rfl, hfin, scap, rfl, hscap, hcap⟩ hk
    replace hk := hk.imp And.left id
    have hkk : ∃ kk, min k m.maxConsume = kk ∧ kk ≤ k ∧ (scap = 0 ∨ kk = scap ∨ (kk ≤ scap ∧ K.policy (segs.take m.srcScanned) kk)) ∧
        (cap ≤ k → cap ≤ kk) ∧ (k ≤ cap → kk = k) ∧ (cap = 0 ∨ kk ≤ cap) := by
      refine ⟨_, rfl, by omega, ?_, by omega, by omega, by omega⟩
      have hpol : k ≤ scap → (kind K).policy ((m.segments ++ m.acc.rest (segs.drop m.srcScanned)).take m.segments.length) k →
          scap = 0 ∨ k = scap ∨ (k ≤ scap ∧ K.policy (segs.take m.srcScanned) k) := by
        intro hle hpo
        rw [List.take_left] at hpo
        rcases hpo with hf | ⟨x, hx, hxk⟩
        · exact Or.inr (Or.inr ⟨hle, hf _ _⟩)
        · obtain ⟨⟨u, hu, hup⟩, _⟩ := hcomp x hx
          exact Or.inr (Or.inr ⟨hle, hp _ _ ⟨u, hu, by omega⟩⟩)
      rcases hcap with ⟨g1, rfl, g3⟩ | ⟨g1, _, g2, g3, g4⟩
      · by_cases hc0 : cap = 0
        · exact Or.inl hc0
        · have hmc : m.maxConsume = cap := by omega
          rcases hk with hk | hk | ⟨hk, hpo⟩
          · omega
          · exact Or.inr (Or.inl (by omega))
          · rw [show min k m.maxConsume = k by omega]
            exact hpol hk hpo
      · have hfirst : K.policy (segs.take m.srcScanned) m.acc.start := hp _ _ (by
          obtain ⟨⟨u, hu, hup⟩, _⟩ := (hacc.busy g1).2
          exact ⟨u, hu, hup⟩)
        rcases hk with hk | hk | ⟨hk, hpo⟩
        · rw [show min k m.maxConsume = m.acc.start by omega]
          exact Or.inr (Or.inr ⟨by omega, hfirst⟩)
        · rw [show min k m.maxConsume = m.acc.start by omega]
          exact Or.inr (Or.inr ⟨by omega, hfirst⟩)
        · rw [show min k m.maxConsume = k by omega]
          exact hpol (by omega) hpo
    obtain ⟨kk, hkeq, hk1, hk2, hk3, hk4, hk5⟩ := hkk
    obtain ⟨k', c, w', s', heq, c1, c2, c3, c4, c5, hR', c6, c7, c8, c9⟩ := h.consume _ _ _ _ _ _ _ kk hR (hk2.imp (fun h => ⟨h, hz⟩) id)
    have hsorted := hap.sorted
    have hsortedL : Sorted m.segments := (List.pairwise_append.1 hsorted).1
    obtain ⟨fr, hcut, f1, f2, f3⟩ := cutSegs_spec k' m.segments hsortedL
    have hkcap : k' ≤ cap := by
      rcases hcap with ⟨_, g, _⟩ | ⟨_, _, _, g, _⟩ <;> omega
    have hkrem : k' ≤ rem.length := by omega
    have hbusy : 0 < m.acc.count → k' ≤ m.acc.start ∧ m.acc.start ≤ m.acc.stop := by
      intro h0
      rcases hcap with ⟨g, _⟩ | ⟨_, _, g2, _, _⟩
      · omega
      · exact ⟨by omega, (hacc.busy h0).1⟩
    have hunw : m.acc.unwind k' = .ok { m.acc with start := m.acc.start - k', stop := m.acc.stop - k' } := by
      unfold unwind
      rw [if_neg]
      rcases Nat.eq_zero_or_pos m.acc.count with h0 | h0
      · have := hacc.empty h0; omega
      · have := hbusy h0; omega
    have hxs : ∀ x ∈ segs.drop m.srcScanned, k' ≤ x.pos := by
      intro x hx
      apply c5
      have : segs.drop m.srcScanned = (segs.drop c).drop (m.srcScanned - c) := by
        rw [List.drop_drop]; congr 1; omega
      rw [this] at hx
      exact List.mem_of_mem_drop hx
    have hrest : ∀ z ∈ m.acc.rest (segs.drop m.srcScanned), k' ≤ z.pos := by
      intro z hz
      rcases rest_mem hz with ⟨g, hg⟩ | ⟨x, hx, hg⟩
      · have := hbusy g; omega
      · have := hxs x hx; omega
    have hdrop : (m.segments ++ m.acc.rest (segs.drop m.srcScanned)).drop fr = m.segments.drop fr ++ m.acc.rest (segs.drop m.srcScanned) :=
      List.drop_append_of_le_length f1
    have hall : ∀ z ∈ (m.segments ++ m.acc.rest (segs.drop m.srcScanned)).drop fr, k' ≤ z.pos := by
      intro z hz
      rw [hdrop] at hz
      rcases List.mem_append.1 hz with hz | hz
      · exact f3 z hz
      · exact hrest z hz
    have hlast : ∀ z ∈ m.segments, 0 < m.acc.count → z.tail + n < m.acc.start := by
      intro z hz hc
      obtain ⟨z', hz1, hz2⟩ := rest_first m.acc (segs.drop m.srcScanned) hc
      have := (List.pairwise_append.1 hap).2.2 z hz z' hz1
      omega
    refine ⟨k', fr, w', { src := s', segments := (m.segments.drop fr).map (Seg.shift k'), acc := { m.acc with start := m.acc.start - k', stop := m.acc.stop - k' }, srcScanned := m.srcScanned - c, maxConsume := m.maxConsume - k' }, ?_, by omega, hkcap, f1, ?_, hall, ?_, c6, ?_, ?_, ?_⟩
    · simp only [segSrc, hkeq, heq]
      rw [if_neg (by omega)]
      simp only [hcut, hunw]
      rw [if_neg (by omega)]
    · intro z hz
      rw [List.take_append_of_le_length f1] at hz
      exact f2 z hz
    · refine ⟨(segs.drop c).map (Seg.shift k'), if eof = true ∧ k' = scap then .done else .idle (m.srcScanned - c), hR', hso.shift c k',
        by simp; omega, ?_, ?_, ?_, by simp; omega, hap.shift fr k' hall, ?_⟩
      · rw [hdrop, List.map_append]
        congr 1
        rw [rest_shift m.acc k' _ hbusy hxs]
        congr 1
        rw [← List.map_drop, List.drop_drop]
        congr 2
        simp only
        omega
      · refine ⟨hacc.thresh, fun h0 => ?_, fun h0 => ?_⟩
        · have := hacc.empty h0
          simp
          omega
        · have hb := hbusy h0
          refine ⟨by simp only; omega, ?_⟩
          have := (hacc.busy h0).2.shift c4 (k := k') hb.1
          have hs : ({ m.acc with start := m.acc.start - k', stop := m.acc.stop - k' } : Accumulator).seg = m.acc.seg.shift k' := by
            simp only [seg, Seg.shift]
            congr 1
            omega
          rw [hs]
          exact this
      · intro z hz
        obtain ⟨z0, hz0, rfl⟩ := List.mem_map.1 hz
        exact (hcomp z0 (List.mem_of_mem_drop hz0)).shift c4 (f3 z0 hz0)
      · by_cases hE : eof = true
        · subst hE
          have hc0 : m.acc.count = 0 ∧ cap = scap := by
            rcases hcap with ⟨g, g2, _⟩ | ⟨_, g, _⟩
            · exact ⟨g, g2⟩
            · cases g
          have := hfin rfl
          rw [hc0.2]
          by_cases hks : k' = scap
          · simp only [hks, and_self, if_true]
            exact ⟨trivial, hc0.1, by simp; omega⟩
          · simp only [hks, and_false, if_false]
            exact ⟨trivial, by simp⟩
        · rw [if_neg (fun hx => hE hx.1), if_neg (fun hx => hE hx.1)]
          exact ⟨rfl, by simp⟩
    · intro hE hkc
      rcases hcap with ⟨g, g2, _⟩ | ⟨_, g, _⟩
      · have := c7 hE (by have := hk4 (by omega); omega)
        omega
      · rw [hE] at g; cases g
    · intro hx hck
      simp only [kind, Bool.and_eq_true] at hx
      have hkk := hk3 hck
      apply cut_all f3 f1
      intro z hz
      rcases hcap with ⟨g, g2, _⟩ | ⟨g, g1, g2, g3, g4⟩
      · have hc := c8 hx.1 (by omega)
        obtain ⟨⟨x, hx, hxp⟩, _⟩ := hcomp z hz
        rw [← hc] at hx
        have := c4 x hx
        omega
      · have h1 := hlast z hz g
        obtain ⟨⟨u, hu, hup⟩, _⟩ := (hacc.busy g).2
        obtain ⟨_, y, hy, hyt, _⟩ := hcomp z hz
        have hup : u.pos = m.acc.start := hup
        have hkk2 : kk = m.acc.start := by omega
        have := c9 hx.2 g1 (by omega) u hu y hy (by omega) (by omega)
        simp only [Seg.tail] at h1
        omega
    · intro hsn hE hkc x hx y hy hxk hyk
      rw [List.take_left] at hx hy
      have hkk := hk4 hkc
      obtain ⟨⟨u, hu, hup⟩, _⟩ := hcomp x hx
      obtain ⟨_, v, hv, hvt, _⟩ := hcomp y hy
      have := c9 hsn hE (by rcases hcap with ⟨_, g, _⟩ | ⟨_, _, _, _, g⟩ <;> omega) u hu v hv (by omega) (by omega)
      omega
  · rintro m w rem out ⟨segs, sph, hR, hso, hlen, rfl, hacc, hcomp, hsl, hap, rfl, hc0, hfin⟩
    simp only [segSrc]
    rcases h.rest _ _ _ _ hR with ⟨e, hF, heq⟩ | ⟨w', s', heq, hR', hl, hw⟩
    · exact Or.inl ⟨e, hF, by simp only [heq]⟩
    right
    obtain ⟨avail, hav1, hav2, hav3, hav4⟩ := hl.bytes_eq
    have hnil : m.acc.rest (segs.drop m.srcScanned) = [] := by
      unfold Accumulator.rest
      rw [if_pos hc0, hfin, List.drop_length]
      rfl
    have hext : ({ m with src := s' } : MergeStream σ).extendSegmentBuf (S.slices s').2 true segs.length 0 = .ok { m with src := s' } := by
      unfold extendSegmentBuf scan
      rw [if_neg (by simp only; omega)]
      simp only [suspend, hc0, if_true]
      rw [← hfin]
    simp only [heq, hext, updateMaxConsume, if_true]
    have hpool : segs.take m.srcScanned = segs.take segs.length := by rw [hfin]
    rw [hnil, List.append_nil] at hap ⊢
    refine ⟨w', _, rfl, ⟨segs, .lent true segs.length 0, hR', hso, hlen, ?_, hacc, hcomp, hsl, hap, rfl, fun _ => hfin, 0, ?_, by omega, Or.inl ⟨hc0, rfl, Or.inl rfl⟩⟩, ?_, hw⟩
    · simp only
      rw [hnil, List.append_nil]
    · simp only
      rw [hfin]
    · refine ⟨Nat.le_refl _, by simp, avail, hav1, hav2, hav3, ?_⟩
      intro z hz
      rw [List.take_length] at hz
      obtain ⟨_, y, hy, hyt, _⟩ := hcomp z hz
      rw [hpool] at hy
      have := hav4 y hy
      omega

/-- A merging stream over a stream of sorted segments delivers the merged segments. -/
theorem delivers {S : SegSrc σ} {K F} {s : σ} {w : Nat} {content : Bytes} {segs : List Seg} (h : SegDelivers S K F s w content segs)
    (hh : K.honest = true) (hst : K.steady = true) (he : K.early = true) (hp : ∀ lent k, (∃ x ∈ lent, x.pos = k) → K.policy lent k)
    (hso : Sorted segs) (hlen : content.length ≤ usizeMax) (n : Nat) (hz : K.strict = false := by first | rfl | assumption) :
    SegDelivers (segSrc S) (kind K) F (new s n) w content (merge n segs) := by
  obtain ⟨R, hR, hs⟩ := h
  refine ⟨_, faithful hR hh hst he hp n, segs, .idle 0, hs, hso, hlen, ?_, ⟨rfl, fun _ => ⟨hlen, hlen⟩, by simp [new, Accumulator.new]⟩, by simp [new],
    by simp [new], merge_apart n segs hso, rfl, by simp⟩
  simp [new, Accumulator.rest, Accumulator.new]

end MergeStream

namespace Spec

theorem mergeFrom_covers (n : Nat) : ∀ (xs : List Seg) (a : Seg), Sorted (a :: xs) → ∀ x ∈ a :: xs, ∃ z ∈ mergeFrom n a xs, z.pos ≤ x.pos ∧ x.tail ≤ z.tail
  | [], a, _, x, hx => by
    simp only [List.mem_singleton] at hx
    subst hx
    exact ⟨x, by simp [mergeFrom], Nat.le_refl _, Nat.le_refl _⟩
  | y :: ys, a, h, x, hx => by
    have ⟨h1, h2⟩ := List.pairwise_cons.1 h
    have ⟨h3, h4⟩ := List.pairwise_cons.1 h2
    have hy := h1 y (by simp)
    have hat : a.pos ≤ a.tail := by simp [Seg.tail]
    have hyt : y.pos ≤ y.tail := by simp [Seg.tail]
    simp only [mergeFrom]
    split
    · have ih := mergeFrom_covers n ys { pos := a.pos, len := max a.tail y.tail - a.pos }
        (List.pairwise_cons.2 ⟨fun z hz => h1 z (by simp [hz]), h4⟩)
      have ht : ({ pos := a.pos, len := max a.tail y.tail - a.pos } : Seg).tail = max a.tail y.tail := by simp only [Seg.tail] at *; omega
      obtain ⟨z, hz1, hz2, hz3⟩ := ih _ (List.mem_cons_self)
      rw [ht] at hz3
      simp only at hz2
      rcases List.mem_cons.1 hx with rfl | hx
      · exact ⟨z, hz1, hz2, by omega⟩
      · rcases List.mem_cons.1 hx with rfl | hx
        · exact ⟨z, hz1, by omega, by omega⟩
        · exact ih x (by simp [hx])
    · rcases List.mem_cons.1 hx with rfl | hx
      · exact ⟨x, by simp, Nat.le_refl _, Nat.le_refl _⟩
      · obtain ⟨z, hz, hz'⟩ := mergeFrom_covers n ys y h2 x hx
        exact ⟨z, by simp [hz], hz'⟩

/-- Whether some of `xs` touches the positions `p .. p + n`. -/
def Touched (xs : List Seg) (n p : Nat) : Prop := ∃ x ∈ xs, x.pos ≤ p + n ∧ p < x.tail

theorem mergeFrom_dense (n : Nat) (pool : List Seg) : ∀ (xs : List Seg) (a : Seg), (∀ x ∈ xs, x ∈ pool) → Comp pool a →
    (∀ p, a.pos ≤ p → p < a.tail → Touched pool n p) → Sorted (a :: xs) →
    ∀ z ∈ mergeFrom n a xs, Comp pool z ∧ ∀ p, z.pos ≤ p → p < z.tail → Touched pool n p
  | [], a, _, hc, ha, _, z, hz => by
    simp only [mergeFrom, List.mem_singleton] at hz
    subst hz
    exact ⟨hc, ha⟩
  | y :: ys, a, hp, hc, ha, h, z, hz => by
    have ⟨h1, h2⟩ := List.pairwise_cons.1 h
    have ⟨h3, h4⟩ := List.pairwise_cons.1 h2
    have hy := h1 y (by simp)
    have hyp := hp y (by simp)
    have hat : a.pos ≤ a.tail := by simp [Seg.tail]
    have hyt : y.pos ≤ y.tail := by simp [Seg.tail]
    simp only [mergeFrom] at hz
    split at hz
    · have ht : ({ pos := a.pos, len := max a.tail y.tail - a.pos } : Seg).tail = max a.tail y.tail := by simp only [Seg.tail] at *; omega
      refine mergeFrom_dense n pool ys { pos := a.pos, len := max a.tail y.tail - a.pos } (fun x hx => hp x (by simp [hx])) ?_ ?_ (List.pairwise_cons.2 ⟨fun z hz => h1 z (by simp [hz]), h4⟩) z hz
      · obtain ⟨⟨u, hu, hu1⟩, v, hv, hv1, hv2⟩ := hc
        refine ⟨⟨u, hu, hu1⟩, ?_⟩
        rw [ht]
        by_cases hle : y.tail ≤ a.tail
        · exact ⟨v, hv, by omega, hv2⟩
        · exact ⟨y, hyp, by omega, hy⟩
      · intro p hp1 hp2
        rw [ht] at hp2
        by_cases hlt : p < a.tail
        · exact ha p hp1 hlt
        · exact ⟨y, hyp, by omega, by omega⟩
    · rcases List.mem_cons.1 hz with rfl | hz
      · exact ⟨hc, ha⟩
      · exact mergeFrom_dense n pool ys y (fun x hx => hp x (by simp [hx])) (Comp.self hyp) (fun p hp1 hp2 => ⟨y, hyp, by omega, hp2⟩) h2 z hz

end Spec

end Nd
