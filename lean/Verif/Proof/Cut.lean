import Verif.Model.Cut
import Verif.Spec.Byte
import Verif.Proof.StreamBuf
/-! Protocol proof of `CutStream`. -/
namespace Nd

namespace Spec

theorem keep_append {α : Type u} (P : Nat → Bool) : ∀ (l m : List α) (i : Nat), keep P i (l ++ m) = keep P i l ++ keep P (i + l.length) m
  | [], m, i => by simp [keep]
  | b :: l, m, i => by
    have := keep_append P l m (i + 1)
    simp only [List.cons_append, keep, this, List.length_cons]
    rw [show i + 1 + l.length = i + (l.length + 1) by omega]
    split <;> simp

theorem keep_congr {α : Type u} {P Q : Nat → Bool} : ∀ (l : List α) (i : Nat), (∀ j, i ≤ j → j < i + l.length → P j = Q j) →
    keep P i l = keep Q i l
  | [], _, _ => rfl
  | b :: l, i, h => by
    simp only [keep]
    rw [h i (Nat.le_refl _) (by simp), keep_congr l (i + 1) (fun j h1 h2 => h j (by omega) (by simp; omega))]

theorem keep_true {α : Type u} : ∀ (l : List α) (i : Nat), keep (fun _ => true) i l = l
  | [], _ => rfl
  | b :: l, i => by simp [keep, keep_true l (i + 1)]

theorem keep_false {α : Type u} : ∀ (l : List α) (i : Nat), keep (fun _ => false) i l = []
  | [], _ => rfl
  | b :: l, i => by simp [keep, keep_false l (i + 1)]

end Spec

open Spec

/-- Position of an anchor in a stream of `total` bytes. -/
def Anchor.at (total : Nat) : Anchor → Nat
  | .fromStart x => x
  | .fromEnd x => total - x

def RangeMapper.covers (total : Nat) (r : RangeMapper) (i : Nat) : Bool :=
  decide (r.start.at total ≤ i ∧ i < r.stop.at total)

theorem RangeMapper.covers_iff {total : Nat} {r : RangeMapper} {i : Nat} :
    r.covers total i = true ↔ r.start.at total ≤ i ∧ i < r.stop.at total := by simp [covers]

theorem keyLe_iff {a b : Nat × Nat} : keyLe a b = true ↔ a.1 < b.1 ∨ (a.1 = b.1 ∧ a.2 ≤ b.2) := by simp [keyLe]

def RangeMapper.Left (r : RangeMapper) : Prop := ∃ x y, r = ⟨.fromStart x, .fromStart y⟩

theorem RangeMapper.left_of_not {r : RangeMapper} (h : r.hasRightAnchor = false) : r.Left := by
  rcases r with ⟨x | x, y | y⟩ <;> simp [hasRightAnchor] at h
  exact ⟨x, y, rfl⟩

theorem RangeMapper.toLeft_left (r : RangeMapper) (n : Nat) : (r.toLeftAnchored n).Left := by
  rcases r with ⟨x | x, y | y⟩ <;> exact ⟨_, _, rfl⟩

theorem RangeMapper.toLeft_covers (r : RangeMapper) (n i : Nat) (m : Nat) : (r.toLeftAnchored n).covers m i = r.covers n i := by
  rcases r with ⟨x | x, y | y⟩ <;> rfl

def coverAny (total : Nat) (fs : List RangeMapper) (i : Nat) : Bool := fs.any fun f => f.covers total i

theorem keyLe_trans (a b c : Nat × Nat) (h1 : keyLe a b = true) (h2 : keyLe b c = true) : keyLe a c = true := by
  simp only [keyLe, decide_eq_true_eq] at *; omega

theorem keyLe_total (a b : Nat × Nat) : (keyLe a b || keyLe b a) = true := by
  simp only [keyLe, Bool.or_eq_true, decide_eq_true_eq]; omega

namespace Cutter

/-- Sorted, left-anchored. -/
def Stack (fs : List RangeMapper) : Prop :=
  (∀ f ∈ fs, f.Left) ∧ fs.Pairwise fun a b => keyLe a.sortKey b.sortKey = true

theorem sortFilters_stack {fs : List RangeMapper} (h : ∀ f ∈ fs, f.Left) : Stack (sortFilters fs) :=
  ⟨fun f hf => h f ((stableSort_perm _ _).mem_iff.1 hf),
    stableSort_pairwise (le := fun a b : RangeMapper => keyLe a.sortKey b.sortKey)
      (fun _ _ _ => keyLe_trans _ _ _) (fun _ _ => keyLe_total _ _) fs⟩

theorem sortFilters_cover (total : Nat) (fs : List RangeMapper) (i : Nat) : coverAny total (sortFilters fs) i = coverAny total fs i := by
  unfold coverAny sortFilters
  rw [Bool.eq_iff_iff, List.any_eq_true, List.any_eq_true]
  exact ⟨fun ⟨f, h1, h2⟩ => ⟨f, (stableSort_perm _ _).mem_iff.1 h1, h2⟩,
    fun ⟨f, h1, h2⟩ => ⟨f, (stableSort_perm _ _).mem_iff.2 h1, h2⟩⟩

theorem Stack.start_le {x y : Nat} {fs : List RangeMapper} (h : Stack (⟨.fromStart x, .fromStart y⟩ :: fs)) {total i : Nat}
    (hc : coverAny total fs i = true) : x ≤ i := by
  unfold coverAny at hc
  rw [List.any_eq_true] at hc
  obtain ⟨f, hf, hcf⟩ := hc
  obtain ⟨x', y', rfl⟩ := h.1 f (List.mem_cons_of_mem _ hf)
  have := (List.pairwise_cons.1 h.2).1 _ hf
  rw [keyLe_iff] at this
  rw [RangeMapper.covers_iff] at hcf
  simp only [RangeMapper.sortKey] at this
  simp only [Anchor.at] at hcf
  omega

theorem scan_cons {α : Type u} (off : Nat) (eof : Bool) (upto : Nat) (stream : List α) (last x y : Nat) (fs : List RangeMapper) :
    scan off eof upto stream last (⟨.fromStart x, .fromStart y⟩ :: fs) =
      let st := min (max (x - off) last) upto
      let en := min (max (max (x - off) (y - off)) last) upto
      if (!eof && decide (upto < max (x - off) (y - off))) = true then
        ((stream.take en).drop st, ⟨.fromStart x, .fromStart y⟩ :: fs)
      else ((stream.take en).drop st ++ (scan off eof upto stream en fs).1, (scan off eof upto stream en fs).2) := rfl

theorem scan_spec {α : Type u} (total off : Nat) (eof : Bool) (upto : Nat) (stream : List α) (hu : upto ≤ stream.length) :
    ∀ (fs : List RangeMapper) (last : Nat), Stack fs → last ≤ upto →
      (scan off eof upto stream last fs).1 = keep (coverAny total fs) (off + last) ((stream.take upto).drop last) ∧
      Stack (scan off eof upto stream last fs).2 ∧
      (eof = false → ∀ i, off + upto ≤ i → coverAny total (scan off eof upto stream last fs).2 i = coverAny total fs i) := by
  intro fs
  induction fs with
  | nil =>
    intro last hs hl
    refine ⟨?_, hs, fun _ _ _ => rfl⟩
    simp only [scan]
    exact (keep_false _ _).symm
  | cons f fs ih =>
    intro last hs hl
    obtain ⟨x, y, rfl⟩ := hs.1 f (by simp)
    have hs' : Stack fs := ⟨fun g hg => hs.1 g (List.mem_cons_of_mem _ hg), (List.pairwise_cons.1 hs.2).2⟩
    rw [scan_cons]
    simp only
    generalize hst : min (max (x - off) last) upto = st
    generalize hen : min (max (max (x - off) (y - off)) last) upto = en
    have h1 : last ≤ st := by omega
    have h2 : st ≤ en := by omega
    have h3 : en ≤ upto := by omega
    -- decompose the window
    have hdec : (stream.take upto).drop last =
        (stream.take st).drop last ++ ((stream.take en).drop st ++ (stream.take upto).drop en) := by
      have e1 : ∀ a b : Nat, last ≤ a → a ≤ b → b ≤ upto → (stream.take b).drop last = (stream.take a).drop last ++ (stream.take b).drop a := by
        intro a b ha hb hbu
        have : stream.take a = (stream.take b).take a := by rw [List.take_take, Nat.min_eq_left hb]
        rw [this]
        generalize stream.take b = l
        rw [List.drop_take]
        have : l.drop a = (l.drop last).drop (a - last) := by rw [List.drop_drop]; congr 1; omega
        rw [this, List.take_append_drop]
      rw [e1 st upto h1 (by omega) (Nat.le_refl _)]
      congr 1
      have e2 : ∀ a b c : Nat, a ≤ b → b ≤ c → (stream.take c).drop a = (stream.take b).drop a ++ (stream.take c).drop b := by
        intro a b c ha hb
        have : stream.take b = (stream.take c).take b := by rw [List.take_take, Nat.min_eq_left hb]
        rw [this]
        generalize stream.take c = l
        rw [List.drop_take]
        have : l.drop b = (l.drop a).drop (b - a) := by rw [List.drop_drop]; congr 1; omega
        rw [this, List.take_append_drop]
      exact e2 st en upto h2 h3
    have hlen1 : ((stream.take st).drop last).length = st - last := by simp; omega
    have hlen2 : ((stream.take en).drop st).length = en - st := by simp; omega
    have hlen3 : ((stream.take upto).drop en).length = upto - en := by simp; omega
    have hcov : ∀ i, coverAny total (⟨.fromStart x, .fromStart y⟩ :: fs) i = (decide (x ≤ i ∧ i < y) || coverAny total fs i) := fun _ => rfl
    have hk1 : keep (coverAny total (⟨.fromStart x, .fromStart y⟩ :: fs)) (off + last) ((stream.take st).drop last) = [] := by
      rw [keep_congr (Q := fun _ => false), keep_false]
      intro j hj1 hj2
      rw [hlen1] at hj2
      rw [hcov]
      have hxj : ¬ x ≤ j := by omega
      cases hc : coverAny total fs j with
      | false => simp [hxj]
      | true => exact absurd (hs.start_le hc) hxj
    have hk2 : keep (coverAny total (⟨.fromStart x, .fromStart y⟩ :: fs)) (off + st) ((stream.take en).drop st) = (stream.take en).drop st := by
      rw [keep_congr (Q := fun _ => true), keep_true]
      intro j hj1 hj2
      rw [hlen2] at hj2
      rw [hcov, Bool.or_eq_true, decide_eq_true_eq]
      left; omega
    have hmain : keep (coverAny total (⟨.fromStart x, .fromStart y⟩ :: fs)) (off + last) ((stream.take upto).drop last) =
        (stream.take en).drop st ++ keep (coverAny total (⟨.fromStart x, .fromStart y⟩ :: fs)) (off + en) ((stream.take upto).drop en) := by
      rw [hdec, keep_append, keep_append, hlen1, hlen2, hk1, show off + last + (st - last) = off + st by omega, hk2,
        show off + st + (en - st) = off + en by omega, List.nil_append]
    rw [hmain]
    by_cases hb : (!eof && decide (upto < max (x - off) (y - off))) = true
    · rw [if_pos hb]
      simp only [Bool.and_eq_true, Bool.not_eq_true', decide_eq_true_eq] at hb
      refine ⟨?_, hs, fun _ _ _ => rfl⟩
      have : en = upto := by omega
      have h0 : (stream.take upto).drop en = [] := List.length_eq_zero_iff.1 (by rw [hlen3]; omega)
      rw [h0]; simp [keep]
    · rw [if_neg hb]
      simp only [Bool.and_eq_true, Bool.not_eq_true', decide_eq_true_eq] at hb
      obtain ⟨i1, i2, i3⟩ := ih en hs' h3
      have hy : ∀ j, en < upto → off + en ≤ j → ¬ (x ≤ j ∧ j < y) := by intro j; omega
      refine ⟨?_, i2, ?_⟩
      · simp only
        rw [i1]
        congr 1
        rcases Nat.lt_or_ge en upto with hlt | hge
        · apply keep_congr
          intro j hj1 _
          rw [hcov]
          have := hy j hlt hj1
          simp [this]
        · have h0 : (stream.take upto).drop en = [] := List.length_eq_zero_iff.1 (by rw [hlen3]; omega)
          rw [h0]; simp [keep]
      · intro he i hi
        have hle : max (x - off) (y - off) ≤ upto := by
          rcases Nat.lt_or_ge upto (max (x - off) (y - off)) with h | h
          · exact absurd ⟨he, h⟩ hb
          · exact h
        rw [i3 he i hi, hcov]
        have : ¬ (x ≤ i ∧ i < y) := by omega
        simp [this]

/-- Invariant of a cutter: the stack is sorted and the bounds on the tail filters are right. -/
structure Inv (c : Cutter) : Prop where
  stack : Stack c.filters
  trans : ∀ f ∈ c.tailFilters, ∀ x y, f = ⟨.fromStart x, .fromEnd y⟩ → c.transOffset ≤ x
  right : ∀ f ∈ c.tailFilters, f.hasRightAnchor = true
  margin : ∀ f ∈ c.tailFilters, f.tailMargin ≤ c.tailMargin

def cover (c : Cutter) (total : Nat) (i : Nat) : Bool := coverAny total (c.filters ++ c.tailFilters) i

theorem accumulate_spec {c : Cutter} (h : c.Inv) (off : Nat) (eof : Bool) (bytes : Nat) (stream : Bytes) (rem : Bytes)
    (hb : bytes ≤ rem.length) (he : eof = true → bytes = rem.length) (hsl : stream.take bytes = rem.take bytes) :
    (c.accumulate off eof bytes stream).2.1 ≤ bytes ∧ (c.accumulate off eof bytes stream).2.2.Inv ∧
    (c.accumulate off eof bytes stream).1 =
      keep (c.cover (off + rem.length)) off (rem.take (c.accumulate off eof bytes stream).2.1) ∧
    (eof = true → (c.accumulate off eof bytes stream).2.1 = rem.length) ∧
    (eof = false → ∀ i, off + (c.accumulate off eof bytes stream).2.1 ≤ i →
      (c.accumulate off eof bytes stream).2.2.cover (off + rem.length) i = c.cover (off + rem.length) i) := by
  have hsl' : bytes ≤ stream.length := by
    have := congrArg List.length hsl
    simp only [List.length_take] at this
    omega
  cases eof with
  | true =>
    have hbe := he rfl
    obtain ⟨c', hc', h1, h2, h3⟩ : ∃ c', (if (true && !c.tailFilters.isEmpty) = true then
      { c with
        filters := sortFilters (c.filters ++ c.tailFilters.map fun f => f.toLeftAnchored (off + bytes))
        tailFilters := [] }
      else c) = c' ∧ c'.tailFilters = [] ∧ Stack c'.filters ∧ ∀ i, coverAny (off + rem.length) c'.filters i = c.cover (off + rem.length) i := by
      refine ⟨_, rfl, ?_⟩
      by_cases ht : c.tailFilters = []
      · simp only [ht, List.isEmpty_nil, Bool.not_true, Bool.and_false]
        exact ⟨ht, h.stack, fun i => by simp [cover, ht]⟩
      · have : (true && !c.tailFilters.isEmpty) = true := by simp [ht]
        rw [if_pos this]
        refine ⟨rfl, sortFilters_stack ?_, fun i => ?_⟩
        · intro f hf
          rcases List.mem_append.1 hf with hf | hf
          · exact h.stack.1 f hf
          · obtain ⟨g, _, rfl⟩ := List.mem_map.1 hf
            exact g.toLeft_left _
        · rw [sortFilters_cover, cover, coverAny, coverAny, List.any_append, List.any_append, List.any_map]
          congr 1
          congr 1
          funext f
          simp only [Function.comp]
          rw [f.toLeft_covers, hbe]
    have hacc : c.accumulate off true bytes stream =
        ((scan off true bytes stream 0 c'.filters).1, bytes, { c' with filters := (scan off true bytes stream 0 c'.filters).2 }) := by
      unfold accumulate
      simp only [hc']
      rfl
    obtain ⟨g1, g2, _⟩ := scan_spec (off + rem.length) off true bytes stream hsl' c'.filters 0 h2 (Nat.zero_le _)
    rw [hacc]
    refine ⟨Nat.le_refl _, ⟨g2, by simp [h1], by simp [h1], by simp [h1]⟩, ?_, fun _ => hbe, by simp⟩
    simp only
    rw [g1, List.drop_zero, Nat.add_zero, hsl]
    exact keep_congr _ _ fun j _ _ => h3 j
  | false =>
    have hacc : c.accumulate off false bytes stream =
        ((scan off false (min (bytes - c.tailMargin) (c.transOffset - off)) stream 0 c.filters).1,
          min (bytes - c.tailMargin) (c.transOffset - off),
          { c with filters := (scan off false (min (bytes - c.tailMargin) (c.transOffset - off)) stream 0 c.filters).2 }) := by
      unfold accumulate
      simp
    generalize hu : min (bytes - c.tailMargin) (c.transOffset - off) = upto at hacc
    obtain ⟨g1, g2, g3⟩ := scan_spec (off + rem.length) off false upto stream (by omega) c.filters 0 h.stack (Nat.zero_le _)
    rw [hacc]
    refine ⟨by simp only; omega, ⟨g2, h.trans, h.right, h.margin⟩, ?_, by simp, ?_⟩
    · simp only
      have ht : stream.take upto = rem.take upto := by
        have := congrArg (List.take upto) hsl
        rw [List.take_take, List.take_take] at this
        rwa [Nat.min_eq_left (by omega)] at this
      rw [g1, List.drop_zero, Nat.add_zero, ht]
      apply keep_congr
      intro j hj1 hj2
      simp only [List.length_take] at hj2
      have htail : coverAny (off + rem.length) c.tailFilters j = false := by
        rw [coverAny, List.any_eq_false]
        intro f hf
        have hm := h.margin f hf
        have hr := h.right f hf
        have htr := h.trans f hf
        rcases f with ⟨x | x, y | y⟩
        · simp [RangeMapper.hasRightAnchor] at hr
        · have := htr x y rfl
          rw [RangeMapper.covers_iff]; simp only [Anchor.at]; omega
        · simp only [RangeMapper.tailMargin] at hm
          rw [RangeMapper.covers_iff]; simp only [Anchor.at]; omega
        · simp only [RangeMapper.tailMargin] at hm
          rw [RangeMapper.covers_iff]; simp only [Anchor.at]; omega
      unfold cover
      rw [coverAny, coverAny, List.any_append]
      rw [coverAny] at htail
      rw [htail, Bool.or_false]
    · intro _ i hi
      simp only [cover, coverAny, List.any_append]
      have := g3 rfl i hi
      unfold coverAny at this
      rw [this]

theorem minTrans_le {oc : Bool} : ∀ {fs : List RangeMapper} {t : Nat}, minTrans oc fs = .ok t →
    ∀ f ∈ fs, ∀ x y, f = ⟨.fromStart x, .fromEnd y⟩ → t ≤ x
  | [], _, _, f, hf => by simp at hf
  | r :: rs, t, h, f, hf => by
    unfold minTrans at h
    cases h1 : r.transOffset oc with
    | error e => rw [h1] at h; cases h
    | ok a =>
      cases h2 : minTrans oc rs with
      | error e => rw [h1, h2] at h; cases h
      | ok b =>
        rw [h1, h2] at h
        cases h
        rintro x y rfl
        rcases List.mem_cons.1 hf with h3 | h3
        · subst h3
          simp only [RangeMapper.transOffset] at h1
          cases h1; omega
        · have := minTrans_le h2 _ h3 x y rfl
          omega

theorem le_foldr_max : ∀ {l : List Nat} {x : Nat}, x ∈ l → x ≤ l.foldr max 0
  | a :: l, x, h => by
    simp only [List.foldr_cons]
    rcases List.mem_cons.1 h with h | h
    · omega
    · have := le_foldr_max h; omega

theorem ofRanges_inv {oc : Bool} {rs : List RangeMapper} {c : Cutter} (h : ofRanges oc rs = .ok c) :
    c.Inv ∧ ∀ total i, c.cover total i = coverAny total rs i := by
  unfold ofRanges at h
  simp only at h
  cases h1 : minTrans oc (rs.filter RangeMapper.hasRightAnchor) with
  | error e => rw [h1] at h; cases h
  | ok t =>
    rw [h1] at h
    cases h
    refine ⟨⟨sortFilters_stack ?_, minTrans_le h1, ?_, ?_⟩, ?_⟩
    · intro f hf
      have := (List.mem_filter.1 hf).2
      exact RangeMapper.left_of_not (by simpa using this)
    · intro f hf; exact (List.mem_filter.1 hf).2
    · intro f hf; exact le_foldr_max (List.mem_map.2 ⟨f, hf, rfl⟩)
    · intro total i
      have hs := sortFilters_cover total (rs.filter fun r => !r.hasRightAnchor) i
      unfold coverAny at hs
      simp only [cover, coverAny, List.any_append, hs]
      rw [Bool.eq_iff_iff]
      simp only [Bool.or_eq_true, List.any_eq_true, List.mem_filter]
      constructor
      · rintro (⟨f, ⟨h1, _⟩, h2⟩ | ⟨f, ⟨h1, _⟩, h2⟩) <;> exact ⟨f, h1, h2⟩
      · rintro ⟨f, h1, h2⟩
        cases h3 : f.hasRightAnchor
        · left; exact ⟨f, ⟨h1, by simp [h3]⟩, h2⟩
        · right; exact ⟨f, ⟨h1, h3⟩, h2⟩

end Cutter

namespace CutStream

/-- What a cut stream still has to produce. -/
def P (R : σ → Phase → Nat → Bytes → Prop) (c : CutState σ) (w : Nat) (p : Bytes) : Prop :=
  ∃ lb rem, R c.src (.idle lb) w rem ∧ c.cutter.Inv ∧ p = keep (c.cutter.cover (c.srcConsumed + rem.length)) c.srcConsumed rem

theorem feed_produces {S : ByteSrc σ} {F M R} (h : Faithful S F M R) :
    Produces (feed S) F (fun c _ => P R c) (fun _ => True) := by
  rintro c w p req buf ⟨lb, rem, hR, hi, rfl⟩
  unfold feed
  rcases h.fill c.src _ _ _ (req + c.cutter.tailMargin + 1) hR with ⟨e, hF, heq⟩ | ⟨eof, n, w', s', heq, hR', hn, hm, he', hne', hw', hw''⟩
  · left; exact ⟨e, hF, by simp only [heq]⟩
  · right
    simp only [heq]
    obtain ⟨g1, g2, g3, g4, g5⟩ := Cutter.accumulate_spec hi c.srcConsumed eof n (S.slice s') rem hn he' (slice_take hn hm)
    generalize c.cutter.accumulate c.srcConsumed eof n (S.slice s') = r at g1 g2 g3 g4 g5
    obtain ⟨out, k, c'⟩ := r
    simp only at g1 g2 g3 g4 g5 ⊢
    obtain ⟨s2, w2, heq2, hR2, hw2⟩ := h.consume _ _ _ _ k hR' g1
    simp only [heq2]
    have hsplit : keep (c.cutter.cover (c.srcConsumed + rem.length)) c.srcConsumed rem =
        out ++ keep (c.cutter.cover (c.srcConsumed + rem.length)) (c.srcConsumed + k) (rem.drop k) := by
      rw [g3]
      generalize c.cutter.cover (c.srcConsumed + rem.length) = Q
      conv => lhs; rw [← List.take_append_drop k rem]
      rw [keep_append]
      congr 2
      rw [List.length_take]; omega
    refine ⟨_, out, _, _, rfl, hsplit, ?_, ?_⟩
    · intro hb
      refine ⟨?_, trivial⟩
      cases eof with
      | true =>
        have := g4 rfl
        rw [this, List.drop_length]; rfl
      | false =>
        simp only [Bool.false_or, Cutter.isEmpty, Bool.and_eq_true, List.isEmpty_iff] at hb
        rw [keep_congr (Q := fun _ => false), keep_false]
        intro j hj1 _
        rw [← g5 rfl j hj1]
        simp [Cutter.cover, coverAny, hb.1, hb.2]
    · intro hb
      simp only [Bool.or_eq_false_iff] at hb
      obtain ⟨rfl, _⟩ := hb
      refine ⟨w2, by have := hw'' rfl trivial; omega, _, _, hR2, g2, ?_⟩
      simp only
      have hl : c.srcConsumed + k + (rem.drop k).length = c.srcConsumed + rem.length := by simp; omega
      rw [hl]
      apply keep_congr
      intro j hj1 _
      exact (g5 rfl j hj1).symm

theorem delivers {S : ByteSrc σ} {F M} {B fuel : Nat} (hB : 0 < B) {src : σ} {w : Nat} {content : Bytes}
    (h : Delivers S F M src w content) {oc : Bool} {rs : List RangeMapper} {s : Buffered (CutState σ)}
    (hs : CutStream.new B oc src rs = .ok s) (hf : w < fuel) :
    Delivers (byteSrc S B fuel) F NlMargin s w (keep (coverAny content.length rs) 0 content) := by
  unfold CutStream.new at hs
  cases hc : Cutter.ofRanges oc rs with
  | error e => rw [hc] at hs; cases hs
  | ok c =>
    rw [hc] at hs
    cases hs
    obtain ⟨h1, h2⟩ := Cutter.ofRanges_inv hc
    have h' : Live S F M src (.idle 1) w content := h
    refine buffered_delivers' (feed_produces Live.faithful) hB ⟨1, content, h', h1, ?_⟩ hf
    simp only [Nat.zero_add]
    exact keep_congr _ _ fun j _ _ => (h2 _ j).symm

end CutStream

/-- The ranges as the README describes them. -/
def SegmentMapper.toSpec (m : SegmentMapper) : RangeEnd × RangeEnd :=
  (⟨m.start.anchor != 0, m.start.offset⟩, ⟨m.stop.anchor != 0, m.stop.offset⟩)

theorem coverAny_ranges {α : Type u} (ms : List SegmentMapper) (l : List α) :
    keep (coverAny l.length (ms.map RangeMapper.ofMapper)) 0 l =
      keep (fun i => (ms.map SegmentMapper.toSpec).any fun r => decide (r.1.at l.length ≤ i ∧ (i : Int) < r.2.at l.length)) 0 l := by
  apply keep_congr
  intro i _ hi
  simp only [Nat.zero_add] at hi
  unfold coverAny
  rw [List.any_map, List.any_map]
  congr 1
  funext m
  simp only [Function.comp]
  rw [Bool.eq_iff_iff, RangeMapper.covers_iff, decide_eq_true_iff]
  simp only [RangeMapper.ofMapper, RangeMapper.anchorOf, SegmentMapper.toSpec, RangeEnd.at]
  by_cases h1 : m.start.anchor = 0 <;> by_cases h2 : m.stop.anchor = 0 <;> simp [h1, h2, Anchor.at] <;> omega

theorem coverAny_spec (ms : List SegmentMapper) (c : Bytes) :
    keep (coverAny c.length (ms.map RangeMapper.ofMapper)) 0 c = cut (ms.map SegmentMapper.toSpec) c := by
  unfold cut
  rw [coverAny_ranges]

end Nd
