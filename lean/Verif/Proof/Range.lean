import Verif.Proof.SegOrder
import Verif.Proof.Ample
/-!
# `RangeSlicer`
-/
namespace Nd
open Spec

/-- The slice a range denotes in a stream of `total` bytes, seen from `off`. -/
def RangeMapper.seg (total off : Nat) (f : RangeMapper) : Option Seg :=
  if f.start.at total < min (f.stop.at total) total then
    some { pos := f.start.at total - off, len := min (f.stop.at total) total - f.start.at total }
  else none

theorem RangeMapper.seg_some {total off : Nat} {f : RangeMapper} {x : Seg} (h : f.seg total off = some x) (ho : off ≤ f.start.at total) :
    off + x.pos = f.start.at total ∧ off + x.tail = min (f.stop.at total) total ∧ 0 < x.len := by
  unfold seg at h
  split at h
  · rw [Option.some.injEq] at h
    subst h
    simp only [Seg.tail]
    omega
  · cases h

theorem RangeMapper.seg_shift {total off : Nat} {f : RangeMapper} (k : Nat) : f.seg total (off + k) = (f.seg total off).map (Seg.shift k) := by
  unfold seg
  split
  · simp only [Option.map_some, Seg.shift, Option.some.injEq, Seg.mk.injEq, and_true]
    omega
  · rfl

theorem RangeMapper.toLeft_at (f : RangeMapper) (total : Nat) :
    (f.toLeftAnchored total).start.at total = f.start.at total ∧ ∀ off, (f.toLeftAnchored total).seg total off = f.seg total off := by
  rcases f with ⟨x | x, y | y⟩ <;> exact ⟨rfl, fun _ => rfl⟩

theorem RangeMapper.seg_le {total off : Nat} {f g : RangeMapper} (hf : f.Left) (hg : g.Left) (hfo : off ≤ f.start.at total)
    (hgo : off ≤ g.start.at total) (h : keyLe f.sortKey g.sortKey = true) {a b : Seg} (ha : f.seg total off = some a) (hb : g.seg total off = some b) :
    a.Le b := by
  obtain ⟨a1, a2, _⟩ := seg_some ha hfo
  obtain ⟨b1, b2, _⟩ := seg_some hb hgo
  obtain ⟨x, y, rfl⟩ := hf
  obtain ⟨x', y', rfl⟩ := hg
  rw [keyLe_iff] at h
  simp only [sortKey, Anchor.at] at *
  unfold Seg.Le
  omega

namespace Cutter

theorem Stack.cons_le {f : RangeMapper} {fs : List RangeMapper} (h : Stack (f :: fs)) (total : Nat) : ∀ g ∈ fs, f.start.at total ≤ g.start.at total := by
  intro g hg
  have h1 := (List.pairwise_cons.1 h.2).1 g hg
  obtain ⟨x, y, rfl⟩ := h.1 f (by simp)
  obtain ⟨x', y', rfl⟩ := h.1 g (by simp [hg])
  rw [keyLe_iff] at h1
  simp only [RangeMapper.sortKey, Anchor.at] at *
  omega

theorem Stack.tail {f : RangeMapper} {fs : List RangeMapper} (h : Stack (f :: fs)) : Stack fs :=
  ⟨fun g hg => h.1 g (by simp [hg]), (List.pairwise_cons.1 h.2).2⟩

theorem collect_spec (total off clamp tail : Nat) (hc : ∀ e, min e clamp ≤ tail → min e clamp = min e (total - off)) :
    ∀ (fs : List RangeMapper) (mc : Nat), Stack fs → (∀ f ∈ fs, off ≤ f.start.at total) → mc ≤ clamp → mc ≤ total - off →
    ∃ done rest mc', collect off clamp tail mc fs = (done.filterMap (RangeMapper.seg total off), rest, mc') ∧ fs = done ++ rest ∧ mc' ≤ mc ∧
      (∀ f ∈ rest, off + mc' ≤ f.start.at total) ∧ (∀ f ∈ done, f.start.at total < off + mc) ∧ (∀ f ∈ done, f.start.at total ≤ off + mc') ∧
      (∀ x ∈ done.filterMap (RangeMapper.seg total off), x.tail ≤ tail) ∧ (mc' = mc ∨ ∃ f ∈ rest, off + mc' = f.start.at total) ∧
      (clamp ≤ tail → mc' = mc)
  | [], mc, _, _, _, _ => ⟨[], [], mc, rfl, rfl, Nat.le_refl _, by simp, by simp, by simp, by simp, Or.inl rfl, fun _ => rfl⟩
  | f :: fs, mc, hs, ho, h1, h2 => by
    have hfo := ho f (by simp)
    have hle := hs.cons_le total
    obtain ⟨x, y, hf⟩ := hs.1 f (by simp)
    have hst : f.start.at total = x := by rw [hf]; rfl
    have hsp : f.stop.at total = y := by rw [hf]; rfl
    have hr : f.toRange off = (x - off, max (x - off) (y - off)) := by rw [hf]; rfl
    rw [hst] at hfo
    rw [collect]
    simp only [hr]
    by_cases hb : min (x - off) clamp ≥ mc ∨ min (max (x - off) (y - off)) clamp > tail
    · rw [if_pos hb]
      refine ⟨[], f :: fs, min mc (min (x - off) clamp), rfl, rfl, by omega, ?_, by simp, by simp, by simp, ?_, ?_⟩
      · intro g hg
        rcases List.mem_cons.1 hg with rfl | hg
        · rw [hst]; omega
        · have := hle g hg
          rw [hst] at this; omega
      · by_cases hm : min (x - off) clamp ≥ mc
        · left; omega
        · right; exact ⟨f, by simp, by rw [hst]; omega⟩
      · intro hct; omega
    · rw [if_neg hb]
      have hb1 : min (x - off) clamp < mc := by omega
      have hb2 : min (max (x - off) (y - off)) clamp ≤ tail := by omega
      have hc2 := hc _ hb2
      obtain ⟨done, rest, mc', e1, e2, e3, e4, e5, e6, e7, e8, e9⟩ := collect_spec total off clamp tail hc fs mc hs.tail (fun g hg => ho g (by simp [hg])) h1 h2
      have hmc : f.start.at total ≤ off + mc' := by
        rcases e8 with e8 | ⟨g, hg, e8⟩
        · rw [hst]; omega
        · rw [e8]; exact hle g (by rw [e2]; simp [hg])
      have common : ∀ (out : List Seg), (f :: done).filterMap (RangeMapper.seg total off) = out → (∀ z ∈ out, z.tail ≤ tail) →
          ∃ done' rest' mc'', (out, rest, mc') = (done'.filterMap (RangeMapper.seg total off), rest', mc'') ∧ f :: fs = done' ++ rest' ∧ mc'' ≤ mc ∧
            (∀ f ∈ rest', off + mc'' ≤ f.start.at total) ∧ (∀ f ∈ done', f.start.at total < off + mc) ∧ (∀ f ∈ done', f.start.at total ≤ off + mc'') ∧
            (∀ x ∈ done'.filterMap (RangeMapper.seg total off), x.tail ≤ tail) ∧ (mc'' = mc ∨ ∃ f ∈ rest', off + mc'' = f.start.at total) ∧
            (clamp ≤ tail → mc'' = mc) := by
        intro out hout htl
        refine ⟨f :: done, rest, mc', by rw [hout], by rw [e2]; rfl, e3, e4, ?_, ?_, by rw [hout]; exact htl, e8, e9⟩
        · intro g hg
          rcases List.mem_cons.1 hg with rfl | hg
          · rw [hst]; clear e8; omega
          · exact e5 g hg
        · intro g hg
          rcases List.mem_cons.1 hg with rfl | hg
          · exact hmc
          · exact e6 g hg
      by_cases hn : min (x - off) clamp ≥ min (max (x - off) (y - off)) clamp
      · rw [if_pos hn, e1]
        apply common
        · rw [List.filterMap_cons]
          have : f.seg total off = none := by
            unfold RangeMapper.seg
            rw [hst, hsp, if_neg (by clear e8 common; omega)]
          rw [this]
        · exact e7
      · rw [if_neg hn, e1]
        have hsg : f.seg total off = some { pos := min (x - off) clamp, len := min (max (x - off) (y - off)) clamp - min (x - off) clamp } := by
          unfold RangeMapper.seg
          rw [hst, hsp, if_pos (by clear e8 common; omega)]
          simp only [Option.some.injEq, Seg.mk.injEq]
          clear e8 common
          omega
        apply common
        · rw [List.filterMap_cons, hsg]
        · intro z hz
          rcases List.mem_cons.1 hz with rfl | hz
          · simp only [Seg.tail]; clear e8 common; omega
          · exact e7 z hz

end Cutter

/-- What is lent (`v`) and what the ranges left in the cutter denote, against the remaining slices `segs`. -/
structure RangeInv (off total : Nat) (v : List Seg) (c : Cutter) (segs : List Seg) : Prop where
  cut : c.Inv
  start : ∀ f ∈ c.filters ++ c.tailFilters, off ≤ f.start.at total
  strict : segs.Pairwise Seg.Lt
  pre : v = segs.take v.length
  mem : ∀ x, x ∈ segs ↔ x ∈ v ∨ ∃ f ∈ c.filters ++ c.tailFilters, f.seg total off = some x
  ord : ∀ x ∈ v, ∀ f ∈ c.filters ++ c.tailFilters, off + x.pos ≤ f.start.at total ∧ ∀ z, f.seg total off = some z → x.Le z
  pos : ∀ x ∈ segs, 0 < x.len ∧ off + x.tail ≤ total

namespace RangeInv

variable {off total : Nat} {v segs : List Seg} {c : Cutter}

theorem sub (h : RangeInv off total v c segs) : ∀ x ∈ v, x ∈ segs := fun x hx => (h.mem x).2 (Or.inl hx)

theorem len_le (h : RangeInv off total v c segs) : v.length ≤ segs.length := by
  have := congrArg List.length h.pre
  rw [List.length_take] at this
  omega

theorem v_strict (h : RangeInv off total v c segs) : v.Pairwise Seg.Lt := by
  rw [h.pre]
  exact h.strict.sublist (List.take_sublist _ _)

/-- At the end the ranges anchored there become ordinary ones. -/
theorem flip (h : RangeInv off total v c segs) :
    RangeInv off total v { c with filters := Cutter.sortFilters (c.filters ++ c.tailFilters.map fun f => f.toLeftAnchored total), tailFilters := [] } segs := by
  have hm : ∀ g, g ∈ Cutter.sortFilters (c.filters ++ c.tailFilters.map fun f => f.toLeftAnchored total) ++ ([] : List RangeMapper) ↔
      g ∈ c.filters ∨ ∃ f ∈ c.tailFilters, f.toLeftAnchored total = g := by
    intro g
    unfold Cutter.sortFilters
    rw [List.append_nil, (stableSort_perm _ _).mem_iff, List.mem_append, List.mem_map]
  have hall : ∀ {p : RangeMapper → Prop}, (∀ f ∈ c.filters ++ c.tailFilters, p f) → (∀ f, p f → p (f.toLeftAnchored total)) →
      ∀ g ∈ Cutter.sortFilters (c.filters ++ c.tailFilters.map fun f => f.toLeftAnchored total) ++ ([] : List RangeMapper), p g := by
    intro p hp ht g hg
    rcases (hm g).1 hg with hg | ⟨f, hf, rfl⟩
    · exact hp g (by simp [hg])
    · exact ht f (hp f (by simp [hf]))
  constructor
  · refine ⟨Cutter.sortFilters_stack fun f hf => ?_, by simp, by simp, by simp⟩
    rcases List.mem_append.1 hf with hf | hf
    · exact h.cut.stack.1 f hf
    · obtain ⟨g, _, rfl⟩ := List.mem_map.1 hf
      exact g.toLeft_left _
  · exact hall h.start fun f hf => by rw [(f.toLeft_at total).1]; exact hf
  · exact h.strict
  · exact h.pre
  · intro x
    rw [h.mem x]
    constructor
    · rintro (hx | ⟨f, hf, hs⟩)
      · exact Or.inl hx
      · right
        rcases List.mem_append.1 hf with hf | hf
        · exact ⟨f, (hm f).2 (Or.inl hf), hs⟩
        · exact ⟨f.toLeftAnchored total, (hm _).2 (Or.inr ⟨f, hf, rfl⟩), by rw [(f.toLeft_at total).2]; exact hs⟩
    · rintro (hx | ⟨g, hg, hs⟩)
      · exact Or.inl hx
      · right
        rcases (hm g).1 hg with hg | ⟨f, hf, rfl⟩
        · exact ⟨g, by simp [hg], hs⟩
        · exact ⟨f, by simp [hf], by rw [(f.toLeft_at total).2] at hs; exact hs⟩
  · intro x hx
    exact hall (h.ord x hx) fun f hf => by rw [(f.toLeft_at total).1, (f.toLeft_at total).2]; exact hf
  · exact h.pos

/-- Moving ranges from the stack to the lent slices. -/
theorem advance (h : RangeInv off total v c segs) {done rest : List RangeMapper} (hd : c.filters = done ++ rest)
    (ht : ∀ f ∈ done, ∀ g ∈ c.tailFilters, f.start.at total < g.start.at total) :
    RangeInv off total (dedupRuns (v ++ done.filterMap (RangeMapper.seg total off))) { c with filters := rest } segs ∧
    v.length ≤ (dedupRuns (v ++ done.filterMap (RangeMapper.seg total off))).length := by
  have hstk := h.cut.stack
  have hdf : ∀ f ∈ done, f ∈ c.filters := fun f hf => by rw [hd]; simp [hf]
  have hrf : ∀ f ∈ rest, f ∈ c.filters := fun f hf => by rw [hd]; simp [hf]
  have hst : ∀ f ∈ done, off ≤ f.start.at total := fun f hf => h.start f (by simp [hdf f hf])
  have hpw := hstk.2
  rw [hd, List.pairwise_append] at hpw
  obtain ⟨hp1, hp2, hp3⟩ := hpw
  have hmem : ∀ x, x ∈ dedupRuns (v ++ done.filterMap (RangeMapper.seg total off)) ↔ x ∈ v ∨ ∃ f ∈ done, f.seg total off = some x := by
    intro x
    rw [mem_dedupRuns, List.mem_append, List.mem_filterMap]
  -- slices of popped ranges come before everything that is left
  have hdr : ∀ f ∈ done, ∀ a, f.seg total off = some a → ∀ g ∈ rest ++ c.tailFilters,
      off + a.pos ≤ g.start.at total ∧ ∀ z, g.seg total off = some z → a.Le z := by
    intro f hf a ha g hg
    have a1 := (RangeMapper.seg_some ha (hst f hf)).1
    rcases List.mem_append.1 hg with hg | hg
    · have hk := hp3 f hf g hg
      have hfl := hstk.1 f (hdf f hf)
      have hgl := hstk.1 g (hrf g hg)
      have hgo := h.start g (by simp [hrf g hg])
      refine ⟨?_, fun z hz => RangeMapper.seg_le hfl hgl (hst f hf) hgo hk ha hz⟩
      obtain ⟨x, y, rfl⟩ := hfl
      obtain ⟨x', y', rfl⟩ := hgl
      rw [keyLe_iff] at hk
      simp only [RangeMapper.sortKey, Anchor.at] at *
      omega
    · have hlt := ht f hf g hg
      refine ⟨by omega, fun z hz => ?_⟩
      have z1 := (RangeMapper.seg_some hz (h.start g (by simp [hg]))).1
      left; omega
  have hord : ∀ x ∈ dedupRuns (v ++ done.filterMap (RangeMapper.seg total off)), ∀ g ∈ rest ++ c.tailFilters,
      off + x.pos ≤ g.start.at total ∧ ∀ z, g.seg total off = some z → x.Le z := by
    intro x hx g hg
    rcases (hmem x).1 hx with hx | ⟨f, hf, hx⟩
    · refine h.ord x hx g ?_
      rcases List.mem_append.1 hg with hg | hg
      · simp [hrf g hg]
      · simp [hg]
    · exact hdr f hf x hx g hg
  have hle : (v ++ done.filterMap (RangeMapper.seg total off)).Pairwise Seg.Le := by
    rw [List.pairwise_append]
    refine ⟨h.v_strict.imp Seg.Lt.le, ?_, ?_⟩
    · rw [List.pairwise_filterMap]
      refine List.Pairwise.imp_of_mem ?_ hp1
      intro f g hf hg hk a ha b hb
      exact RangeMapper.seg_le (hstk.1 f (hdf f hf)) (hstk.1 g (hdf g hg)) (hst f hf) (hst g hg) hk ha hb
    · intro a ha b hb
      obtain ⟨f, hf, hb⟩ := List.mem_filterMap.1 hb
      exact (h.ord a ha f (by simp [hdf f hf])).2 b hb
  have hstrict := dedupRuns_strict _ hle
  obtain ⟨t, htt⟩ := dedupRuns_prefix v (done.filterMap (RangeMapper.seg total off)) h.v_strict
  refine ⟨⟨⟨⟨fun f hf => hstk.1 f (hrf f hf), hp2⟩, h.cut.trans, h.cut.right, h.cut.margin⟩, ?_, h.strict, ?_, ?_, hord, h.pos⟩, ?_⟩
  · intro f hf
    refine h.start f ?_
    rcases List.mem_append.1 hf with hf | hf
    · simp [hrf f hf]
    · simp [hf]
  · refine strict_prefix _ _ hstrict h.strict (fun x hx => ?_) (fun z hz hnz x hx => ?_)
    · rw [h.mem]
      rcases (hmem x).1 hx with hx | ⟨f, hf, hx⟩
      · exact Or.inl hx
      · exact Or.inr ⟨f, by simp [hdf f hf], hx⟩
    · have : ∃ g ∈ rest ++ c.tailFilters, g.seg total off = some z := by
        rw [hmem] at hnz
        rcases (h.mem z).1 hz with h' | ⟨g, hg, h'⟩
        · exact absurd (Or.inl h') hnz
        · rw [hd] at hg
          rcases List.mem_append.1 hg with hg | hg
          · rcases List.mem_append.1 hg with hg | hg
            · exact absurd (Or.inr ⟨g, hg, h'⟩) hnz
            · exact ⟨g, by simp [hg], h'⟩
          · exact ⟨g, by simp [hg], h'⟩
      obtain ⟨g, hg, hgz⟩ := this
      rcases ((hord x hx g hg).2 z hgz).lt_or_eq with h' | h'
      · exact h'
      · exact absurd (h' ▸ hx) hnz
  · intro x
    rw [h.mem, hmem, hd]
    constructor
    · rintro (hx | ⟨f, hf, hx⟩)
      · exact Or.inl (Or.inl hx)
      · rcases List.mem_append.1 hf with hf | hf
        · rcases List.mem_append.1 hf with hf | hf
          · exact Or.inl (Or.inr ⟨f, hf, hx⟩)
          · exact Or.inr ⟨f, by simp [hf], hx⟩
        · exact Or.inr ⟨f, by simp [hf], hx⟩
    · rintro ((hx | ⟨f, hf, hx⟩) | ⟨f, hf, hx⟩)
      · exact Or.inl hx
      · exact Or.inr ⟨f, by simp [hf], hx⟩
      · refine Or.inr ⟨f, ?_, hx⟩
        rcases List.mem_append.1 hf with hf | hf
        · simp [hf]
        · simp [hf]
  · rw [htt, List.length_append]; omega

/-- Seen from `k` bytes further. -/
theorem shift (h : RangeInv off total v c segs) {k d : Nat} (hk : ∀ f ∈ c.filters ++ c.tailFilters, off + k ≤ f.start.at total)
    (hd : ∀ x ∈ v.take d, x.pos < k) (hd' : ∀ x ∈ v.drop d, k ≤ x.pos) (hdl : d ≤ v.length) :
    RangeInv (off + k) total ((v.drop d).map (Seg.shift k)) c ((segs.drop d).map (Seg.shift k)) ∧ (∀ x ∈ segs.take d, x.pos < k) ∧ ∀ x ∈ segs.drop d, k ≤ x.pos := by
  have hlen := h.len_le
  have htake : segs.take d = v.take d := by
    rw [h.pre, List.take_take, Nat.min_eq_left hdl]
  have hdrop : v.drop d = (segs.drop d).take (v.length - d) := by
    have : v.drop d = (segs.take v.length).drop d := by rw [← h.pre]
    rw [this, List.drop_take]
  have hge : ∀ x ∈ segs.drop d, k ≤ x.pos := by
    intro x hx
    rcases (h.mem x).1 (List.mem_of_mem_drop hx) with hv | ⟨f, hf, hx'⟩
    · by_cases hx2 : x ∈ v.take d
      · -- x occurs twice
        exfalso
        have hp := h.strict
        rw [← List.take_append_drop d segs, List.pairwise_append] at hp
        exact (hp.2.2 x (by rw [htake]; exact hx2) x hx).irrefl
      · rw [← List.take_append_drop d v, List.mem_append] at hv
        exact hd' x (hv.resolve_left hx2)
    · have := (RangeMapper.seg_some hx' (h.start f hf)).1
      have := hk f hf
      omega
  refine ⟨⟨h.cut, hk, ?_, ?_, ?_, ?_, ?_⟩, by rw [htake]; exact hd, hge⟩
  · rw [List.pairwise_map]
    refine List.Pairwise.imp_of_mem ?_ (h.strict.sublist (List.drop_sublist d segs))
    intro a b ha hb hab
    exact hab.shift (hge a ha) (hge b hb)
  · rw [List.length_map, List.length_drop, ← List.map_take, ← hdrop]
  · intro x
    simp only [List.mem_map, RangeMapper.seg_shift, Option.map_eq_some_iff]
    constructor
    · rintro ⟨y, hy, rfl⟩
      rcases (h.mem y).1 (List.mem_of_mem_drop hy) with hv | ⟨f, hf, hf'⟩
      · left
        refine ⟨y, ?_, rfl⟩
        rw [← List.take_append_drop d v, List.mem_append] at hv
        refine hv.resolve_left fun hx2 => ?_
        have := hge y hy
        have := hd y hx2
        omega
      · exact Or.inr ⟨f, hf, y, hf', rfl⟩
    · rintro (⟨y, hy, rfl⟩ | ⟨f, hf, y, hy, rfl⟩)
      · refine ⟨y, ?_, rfl⟩
        rw [hdrop] at hy
        exact List.mem_of_mem_take hy
      · refine ⟨y, ?_, rfl⟩
        have hy' := (h.mem y).2 (Or.inr ⟨f, hf, hy⟩)
        rw [← List.take_append_drop d segs, List.mem_append] at hy'
        refine hy'.resolve_left fun hx2 => ?_
        rw [htake] at hx2
        have h1 := (RangeMapper.seg_some hy (h.start f hf)).1
        have := hk f hf
        have := hd y hx2
        omega
  · intro x hx f hf
    obtain ⟨y, hy, rfl⟩ := List.mem_map.1 hx
    obtain ⟨o1, o2⟩ := h.ord y (List.mem_of_mem_drop hy) f hf
    have hky := hd' y hy
    refine ⟨by simp only [Seg.shift]; omega, fun z hz => ?_⟩
    rw [RangeMapper.seg_shift, Option.map_eq_some_iff] at hz
    obtain ⟨z', hz', rfl⟩ := hz
    have h1 := (RangeMapper.seg_some hz' (h.start f hf)).1
    have := hk f hf
    have := o2 z' hz'
    unfold Seg.Le at *
    rw [Seg.shift_tail _ _ hky, Seg.shift_tail _ _ (by omega)]
    simp only [Seg.shift]
    omega
  · intro x hx
    obtain ⟨y, hy, rfl⟩ := List.mem_map.1 hx
    have := h.pos y (List.mem_of_mem_drop hy)
    have hky := hge y hy
    rw [Seg.shift_tail _ _ hky]
    refine ⟨this.1, ?_⟩
    have : y.pos ≤ y.tail := by simp [Seg.tail]
    omega

/-- If no range is left that denotes anything, everything is lent. -/
theorem all (h : RangeInv off total v c segs) (hn : ∀ f ∈ c.filters ++ c.tailFilters, f.seg total off = none) : v = segs := by
  refine strict_unique h.v_strict h.strict fun x => ?_
  rw [h.mem]
  constructor
  · exact Or.inl
  · rintro (hx | ⟨f, hf, hx⟩)
    · exact hx
    · rw [hn f hf] at hx; cases hx

end RangeInv

/-- Unless it reports the end, the next fill lends at least `l` bytes. -/
def Keeps (Src : ByteSrc σ) (s : σ) (l : Nat) : Prop := ∀ req n s', Src.fill s req = .ok ((false, n), s') → l ≤ n

namespace RangeSlicer

def kind (dt : Bool) : SegKind :=
  { full := false, exact := dt, honest := true, steady := true, early := true, moving := false, snap := true, policy := fun _ _ => True }

/-- The pending ranges start at different places, behind the lent segments. -/
def Apart (total off : Nat) (v : List Seg) (fs : List RangeMapper) : Prop :=
  fs.Pairwise (fun f g => f.start.at total ≠ g.start.at total) ∧ ∀ x ∈ v, ∀ f ∈ fs, off + x.pos < f.start.at total

/-- What holds in every phase; `dt` tells that the left-anchored ranges start at different places. -/
structure Common (dt : Bool) (E : σ → Prop) (total : Nat) (st : RangeSlicer σ) (rem : Bytes) (segs : List Seg) : Prop where
  inv : RangeInv st.srcConsumed total st.segments st.cutter segs
  tot : st.srcConsumed + rem.length = total
  max : total < usizeMax
  fin : E st.src → st.cutter.tailFilters = []
  none : ¬ E st.src → st.cutter.tailFilters = [] → st.cutter.tailMargin = 0 ∧ st.cutter.transOffset = usizeMax
  apart : dt = true → ¬ E st.src → Apart total st.srcConsumed st.segments st.cutter.filters

/-- The lent segments lie within `l` bytes, and start before what the end-anchored ranges reserve. -/
def Within (E : σ → Prop) (st : RangeSlicer σ) (l : Nat) : Prop :=
  ∀ x ∈ st.segments, x.tail ≤ l ∧ (¬ E st.src → x.pos + st.cutter.tailMargin < l ∧ st.srcConsumed + x.pos < st.cutter.transOffset)

def Idle (dt : Bool) (Src : ByteSrc σ) (R : σ → Phase → Nat → Bytes → Prop) (E : σ → Prop) (total : Nat) (st : RangeSlicer σ) (w : Nat) (rem : Bytes) (segs : List Seg) : Prop :=
  Common dt E total st rem segs ∧ st.maxConsume ≤ rem.length ∧
    ∃ lb l, R st.src (.idle lb) w rem ∧ Keeps Src st.src l ∧ Within E st l ∧ st.maxConsume ≤ l

def Rel (dt : Bool) (Src : ByteSrc σ) (R : σ → Phase → Nat → Bytes → Prop) (E : σ → Prop) (total : Nat) (st : RangeSlicer σ) :
    SegPhase → Nat → Bytes → List Seg → Prop
  | .idle lb, w, rem, segs => Idle dt Src R E total st w rem segs ∧ lb ≤ st.segments.length
  | .lent eof count cap, w, rem, segs => Common dt E total st rem segs ∧ count = st.segments.length ∧ cap = st.maxConsume ∧
      ∃ n, R st.src (.lent n) w rem ∧ n ≤ rem.length ∧ cap ≤ n ∧ Within E st n ∧
        (∀ f ∈ st.cutter.filters ++ st.cutter.tailFilters, st.srcConsumed + cap ≤ f.start.at total) ∧
        (eof = true → (st.cutter.isEmpty = true ∨ cap = rem.length) ∧ ∀ x ∈ segs, x.pos < cap) ∧
        (dt = true → ∀ x ∈ st.segments, x.pos < cap)
  | .done, w, rem, segs => Idle dt Src R E total st w rem segs ∧ st.maxConsume = 0 ∧ segs = [] ∧ (st.cutter.isEmpty = true ∨ rem = [])

theorem isEmpty_iff (c : Cutter) : c.isEmpty = true ↔ c.filters = [] ∧ c.tailFilters = [] := by
  simp [Cutter.isEmpty, and_comm]

theorem last_max {v : List Seg} (h : v.Pairwise Seg.Lt) {y : Seg} (hy : v.getLast? = some y) : ∀ x ∈ v, x.pos ≤ y.pos := by
  obtain ⟨t, rfl⟩ := List.getLast?_eq_some_iff.1 hy
  rw [List.pairwise_append] at h
  intro x hx
  rcases List.mem_append.1 hx with hx | hx
  · have := h.2.2 x hx y (by simp)
    unfold Seg.Lt at this; omega
  · rw [List.mem_singleton.1 hx]; omega

/-- The outcome of `accumulate` after a fill that lent `n` bytes. -/
theorem accumulate_spec {dt : Bool} {E : σ → Prop} {total : Nat} {st : RangeSlicer σ} {rem : Bytes} {segs : List Seg} (h : Common dt E total st rem segs)
    (eof : Bool) (n : Nat) (hn : n ≤ rem.length) (he : eof = true → n = rem.length) (hE : E st.src → eof = true)
    (hw : eof = false → Within E st n) :
    ∃ mc v c, st.cutter.accumulateSegs st.srcConsumed eof n st.segments = (mc, v, c) ∧ RangeInv st.srcConsumed total v c segs ∧
      st.segments.length ≤ v.length ∧ mc ≤ n ∧ (∀ f ∈ c.filters ++ c.tailFilters, st.srcConsumed + mc ≤ f.start.at total) ∧
      (∀ x ∈ v, x.pos ≤ mc ∧ x.tail ≤ n) ∧ (c.isEmpty = true → mc = n) ∧ ((eof = true ∨ c.isEmpty = true) → v = segs) ∧ (eof = true → mc = n ∧ c.tailFilters = []) ∧
      (eof = false → c.tailMargin = st.cutter.tailMargin ∧ c.transOffset = st.cutter.transOffset ∧ c.tailFilters = st.cutter.tailFilters ∧
        ∀ x ∈ v, x.pos + c.tailMargin < n ∧ st.srcConsumed + x.pos < c.transOffset) ∧ (st.cutter.isEmpty = true → c.isEmpty = true) ∧
      (dt = true → eof = false → Apart total st.srcConsumed v c.filters) ∧ (dt = true → ∀ x ∈ v, x.pos < mc) := by
  have htot := h.tot
  have hmax := h.max
  cases eof with
  | true =>
    have hnr := he rfl
    obtain ⟨c', hc', hI, ht, hm⟩ : ∃ c', (if (true && !st.cutter.tailFilters.isEmpty) = true then
        { st.cutter with
          filters := Cutter.sortFilters (st.cutter.filters ++ st.cutter.tailFilters.map fun f => f.toLeftAnchored (st.srcConsumed + n))
          tailFilters := [] }
        else st.cutter) = c' ∧ RangeInv st.srcConsumed total st.segments c' segs ∧ c'.tailFilters = [] ∧ (st.cutter.isEmpty = true → c' = st.cutter) := by
      refine ⟨_, rfl, ?_⟩
      by_cases hte : st.cutter.tailFilters = []
      · simp only [hte, List.isEmpty_nil, Bool.not_true, Bool.and_false]
        exact ⟨h.inv, hte, fun _ => rfl⟩
      · have : (true && !st.cutter.tailFilters.isEmpty) = true := by simp [hte]
        rw [if_pos this, hnr, htot]
        exact ⟨h.inv.flip, rfl, fun he => absurd ((isEmpty_iff _).1 he).2 hte⟩
    obtain ⟨done, rest, mc', e1, e2, e3, e4, e5, e6, e7, e8, e9⟩ := Cutter.collect_spec total st.srcConsumed n usizeMax
      (fun e _ => by rw [show total - st.srcConsumed = n by omega]) c'.filters n hI.cut.stack (fun f hf => hI.start f (by simp [hf])) (Nat.le_refl _) (by omega)
    have hmc : mc' = n := e9 (by omega)
    subst hmc
    obtain ⟨hI2, hlen⟩ := hI.advance e2 (by simp [ht])
    have hall := hI2.all (fun f hf => by
      rw [show ({ c' with filters := rest } : Cutter).tailFilters = [] from ht, List.append_nil] at hf
      have := e4 f hf
      unfold RangeMapper.seg
      rw [if_neg]
      omega)
    refine ⟨mc', _, { c' with filters := rest }, ?_, hI2, hlen, Nat.le_refl _, ?_, ?_, fun _ => rfl, fun _ => hall, fun _ => ⟨rfl, ht⟩, by simp, ?_, by simp, ?_⟩
    · unfold Cutter.accumulateSegs
      simp only [hc', if_true, e1]
    · intro f hf
      rw [show ({ c' with filters := rest } : Cutter).tailFilters = [] from ht, List.append_nil] at hf
      exact e4 f hf
    · intro x hx
      have := hI2.pos x (hI2.sub x hx)
      have hle : x.pos ≤ x.tail := by simp [Seg.tail]
      omega
    · intro hem
      have hc := hm hem
      rw [isEmpty_iff] at hem ⊢
      rw [hc, hem.1] at e2
      exact ⟨(List.append_eq_nil_iff.1 e2.symm).2, ht⟩
    · intro _ x hx
      have := hI2.pos x (hI2.sub x hx)
      simp only [Seg.tail] at this
      omega
  | false =>
    have hnE : ¬ E st.src := fun hE' => by simpa using hE hE'
    have hW := hw rfl
    have hI := h.inv
    have htl : ∀ g ∈ st.cutter.tailFilters, st.srcConsumed + min (n - st.cutter.tailMargin) (st.cutter.transOffset - st.srcConsumed) ≤ g.start.at total := by
      intro g hg
      have h0 := hI.start g (by simp [hg])
      have hm := hI.cut.margin g hg
      have hr := hI.cut.right g hg
      have htr := hI.cut.trans g hg
      rcases g with ⟨x | x, y | y⟩
      · simp [RangeMapper.hasRightAnchor] at hr
      · have := htr x y rfl
        simp only [Anchor.at] at h0 ⊢; omega
      · simp only [RangeMapper.tailMargin] at hm
        simp only [Anchor.at] at h0 ⊢; omega
      · simp only [RangeMapper.tailMargin] at hm
        simp only [Anchor.at] at h0 ⊢; omega
    obtain ⟨done, rest, mc', e1, e2, e3, e4, e5, e6, e7, e8, e9⟩ := Cutter.collect_spec total st.srcConsumed usizeMax n
      (fun e _ => by omega) st.cutter.filters (min (n - st.cutter.tailMargin) (st.cutter.transOffset - st.srcConsumed)) hI.cut.stack
      (fun f hf => hI.start f (by simp [hf])) (by omega) (by omega)
    obtain ⟨hI2, hlen⟩ := hI.advance e2 (fun f hf g hg => by
      have := e5 f hf
      have := htl g hg
      clear e8
      omega)
    have hmem : ∀ x, x ∈ dedupRuns (st.segments ++ done.filterMap (RangeMapper.seg total st.srcConsumed)) → x ∈ st.segments ∨ ∃ f ∈ done, f.seg total st.srcConsumed = some x := by
      intro x hx
      rwa [mem_dedupRuns, List.mem_append, List.mem_filterMap] at hx
    have hemp : ({ st.cutter with filters := rest } : Cutter).isEmpty = true → mc' = n ∧ rest = [] ∧ st.cutter.tailFilters = [] := by
      intro hem
      obtain ⟨h1, h2⟩ := (isEmpty_iff _).1 hem
      simp only at h1 h2
      obtain ⟨h3, h4⟩ := h.none hnE h2
      refine ⟨?_, h1, h2⟩
      rcases e8 with e8 | ⟨f, hf, _⟩
      · omega
      · rw [h1] at hf; simp at hf
    have hdone : ∀ f ∈ done, st.srcConsumed ≤ f.start.at total := fun f hf => hI.start f (by rw [e2]; simp [hf])
    refine ⟨mc', _, { st.cutter with filters := rest }, ?_, hI2, hlen, by clear e8; omega, ?_, ?_, fun hem => (hemp hem).1, ?_, by simp, fun _ => ⟨rfl, rfl, rfl, ?_⟩, ?_, ?_, ?_⟩
    · unfold Cutter.accumulateSegs
      simp only [Bool.false_and, Bool.false_eq_true, if_false, e1]
    · intro f hf
      rcases List.mem_append.1 hf with hf | hf
      · exact e4 f hf
      · have := htl f hf
        clear e8; omega
    · intro x hx
      rcases hmem x hx with hx | ⟨f, hf, hx⟩
      · obtain ⟨w1, w2⟩ := hW x hx
        have w2 := w2 hnE
        refine ⟨?_, w1⟩
        rcases e8 with e8 | ⟨f, hf, e8⟩
        · omega
        · have := (hI.ord x hx f (by rw [e2]; simp [hf])).1
          omega
      · have h1 := (RangeMapper.seg_some hx (hdone f hf)).1
        have := e6 f hf
        refine ⟨by clear e8; omega, e7 x (List.mem_filterMap.2 ⟨f, hf, hx⟩)⟩
    · rintro (h' | h')
      · cases h'
      · obtain ⟨_, h1, h2⟩ := hemp h'
        refine hI2.all fun f hf => ?_
        simp [h1, h2] at hf
    · intro x hx
      rcases hmem x hx with hx | ⟨f, hf, hx⟩
      · exact (hW x hx).2 hnE
      · have h1 := (RangeMapper.seg_some hx (hdone f hf)).1
        have := e5 f hf
        clear e8
        simp only
        omega
    · intro hem
      rw [isEmpty_iff] at hem ⊢
      rw [hem.1] at e2
      exact ⟨(List.append_eq_nil_iff.1 e2.symm).2, hem.2⟩
    · intro hdt _
      obtain ⟨d1, d2⟩ := h.apart hdt hnE
      rw [e2, List.pairwise_append] at d1
      refine ⟨d1.2.1, fun x hx f hf => ?_⟩
      rcases hmem x hx with hx | ⟨g, hg, hx⟩
      · exact d2 x hx f (by rw [e2]; simp [show f ∈ rest from hf])
      · have h1 := (RangeMapper.seg_some hx (hdone g hg)).1
        have h2 := d1.2.2 g hg f hf
        have h3 := e6 g hg
        have h4 := e4 f hf
        clear e8
        omega
    · intro hdt x hx
      obtain ⟨d1, d2⟩ := h.apart hdt hnE
      rw [e2, List.pairwise_append] at d1
      rcases hmem x hx with hx | ⟨g, hg, hx⟩
      · have w2 := (hW x hx).2 hnE
        rcases e8 with e8 | ⟨f, hf, e8⟩
        · omega
        · have := d2 x hx f (by rw [e2]; simp [hf])
          omega
      · have h1 := (RangeMapper.seg_some hx (hdone g hg)).1
        have h5 := e5 g hg
        rcases e8 with e8 | ⟨f, hf, e8⟩
        · omega
        · have h2 := d1.2.2 g hg f hf
          have h3 := e6 g hg
          omega

theorem faithful (dt : Bool) {Src : ByteSrc σ} {F M R L E} (h : Serves Src F M R) (hA : Ample Src R L E) (hM : ∀ m, M m → AnyMargin m) (B total : Nat) :
    SegFaithful (segSrc Src B) (kind dt) F (Rel dt Src R E total) := by
  have fillAny : ∀ (st : RangeSlicer σ) (w : Nat) (rem : Bytes) (segs : List Seg), Idle dt Src R E total st w rem segs →
      (∃ e, F e ∧ (segSrc Src B).fill st = .error e) ∨
      ∃ eof bytes w' s', (segSrc Src B).fill st = .ok ((eof, bytes, s'.segments.length, s'.maxConsume), s') ∧
        Rel dt Src R E total s' (.lent eof s'.segments.length s'.maxConsume) w' rem segs ∧
        SegLent rem segs ((segSrc Src B).slices s') bytes s'.segments.length ∧ s'.maxConsume ≤ bytes ∧
        (∀ x ∈ segs.drop s'.segments.length, s'.maxConsume ≤ x.pos) ∧
        (eof = true → s'.segments.length = segs.length ∧ s'.maxConsume = bytes) ∧
        (∀ x ∈ segs.take s'.segments.length, x.pos ≤ s'.maxConsume) ∧ w' ≤ w ∧ (eof = false → w' < w) ∧ st.segments.length ≤ s'.segments.length ∧
        (segs = [] → st.maxConsume = 0 → (st.cutter.isEmpty = true ∨ rem = []) → eof = true ∧ bytes = 0) := by
    rintro st w rem segs ⟨hC, hmr, lb, l, hR, hK, hW, hml⟩
    simp only [segSrc, fill]
    rcases h.fill _ _ _ _ B hR with ⟨er, hF, heq⟩ | ⟨eof, n, w', s', heq, hR', hn, hm, he', hne', hw', hw''⟩
    · left; exact ⟨er, hF, by rw [heq]⟩
    right
    obtain ⟨a1, a2, a3⟩ := hA.fill _ _ _ _ _ _ _ _ hR heq
    rw [heq]
    simp only
    have hln : eof = false → l ≤ n := by rintro rfl; exact hK _ _ _ heq
    have hslice : 0 < n → ∃ m, AnyMargin m ∧ Src.slice s' = rem.take n ++ m := by
      intro h0; obtain ⟨m, h1, h2⟩ := hm h0; exact ⟨m, hM m h1, h2⟩
    obtain ⟨mc, v, c, hacc, hI, hlen, hmcn, hst, hvb, hem, hall, heof, hneof, hkeep, hap, hapc⟩ := accumulate_spec hC eof n hn he' a3 (fun he x hx => by
      have hl := hln he
      obtain ⟨w1, w2⟩ := hW x hx
      exact ⟨by omega, fun hE => ⟨by have := w2 hE; omega, (w2 hE).2⟩⟩)
    rw [hacc]
    simp only
    have htot := hC.tot
    have hpre := hI.pre
    have hvl := hI.len_le
    have hCom : ∀ mc' : Nat, Common dt E total { st with src := s', segments := v, cutter := c, maxConsume := mc' } rem segs := by
      intro mc'
      refine ⟨hI, hC.tot, hC.max, fun hE => (heof (a2.1 hE)).2, fun hE ht => ?_, fun hdt hE => hap hdt (by cases eof with | false => rfl | true => exact absurd (a2.2 rfl) hE)⟩
      simp only at hE ht ⊢
      have he : eof = false := by
        cases eof with
        | false => rfl
        | true => exact absurd (a2.2 rfl) hE
      obtain ⟨t1, t2, t3, _⟩ := hneof he
      rw [t1, t2]
      rw [t3] at ht
      exact hC.none (fun hE' => by simpa [he] using a3 hE') ht
    have hWi : ∀ mc' : Nat, Within E { st with src := s', segments := v, cutter := c, maxConsume := mc' } n := by
      intro mc' x hx
      refine ⟨(hvb x hx).2, fun hE => ?_⟩
      have he : eof = false := by
        cases eof with
        | false => rfl
        | true => exact absurd (a2.2 rfl) hE
      exact (hneof he).2.2.2 x hx
    have hdrop : ∀ x ∈ segs.drop v.length, ∃ f ∈ c.filters ++ c.tailFilters, f.seg total st.srcConsumed = some x := by
      intro x hx
      rcases (hI.mem x).1 (List.mem_of_mem_drop hx) with hx' | hx'
      · exfalso
        rw [hpre] at hx'
        have hp := hI.strict
        rw [← List.take_append_drop v.length segs, List.pairwise_append] at hp
        exact (hp.2.2 x hx' x hx).irrefl
      · exact hx'
    have htake : segs.take v.length = v := hpre.symm
    by_cases hce : c.isEmpty = true
    · rw [if_pos hce]
      have hmcn := hem hce
      have hvs : v = segs := hall (Or.inr hce)
      -- the reported number of bytes
      obtain ⟨bytes, hbytes, hbn, hbz, hbp⟩ : ∃ bytes, (v.getLast?.map Seg.tail).getD st.maxConsume = bytes ∧ bytes ≤ n ∧
          (segs = [] → bytes = st.maxConsume) ∧ ∀ x ∈ segs, x.pos < bytes := by
        cases hgl : v.getLast? with
        | none =>
          have hv : v = [] := List.getLast?_eq_none_iff.1 hgl
          refine ⟨_, rfl, ?_, fun _ => rfl, by rw [← hvs, hv]; simp⟩
          cases eof with
          | true => rw [he' rfl]; exact hmr
          | false => have := hln rfl; simp only [Option.map_none, Option.getD_none]; omega
        | some y =>
          have hy : y ∈ v := List.mem_of_getLast? hgl
          refine ⟨_, rfl, (hvb y hy).2, ?_, ?_⟩
          · intro h0; rw [hvs, h0] at hy; simp at hy
          · intro x hx
            have h1 := last_max hI.v_strict hgl x (by rw [hvs]; exact hx)
            have h2 := (hI.pos y (hI.sub y hy)).1
            show x.pos < y.pos + y.len
            omega
      rw [hbytes]
      have hmin : min bytes mc = bytes := by omega
      rw [hmin]
      refine ⟨true, bytes, w', _, rfl, ⟨hCom _, rfl, rfl, n, hR', hn, hbn, hWi _, ?_, fun _ => ⟨Or.inl hce, hbp⟩, fun _ x hx => hbp x (by rw [← hvs]; exact hx)⟩, ?_, Nat.le_refl _, ?_, ?_, ?_, hw', by simp, hlen, ?_⟩
      · intro f hf
        obtain ⟨c1, c2⟩ := (isEmpty_iff _).1 hce
        simp [c1, c2] at hf
      · refine ⟨hvl, hpre, n, hbn, hn, hslice, ?_⟩
        intro x hx
        simp only [htake] at hx
        exact (hvb x hx).2
      · intro x hx
        simp only [hvs, List.drop_length] at hx
        simp at hx
      · intro _; exact ⟨congrArg List.length hvs, rfl⟩
      · intro x hx
        simp only [hvs, List.take_length] at hx
        exact Nat.le_of_lt (hbp x hx)
      · intro h0 h1 _
        exact ⟨rfl, by rw [hbz h0, h1]⟩
    · rw [if_neg hce]
      refine ⟨eof, n, w', _, rfl, ⟨hCom _, rfl, rfl, n, hR', hn, hmcn, hWi _, hst, fun he => ?_, hapc⟩, ?_, hmcn, ?_, ?_, ?_, hw', fun he => hw'' he trivial, hlen, ?_⟩
      · simp only
        refine ⟨Or.inr ?_, fun x hx => ?_⟩
        · rw [(heof he).1]; exact he' he
        · have h1 := hI.pos x hx
          have := he' he
          have := (heof he).1
          simp only [Seg.tail] at h1
          omega
      · refine ⟨hvl, hpre, n, Nat.le_refl _, hn, hslice, ?_⟩
        intro x hx
        simp only [htake] at hx
        exact (hvb x hx).2
      · intro x hx
        obtain ⟨f, hf, hx⟩ := hdrop x hx
        have h1 := (RangeMapper.seg_some hx (hI.start f hf)).1
        have := hst f hf
        simp only
        omega
      · intro he
        exact ⟨congrArg List.length (hall (Or.inl he)), (heof he).1⟩
      · intro x hx
        simp only [htake] at hx
        exact (hvb x hx).1
      · rintro h0 h1 (h2 | h2)
        · exact absurd (hkeep h2) hce
        · subst h2
          simp only [List.length_nil] at hn
          cases eof with
          | true => exact ⟨rfl, by omega⟩
          | false => have := (hne' rfl).1; omega
  constructor
  · rintro st lb w rem segs ⟨hI, hlb⟩
    rcases fillAny st w rem segs hI with h' | ⟨eof, bytes, w', s', h1, h2, h3, h4, h5, h6, h7, h8, h9, h10, _⟩
    · exact Or.inl h'
    · refine Or.inr ⟨eof, bytes, _, _, _, w', s', h1, h2, h3, h4, h5, Or.inl rfl, fun he => ⟨(h6 he).1, (h6 he).2, by simp [kind]⟩, fun _ => h7, h8, h9, fun _ => by omega, by simp [kind]⟩
  · rintro st eof count cap w rem segs k ⟨hC, rfl, rfl, n, hR, hn, hcn, hW, hst, heof, hapc⟩ hk
    have hk' : min k st.maxConsume ≤ n := by omega
    obtain ⟨s2, w2, heq2, hR2, hw2⟩ := h.consume _ _ _ _ (min k st.maxConsume) hR hk'
    have hvsort : Sorted st.segments := Spec.StrictlySorted.sorted hC.inv.v_strict
    obtain ⟨d, hcut, hdl, hd1, hd2⟩ := cutSegs_spec (min k st.maxConsume) st.segments hvsort
    obtain ⟨hI2, hs1, hs2⟩ := hC.inv.shift (k := min k st.maxConsume) (d := d) (fun f hf => by have := hst f hf; omega) hd1 hd2 hdl
    generalize hkk : min k st.maxConsume = kk at *
    have htot := hC.tot
    have hcE := hA.consume _ _ _ heq2
    have hIdle : Idle dt Src R E total { st with src := s2, segments := (st.segments.drop d).map (Seg.shift kk), srcConsumed := st.srcConsumed + kk, maxConsume := st.maxConsume - kk } w2
        (rem.drop kk) ((segs.drop d).map (Seg.shift kk)) := by
      refine ⟨⟨hI2, by simp only [List.length_drop]; omega, hC.max, fun hE => hC.fin (hcE.1 hE), fun hE => hC.none fun h' => hE (hcE.2 h'), fun hdt hE => ?_⟩, by simp only [List.length_drop]; omega,
        _, n - kk, hR2, fun req n' s3 h3 => hA.keep _ _ _ _ _ _ _ _ _ _ hR hk' heq2 h3 rfl, ?_, by simp only; omega⟩
      · obtain ⟨d1, d2⟩ := hC.apart hdt fun h' => hE (hcE.2 h')
        refine ⟨d1, fun x hx f hf => ?_⟩
        obtain ⟨y, hy, rfl⟩ := List.mem_map.1 hx
        have := d2 y (List.mem_of_mem_drop hy) f hf
        have := hd2 y hy
        simp only [Seg.shift]
        omega
      intro x hx
      obtain ⟨y, hy, rfl⟩ := List.mem_map.1 hx
      obtain ⟨w1, w2⟩ := hW y (List.mem_of_mem_drop hy)
      have hky := hd2 y hy
      rw [Seg.shift_tail _ _ hky]
      refine ⟨by omega, fun hE => ?_⟩
      have := w2 fun h' => hE (hcE.2 h')
      simp only [Seg.shift]
      omega
    refine ⟨kk, d, w2, { st with src := s2, segments := (st.segments.drop d).map (Seg.shift kk), srcConsumed := st.srcConsumed + kk, maxConsume := st.maxConsume - kk }, ?_, by omega, by omega, hdl, hs1, hs2, ?_, hw2, fun _ hk => by omega, fun hdt hk => ?_, fun _ _ hk _ _ _ _ _ _ => by omega⟩
    · simp only [segSrc, hkk, heq2, hcut]
    · by_cases hd : eof = true ∧ kk = st.maxConsume
      · rw [if_pos hd]
        obtain ⟨e1, e2⟩ := heof hd.1
        have hnil : segs.drop d = [] := by
          cases hx : segs.drop d with
          | nil => rfl
          | cons x xs =>
            have h1 := e2 x (List.mem_of_mem_drop (i := d) (by rw [hx]; simp))
            have h2 := hs2 x (by rw [hx]; simp)
            omega
        refine ⟨hIdle, by simp only; omega, by rw [hnil]; rfl, ?_⟩
        rcases e1 with e1 | e1
        · exact Or.inl e1
        · right
          rw [hd.2, e1]; simp
      · rw [if_neg hd]
        exact ⟨hIdle, by simp⟩
    · have hnil : st.segments.drop d = [] := by
        cases hx : st.segments.drop d with
        | nil => rfl
        | cons x xs =>
          have h1 := hapc hdt x (List.mem_of_mem_drop (i := d) (by rw [hx]; simp))
          have h2 := hd2 x (by rw [hx]; simp)
          omega
      have := congrArg List.length hnil
      rw [List.length_drop, List.length_nil] at this
      omega
  · rintro st w rem segs ⟨hI, hm0, rfl, hce⟩
    rcases fillAny st w rem [] hI with h' | ⟨eof, bytes, w', s', h1, h2, h3, h4, h5, h6, h7, h8, h9, h10, h11⟩
    · exact Or.inl h'
    · obtain ⟨rfl, rfl⟩ := h11 rfl hm0 hce
      obtain ⟨e1, e2⟩ := h6 rfl
      rw [e1, e2] at h1 h2
      rw [e1] at h3
      exact Or.inr ⟨w', s', h1, h2, h3, h8⟩

/-- A range denotes what the specification says. -/
theorem seg_spec (m : SegmentMapper) (total : Nat) (x : Seg) : (RangeMapper.ofMapper m).seg total 0 = some x ↔
    0 < x.len ∧ (x.pos : Int) = max 0 (m.toSpec.1.at total) ∧ (x.tail : Int) = min (total : Int) (m.toSpec.2.at total) := by
  obtain ⟨⟨a, p⟩, ⟨b, q⟩⟩ := m
  obtain ⟨xp, xl⟩ := x
  simp only [RangeMapper.seg, RangeMapper.ofMapper, RangeMapper.anchorOf, SegmentMapper.toSpec, RangeEnd.at, Seg.tail]
  by_cases h1 : a = 0 <;> by_cases h2 : b = 0 <;> simp only [h1, h2, bne_self_eq_false, if_true, if_false, Anchor.at, bne_iff_ne, ne_eq, not_false_eq_true, Bool.false_eq_true]
  all_goals
    split
    · simp only [Option.some.injEq, Seg.mk.injEq]; omega
    · simp only [reduceCtorEq, false_iff]; omega

/-- The ranges with both ends anchored at the start begin at different places. -/
def Distinct (ms : List SegmentMapper) : Prop :=
  (ms.filter fun m => m.start.anchor == 0 && m.stop.anchor == 0).Pairwise fun a b => max 0 a.start.offset ≠ max 0 b.start.offset

instance (ms : List SegmentMapper) : Decidable (Distinct ms) := by unfold Distinct; infer_instance

theorem delivers {Src : ByteSrc σ} {F M L} {s : σ} {w : Nat} {content : Bytes} (h : ServesAmply Src F M L s w content)
    (hM : ∀ m, M m → AnyMargin m) (B : Nat) {oc : Bool} {ms : List SegmentMapper} {st : RangeSlicer σ}
    (hst : new oc s (ms.map RangeMapper.ofMapper) = .ok st) (hmax : content.length < usizeMax) {segs : List Seg}
    (hs : IsSlices (ms.map SegmentMapper.toSpec) content.length segs) : SegDelivers (segSrc Src B) (kind (decide (Distinct ms))) F st w content segs := by
  obtain ⟨R, E, hS, hA, hR, hE⟩ := h
  unfold new at hst
  split at hst
  · cases hst
  rename_i c hc
  rw [Except.ok.injEq] at hst
  subst hst
  have hmem : ∀ f, f ∈ c.filters ++ c.tailFilters ↔ ∃ m ∈ ms, RangeMapper.ofMapper m = f := by
    intro f
    unfold Cutter.ofRanges at hc
    simp only at hc
    split at hc
    · cases hc
    · rw [Except.ok.injEq] at hc
      subst hc
      simp only [Cutter.sortFilters, List.mem_append, (stableSort_perm _ _).mem_iff, List.mem_filter, List.mem_map]
      cases f.hasRightAnchor <;> simp
  refine ⟨Rel (decide (Distinct ms)) Src R E content.length, faithful _ hS hA hM B content.length, ⟨⟨⟨⟨(Cutter.ofRanges_inv hc).1, by simp, hs.1, by simp, ?_, by simp, ?_⟩, by simp, hmax, fun h => absurd h hE, ?_, ?_⟩,
    Nat.zero_le _, _, 0, hR, fun _ _ _ _ => Nat.zero_le _, by simp [Within], Nat.zero_le _⟩, Nat.zero_le _⟩⟩
  · intro x
    rw [hs.2 x]
    simp only [List.not_mem_nil, false_or, hmem]
    constructor
    · rintro ⟨h1, r, hr, h2⟩
      obtain ⟨m, hm, rfl⟩ := List.mem_map.1 hr
      exact ⟨_, ⟨m, hm, rfl⟩, (seg_spec m _ x).2 ⟨h1, h2⟩⟩
    · rintro ⟨f, ⟨m, hm, rfl⟩, h1⟩
      obtain ⟨h1, h2⟩ := (seg_spec m _ x).1 h1
      exact ⟨h1, _, List.mem_map.2 ⟨m, hm, rfl⟩, h2⟩
  · intro x hx
    obtain ⟨h1, r, hr, _, h2⟩ := (hs.2 x).1 hx
    exact ⟨h1, by simp only; omega⟩
  · intro _ ht
    unfold Cutter.ofRanges at hc
    simp only at hc ht ⊢
    split at hc
    · cases hc
    · rename_i t htr
      rw [Except.ok.injEq] at hc
      subst hc
      simp only at ht ⊢
      rw [ht] at htr ⊢
      simp only [Cutter.minTrans, Except.ok.injEq] at htr
      exact ⟨rfl, htr.symm⟩
  · intro hdt _
    refine ⟨?_, by simp⟩
    simp only [decide_eq_true_eq] at hdt
    unfold Cutter.ofRanges at hc
    simp only at hc ⊢
    split at hc
    · cases hc
    · rw [Except.ok.injEq] at hc
      subst hc
      simp only [Cutter.sortFilters]
      refine (stableSort_perm _ _).symm.pairwise ?_ fun h => h.symm
      rw [List.filter_map, List.pairwise_map]
      have hfe : ∀ m : SegmentMapper, ((fun r : RangeMapper => !r.hasRightAnchor) ∘ RangeMapper.ofMapper) m = (m.start.anchor == 0 && m.stop.anchor == 0) := by
        rintro ⟨⟨a, p⟩, ⟨b, q⟩⟩
        by_cases h1 : a = 0 <;> by_cases h2 : b = 0 <;> simp [Function.comp, RangeMapper.ofMapper, RangeMapper.anchorOf, RangeMapper.hasRightAnchor, h1, h2]
      rw [List.filter_congr fun m _ => hfe m]
      refine List.Pairwise.imp_of_mem ?_ hdt
      intro a b ha hb hab
      obtain ⟨_, ha⟩ := List.mem_filter.1 ha
      obtain ⟨_, hb⟩ := List.mem_filter.1 hb
      simp only [Bool.and_eq_true, beq_iff_eq] at ha hb
      simp only [RangeMapper.ofMapper, RangeMapper.anchorOf, ha.1, hb.1, if_true, Anchor.at]
      omega

/-- Every list of ranges denotes a list of slices. -/
theorem isSlices_exists (ranges : List (RangeEnd × RangeEnd)) (len : Nat) : ∃ segs, IsSlices ranges len segs := by
  let f : RangeEnd × RangeEnd → Option Seg := fun r =>
    if max 0 (r.1.at len) < min (len : Int) (r.2.at len) then
      some { pos := (max 0 (r.1.at len)).toNat, len := (min (len : Int) (r.2.at len) - max 0 (r.1.at len)).toNat }
    else none
  let le : Seg → Seg → Bool := fun a b => decide (a.pos < b.pos ∨ (a.pos = b.pos ∧ a.tail ≤ b.tail))
  have hp : ((ranges.filterMap f).mergeSort le).Pairwise Seg.Le := by
    refine (List.pairwise_mergeSort (le := le) ?_ ?_ _).imp fun h => by simpa [le, Seg.Le] using h
    · intro a b c; simp only [le, decide_eq_true_eq]; omega
    · intro a b; simp only [le, Bool.or_eq_true, decide_eq_true_eq]; omega
  refine ⟨dedupRuns ((ranges.filterMap f).mergeSort le), dedupRuns_strict _ hp, fun x => ?_⟩
  rw [mem_dedupRuns, (List.mergeSort_perm _ _).mem_iff, List.mem_filterMap]
  constructor
  · rintro ⟨r, hr, h⟩
    simp only [f] at h
    split at h
    · rw [Option.some.injEq] at h
      subst h
      simp only [Seg.tail]
      exact ⟨by omega, r, hr, by omega, by omega⟩
    · cases h
  · rintro ⟨h0, r, hr, h1, h2⟩
    refine ⟨r, hr, ?_⟩
    obtain ⟨p, l⟩ := x
    simp only [Seg.tail] at h0 h1 h2
    simp only [f]
    rw [if_pos (by omega)]
    simp only [Option.some.injEq, Seg.mk.injEq]
    omega

end RangeSlicer

end Nd
