import Verif.Proof.Map
import Verif.Props.Merge
import Verif.Props.Range
/-!
# C23 and C24: inverting and extending slices
-/
namespace Nd.Props
open Nd Nd.Spec

/-! ## What the specification of `--invert` means -/

theorem gaps_cover (len : Nat) : ∀ (segs : List Seg) (p : Int), Sorted segs → (∀ x ∈ segs, x.tail ≤ len) → ∀ i : Int,
    (∃ g ∈ gaps p segs len, g.1 ≤ i ∧ i < g.2) ↔ p ≤ i ∧ i < len ∧ ¬ ∃ x ∈ segs, (x.pos : Int) ≤ i ∧ i < x.tail
  | [], p, _, _, i => by
    rw [show gaps p [] len = if p < (len : Int) then [(p, (len : Int))] else [] from rfl]
    by_cases h : p < (len : Int)
    · simp [h]
    · simp only [h, if_false]
      constructor
      · rintro ⟨g, hg, _⟩; simp at hg
      · rintro ⟨h1, h2, _⟩; omega
  | x :: xs, p, hs, ht, i => by
    have ih := gaps_cover len xs (max p (x.tail : Int)) (List.pairwise_cons.1 hs).2 (fun y hy => ht y (by simp [hy])) i
    have hx := ht x (by simp)
    have hxs := (List.pairwise_cons.1 hs).1
    have hg : gaps p (x :: xs) len = (if p < (x.pos : Int) then [(p, (x.pos : Int))] else []) ++ gaps (max p (x.tail : Int)) xs len := by
      rw [show x :: xs = [x] ++ xs from rfl, gaps_append]
      simp only [gapsBefore, lastEnd, List.append_nil]
    rw [hg]
    have hxt : x.pos ≤ x.tail := by simp only [Seg.tail]; omega
    constructor
    · rintro ⟨g, hg, h1, h2⟩
      rcases List.mem_append.1 hg with hg | hg
      · split at hg
        · simp only [List.mem_singleton] at hg
          subst hg
          simp only at h1 h2
          refine ⟨h1, by omega, ?_⟩
          rintro ⟨y, hy, h3, h4⟩
          rcases List.mem_cons.1 hy with rfl | hy
          · omega
          · have := hxs y hy
            omega
        · simp at hg
      · obtain ⟨h3, h4, h5⟩ := ih.1 ⟨g, hg, h1, h2⟩
        refine ⟨by omega, h4, ?_⟩
        rintro ⟨y, hy, h6, h7⟩
        rcases List.mem_cons.1 hy with rfl | hy
        · omega
        · exact h5 ⟨y, hy, h6, h7⟩
    · rintro ⟨h1, h2, h3⟩
      by_cases h4 : i < (x.pos : Int)
      · exact ⟨(p, (x.pos : Int)), by simp; left; omega, h1, h4⟩
      · have h5 : (x.tail : Int) ≤ i := by
          by_cases h5 : (x.tail : Int) ≤ i
          · exact h5
          · exact absurd ⟨x, by simp, by omega, by omega⟩ h3
        obtain ⟨g, hg, h6⟩ := ih.2 ⟨by omega, h2, fun ⟨y, hy, h⟩ => h3 ⟨y, by simp [hy], h⟩⟩
        exact ⟨g, by simp [hg], h6⟩

theorem gaps_apart (len : Nat) : ∀ (segs : List Seg) (p : Int), Sorted segs → (∀ x ∈ segs, 0 < x.len) →
    (gaps p segs len).Pairwise (fun a b => a.2 < b.1)
  | [], p, _, _ => by
    rw [show gaps p [] len = if p < (len : Int) then [(p, (len : Int))] else [] from rfl]
    split <;> simp
  | x :: xs, p, hs, ht => by
    have ih := gaps_apart len xs (max p (x.tail : Int)) (List.pairwise_cons.1 hs).2 (fun y hy => ht y (by simp [hy]))
    have hx := ht x (by simp)
    have hg : gaps p (x :: xs) len = (if p < (x.pos : Int) then [(p, (x.pos : Int))] else []) ++ gaps (max p (x.tail : Int)) xs len := by
      rw [show x :: xs = [x] ++ xs from rfl, gaps_append]
      simp only [gapsBefore, lastEnd, List.append_nil]
    rw [hg]
    split
    · refine List.pairwise_cons.2 ⟨?_, ih⟩
      intro b hb
      have := (gaps_mem hb).1
      simp only [Seg.tail] at this ⊢
      omega
    · exact ih

/-- What the gaps are: for slices sorted by start, each position lies in a gap if and only if no slice covers it; the gaps are
not empty, and there is something between any two of them. -/
theorem C23_gaps_meaning (segs : List Seg) (len : Nat) (hs : Sorted segs) (ht : ∀ x ∈ segs, 0 < x.len ∧ x.tail ≤ len) :
    (∀ i : Nat, (∃ g ∈ gaps 0 segs len, g.1 ≤ i ∧ (i : Int) < g.2) ↔ i < len ∧ ¬ ∃ x ∈ segs, x.pos ≤ i ∧ i < x.tail) ∧
    (∀ g ∈ gaps 0 segs len, 0 ≤ g.1 ∧ g.1 < g.2) ∧ (gaps 0 segs len).Pairwise (fun a b => a.2 < b.1) := by
  refine ⟨fun i => ?_, fun g hg => gaps_mem hg, gaps_apart len segs 0 hs fun x hx => (ht x hx).1⟩
  rw [gaps_cover len segs 0 hs (fun x hx => (ht x hx).2) i]
  constructor
  · rintro ⟨_, h1, h2⟩
    exact ⟨by omega, fun ⟨x, hx, h3, h4⟩ => h2 ⟨x, hx, by omega, by omega⟩⟩
  · rintro ⟨h1, h2⟩
    exact ⟨by omega, by omega, fun ⟨x, hx, h3, h4⟩ => h2 ⟨x, hx, by omega, by omega⟩⟩

example : gaps 0 [⟨2, 3⟩, ⟨3, 5⟩, ⟨8, 1⟩, ⟨12, 2⟩] 20 = [(0, 2), (9, 12), (14, 20)] := by decide

/-! ## `--invert` -/

theorem images_one_sorted (r : RangeEnd × RangeEnd) (len : Nat) (gs : List (Int × Int)) (h : gs.Pairwise (fun a b => a.1 ≤ b.1 ∧ a.2 ≤ b.2)) :
    (gs.flatMap (images [r] len)).Pairwise Seg.Le := by
  have he : gs.flatMap (images [r] len) = gs.filterMap fun g => clipped len (r.1.on g) (r.2.on g) := by
    clear h
    induction gs with
    | nil => rfl
    | cons g gs ih =>
      simp only [List.flatMap_cons, List.filterMap_cons, images, ih, List.filterMap_nil]
      split <;> simp
  rw [he, List.pairwise_filterMap]
  refine h.imp ?_
  intro a b hab x hx y hy
  have hon : ∀ q : RangeEnd, q.on a ≤ q.on b := by
    intro q; simp only [RangeEnd.on]; split <;> omega
  have h1 := hon r.1
  have h2 := hon r.2
  simp only [clipped] at hx hy
  split at hx
  · split at hy
    · cases hx
      cases hy
      simp only [Seg.Le, Seg.tail]
      omega
    · cases hy
  · cases hx

theorem Seg.Le.pairwise_sorted {l : List Seg} (h : l.Pairwise Seg.Le) : Sorted l := by
  refine h.imp ?_
  intro a b hab
  simp only [Seg.Le] at hab
  omega

/-- **C23** over every stream that lends all bytes up to the end, keeps what it lends, and lends slices of at most `H` bytes: `--invert
S..E,...` delivers exactly the images of the gaps, in the order of the gaps, if these are sorted and no image ends behind the gap it
comes from (the last gap excepted). -/
theorem C23_invert_partial {S : SegSrc σ} {K F} {s : σ} {w : Nat} {content : Bytes} {segs : List Seg} (h : SegServes S K F s w content segs)
    (hfull : K.full = true) (hh : K.honest = true) (hst : K.steady = true) (he : K.early = true)
    (ms : List SegmentMapper) (hms : ms ≠ []) (H : Nat) (hp : ∀ lent k, (∀ x ∈ lent, x.tail ≤ k + H) → K.policy lent k)
    (hH : ∀ m ∈ ms, -(H : Int) ≤ m.toSpec.1.on (0, 1) ∧ -(H : Int) ≤ m.toSpec.2.on (0, 1))
    (hsegs : ∀ x ∈ segs, x.tail ≤ content.length ∧ x.len ≤ H)
    (hfits : ∀ g ∈ gapsBefore 0 segs, ∀ m ∈ ms, m.toSpec.2.on g ≤ g.2)
    (hso : Sorted (invert (ms.map SegmentMapper.toSpec) segs content.length)) (hlen : content.length < 2 ^ 64)
    (hz : K.strict = false := by first | rfl | assumption) :
    SegServes (MapStream.segSrc S (Bridge.ops ms)) (MapStream.kind K) F (Bridge.new s) w content (invert (ms.map SegmentMapper.toSpec) segs content.length) ∧
    SegDrains (MapStream.segSrc S (Bridge.ops ms)) F (Bridge.new s) (slicesOf content (invert (ms.map SegmentMapper.toSpec) segs content.length)) ∧
    (K.Free → SegReads (MapStream.segSrc S (Bridge.ops ms)) F (Bridge.new s) (slicesOf content (invert (ms.map SegmentMapper.toSpec) segs content.length))) := by
  have := MapStream.serves h hfull hh hst he (Bridge.laws ms hms H hH) hp 0 ⟨by simp, by omega, hsegs, hfits, by unfold usizeMax; omega⟩ ⟨hso, fun z hz => by
    obtain ⟨g, hg, hz⟩ := List.mem_flatMap.1 hz
    obtain ⟨r, hr, h1, h2, h3, h4⟩ := images_mem hz
    exact ⟨h1, h2⟩⟩
  exact ⟨this, this.delivers.drains, fun hf => this.delivers.reads fun _ _ => hf⟩

theorem invert_one_sorted (r : RangeEnd × RangeEnd) (segs : List Seg) (len : Nat) (hs : Sorted segs) (ht : ∀ x ∈ segs, 0 < x.len) : Sorted (invert [r] segs len) := by
  refine Seg.Le.pairwise_sorted (images_one_sorted r len _ ?_)
  have h1 := gaps_apart len segs 0 hs ht
  refine h1.imp_of_mem ?_
  intro a b ha hb hab
  have := gaps_mem ha
  have := gaps_mem hb
  omega

theorem strides_mem {len pitch : Nat} {start stop : Int} {x : Seg} (hx : x ∈ strides len pitch start stop) :
    0 < x.len ∧ x.tail ≤ len ∧ (x.len : Int) ≤ stop - start := by
  obtain ⟨i, _, h⟩ := List.mem_filterMap.1 hx
  split at h
  · cases h
    simp only [Seg.tail]
    omega
  · cases h

/-- **C23** for `--width N,S..E --invert S'..e-y`, for every file and `read()` schedule: clients that consume all they may see exactly
the images of the gaps between the slices. -/
theorem C23_width_invert_partial (B fuel fuel' : Nat) (filler : Byte) (content : Bytes) (sched : Nat → Option Nat) (hB : 0 < B) (hf : content.length < fuel)
    (hlen : content.length < 2 ^ 64) (pitch : Nat) (m : SegmentMapper) (start stop : Int) (hp : 0 < pitch)
    (hm : m.evaluate (0, pitch) (0, pitch) = (start, stop)) (hne : start < stop) (hstop : 1 ≤ stop) (hstart : -(15 * pitch) < start) (hf' : 1 < fuel')
    (m' : SegmentMapper) (H : Nat) (hend : m'.stop.anchor = 1 ∧ -(H : Int) ≤ m'.stop.offset ∧ m'.stop.offset ≤ 0) (hbeg : -(H : Int) ≤ m'.start.offset) (hspan : stop - start ≤ H)
    (hL : 2 * stop - start + 2 * pitch + H < ((B - 1784) / 8 : Nat)) :
    ∃ p st, ConstSlicerParams.fromRaw fuel' pitch m = .ok p ∧
      ConstSlicer.new (RawStream.new B (Reader.open content sched) 1 filler) p = .ok st ∧
      SegDrains (MapStream.segSrc (ConstSlicer.segSrc (RawStream.byteSrc B fuel)) (Bridge.ops [m'])) (IoErr [sched]) (Bridge.new st)
        (slicesOf content (invert [m'.toSpec] (strides content.length pitch start stop) content.length)) := by
  obtain ⟨p, st, h1, h2, _, h3⟩ := width_serves (.slack H) (file_amply B fuel filler content sched hB hf) (fun _ => NlMargin.any) fuel' pitch m start stop
    hp hm hne hstop hstart hf' (by simp only [ConstSlicer.Manner.need]; omega)
  refine ⟨p, st, h1, h2, (C23_invert_partial h3 rfl rfl rfl rfl [m'] (by simp) H (fun _ _ h => h) ?_ ?_ ?_ ?_ hlen).2.1⟩
  · intro m hm
    simp only [List.mem_singleton] at hm
    subst hm
    simp only [SegmentMapper.toSpec, RangeEnd.on, hend.1]
    constructor
    · split <;> omega
    · simp; omega
  · intro x hx
    have := strides_mem hx
    exact ⟨this.2.1, by omega⟩
  · intro g _ m hm
    simp only [List.mem_singleton] at hm
    subst hm
    simp only [SegmentMapper.toSpec, RangeEnd.on, hend.1]
    simp; omega
  · exact invert_one_sorted _ _ _ (strides_sorted _ _ _ _) fun x hx => (strides_mem hx).1

/-- `--width 4,s..s+2 --invert s+1..e`. -/
example (sched : Nat → Option Nat) : ∃ p st, ConstSlicerParams.fromRaw 2 4 (fromStart 0 2) = .ok p ∧
    ConstSlicer.new (RawStream.new (2 ^ 21) (Reader.open [0, 1, 2, 3, 4, 5, 6, 7, 8, 9] sched) 1 0) p = .ok st ∧
    SegDrains (MapStream.segSrc (ConstSlicer.segSrc (RawStream.byteSrc (2 ^ 21) 11)) (Bridge.ops [⟨⟨0, 1⟩, ⟨1, 0⟩⟩])) (IoErr [sched]) (Bridge.new st)
      [(3, [3]), (7, [7])] :=
  C23_width_invert_partial (2 ^ 21) 11 2 0 [0, 1, 2, 3, 4, 5, 6, 7, 8, 9] sched (by decide) (by decide) (by decide) 4 (fromStart 0 2) 0 2
    (by decide) (by decide) (by decide) (by decide) (by decide) (by decide) ⟨⟨0, 1⟩, ⟨1, 0⟩⟩ 2 (by decide) (by decide) (by decide) (by decide)

/-! ## `--extend` -/

/-- **C24** over every stream that lends all bytes up to the end, keeps what it lends, and lends slices of at most `D` bytes: `--extend
S..E,...` delivers exactly the images of the slices, in order, if these are sorted and no image ends behind the slice it comes from. -/
theorem C24_extend_partial {S : SegSrc σ} {K F} {s : σ} {w : Nat} {content : Bytes} {segs : List Seg} (h : SegServes S K F s w content segs)
    (hfull : K.full = true) (hh : K.honest = true) (hst : K.steady = true) (he : K.early = true)
    (ms : List SegmentMapper) (hms : ms ≠ []) (H D : Nat) (hp : ∀ lent k, (∀ x ∈ lent, x.tail ≤ k + H) → K.policy lent k)
    (hH : ∀ m ∈ ms, (D : Int) - H ≤ m.toSpec.1.on (0, 1) ∧ (D : Int) - H ≤ m.toSpec.2.on (0, 1)) (hD : D ≤ H)
    (hsegs : ∀ x ∈ segs, x.tail ≤ content.length ∧ x.len ≤ D ∧ 0 < x.len)
    (hfits : ∀ x ∈ segs, ∀ m ∈ ms, m.toSpec.2.on ((x.pos : Int), (x.tail : Int)) ≤ x.tail)
    (hso : (extend (ms.map SegmentMapper.toSpec) segs content.length).Pairwise Seg.Le) (hlen : content.length < 2 ^ 64)
    (hz : K.strict = false := by first | rfl | assumption) :
    SegServes (MapStream.segSrc S (Extend.ops ms)) (MapStream.kind K) F (Extend.new s) w content (extend (ms.map SegmentMapper.toSpec) segs content.length) ∧
    SegDrains (MapStream.segSrc S (Extend.ops ms)) F (Extend.new s) (slicesOf content (extend (ms.map SegmentMapper.toSpec) segs content.length)) ∧
    (K.Free → SegReads (MapStream.segSrc S (Extend.ops ms)) F (Extend.new s) (slicesOf content (extend (ms.map SegmentMapper.toSpec) segs content.length))) := by
  have := MapStream.serves h hfull hh hst he (Extend.laws ms hms H D hH hD) hp () ⟨by simp, hsegs, hfits, hso, by unfold usizeMax; omega⟩
    ⟨Seg.Le.pairwise_sorted hso, fun z hz => by
      obtain ⟨x, hx, hz⟩ := List.mem_flatMap.1 hz
      obtain ⟨r, hr, h1, h2, h3, h4⟩ := images_mem hz
      exact ⟨h1, h2⟩⟩
  exact ⟨this, this.delivers.drains, fun hf => this.delivers.reads fun _ _ => hf⟩

theorem extend_one_sorted (r : RangeEnd × RangeEnd) (segs : List Seg) (len : Nat) (hs : segs.Pairwise (fun a b => a.pos ≤ b.pos ∧ a.tail ≤ b.tail)) :
    (extend [r] segs len).Pairwise Seg.Le := by
  have : extend [r] segs len = (segs.map fun x => ((x.pos : Int), (x.tail : Int))).flatMap (images [r] len) := by
    unfold extend; rw [List.flatMap_map]
  rw [this]
  refine images_one_sorted r len _ ?_
  rw [List.pairwise_map]
  refine hs.imp ?_
  intro a b hab
  simp only
  omega

theorem strides_monotone (len pitch : Nat) (start stop : Int) : (strides len pitch start stop).Pairwise (fun a b => a.pos ≤ b.pos ∧ a.tail ≤ b.tail) := by
  unfold strides
  rw [List.pairwise_filterMap]
  refine List.Pairwise.imp ?_ List.pairwise_lt_range
  intro i j hij a ha b hb
  have := mul_le_int pitch (Nat.le_of_lt hij)
  split at ha
  · cases ha
    split at hb
    · cases hb
      simp only [Seg.tail]
      omega
    · cases hb
  · cases ha

/-- **C24** for `--width N,S..E --extend S'..e-y`, for every file and `read()` schedule: clients that consume all they may see exactly
the images of the slices. -/
theorem C24_width_extend_partial (B fuel fuel' : Nat) (filler : Byte) (content : Bytes) (sched : Nat → Option Nat) (hB : 0 < B) (hf : content.length < fuel)
    (hlen : content.length < 2 ^ 64) (pitch : Nat) (m : SegmentMapper) (start stop : Int) (hp : 0 < pitch)
    (hm : m.evaluate (0, pitch) (0, pitch) = (start, stop)) (hne : start < stop) (hstop : 1 ≤ stop) (hstart : -(15 * pitch) < start) (hf' : 1 < fuel')
    (m' : SegmentMapper) (H : Nat) (hend : m'.stop.anchor = 1 ∧ stop - start - H ≤ m'.stop.offset ∧ m'.stop.offset ≤ 0) (hbeg : stop - start - H ≤ m'.start.offset)
    (hL : 2 * stop - start + 2 * pitch + H < ((B - 1784) / 8 : Nat)) :
    ∃ p st, ConstSlicerParams.fromRaw fuel' pitch m = .ok p ∧
      ConstSlicer.new (RawStream.new B (Reader.open content sched) 1 filler) p = .ok st ∧
      SegDrains (MapStream.segSrc (ConstSlicer.segSrc (RawStream.byteSrc B fuel)) (Extend.ops [m'])) (IoErr [sched]) (Extend.new st)
        (slicesOf content (extend [m'.toSpec] (strides content.length pitch start stop) content.length)) := by
  obtain ⟨p, st, h1, h2, _, h3⟩ := width_serves (.slack H) (file_amply B fuel filler content sched hB hf) (fun _ => NlMargin.any) fuel' pitch m start stop
    hp hm hne hstop hstart hf' (by simp only [ConstSlicer.Manner.need]; omega)
  refine ⟨p, st, h1, h2, (C24_extend_partial h3 rfl rfl rfl rfl [m'] (by simp) H (stop - start).toNat (fun _ _ h => h) ?_ (by omega) ?_ ?_ ?_ hlen).2.1⟩
  · intro m hm
    simp only [List.mem_singleton] at hm
    subst hm
    simp only [SegmentMapper.toSpec, RangeEnd.on, hend.1]
    constructor
    · split <;> omega
    · simp; omega
  · intro x hx
    have := strides_mem hx
    exact ⟨this.2.1, by omega, this.1⟩
  · intro g _ m hm
    simp only [List.mem_singleton] at hm
    subst hm
    simp only [SegmentMapper.toSpec, RangeEnd.on, hend.1]
    simp; omega
  · exact extend_one_sorted _ _ _ (strides_monotone _ _ _ _)

/-- `--width 4 --extend s-2..e-1`. -/
example (sched : Nat → Option Nat) : ∃ p st, ConstSlicerParams.fromRaw 2 4 (fromStart 0 4) = .ok p ∧
    ConstSlicer.new (RawStream.new (2 ^ 21) (Reader.open [0, 1, 2, 3, 4, 5, 6, 7, 8, 9] sched) 1 0) p = .ok st ∧
    SegDrains (MapStream.segSrc (ConstSlicer.segSrc (RawStream.byteSrc (2 ^ 21) 11)) (Extend.ops [⟨⟨0, -2⟩, ⟨1, -1⟩⟩])) (IoErr [sched]) (Extend.new st)
      [(0, [0, 1, 2]), (2, [2, 3, 4, 5, 6]), (6, [6, 7, 8])] :=
  C24_width_extend_partial (2 ^ 21) 11 2 0 [0, 1, 2, 3, 4, 5, 6, 7, 8, 9] sched (by decide) (by decide) (by decide) 4 (fromStart 0 4) 0 4
    (by decide) (by decide) (by decide) (by decide) (by decide) (by decide) ⟨⟨0, -2⟩, ⟨1, -1⟩⟩ 6 (by decide) (by decide) (by decide)

/-! ## What goes wrong otherwise -/

/-- The slices seen by a client that consumes all it may in `n` rounds. -/
def seen (S : SegSrc σ) (s : Except Err σ) (n : Nat) : Except Err (Bool × List (Nat × Bytes)) :=
  match s with
  | .error e => .error e
  | .ok s =>
    match (SegClient.init s).run S ((List.replicate n [none, some 1000]).flatten) with
    | .error e => .error e
    | .ok c => .ok (c.eof, c.got ++ c.lent)

/-- `--width pitch,S..E` of a file. -/
def widthOf (B : Nat) (content : Bytes) (sched : Nat → Option Nat) (pitch : Nat) (m : SegmentMapper) : Except Err (ConstSlicer (Buffered Reader)) :=
  match ConstSlicerParams.fromRaw 100 pitch m with
  | .error e => .error e
  | .ok p => ConstSlicer.new (RawStream.new B (Reader.open content sched) 1 0) p

/-- **Counterexample** (an image that ends behind its slice): `--width 10,s..s+4 --extend s..e+20` of a 200-byte file, read in pieces of
64 bytes.  The image of the slice at 50 is [50, 74), but its bytes from 64 on have not been read when it is lent: the client
sees the newlines of the margin. -/
theorem C24_unread_counterexample :
    (seen (MapStream.segSrc (ConstSlicer.segSrc (RawStream.byteSrc 64 1000)) (Extend.ops [⟨⟨0, 0⟩, ⟨1, 20⟩⟩]))
      ((widthOf 64 ((List.range 200).map UInt8.ofNat) (fun _ => some 64) 10 (fromStart 0 4)).map Extend.new) 10).map (fun r => (r.1, r.2[5]?)) =
      .ok (true, some (50, [50, 51, 52, 53, 54, 55, 56, 57, 58, 59, 60, 61, 62, 63, 10, 10, 10, 10, 10, 10, 10, 10, 10, 10])) := by
  decide +kernel

/-- **Counterexample** (the same for `--invert`): `--width 20,s..s+4 --invert s..e+30`. -/
theorem C23_unread_counterexample :
    (seen (MapStream.segSrc (ConstSlicer.segSrc (RawStream.byteSrc 64 1000)) (Bridge.ops [⟨⟨1, 0⟩, ⟨1, 30⟩⟩]))
      ((widthOf 64 ((List.range 200).map UInt8.ofNat) (fun _ => some 64) 20 (fromStart 0 4)).map Bridge.new) 10).map (fun r => (r.1, r.2[1]?)) =
      .ok (true, some (40, [40, 41, 42, 43, 44, 45, 46, 47, 48, 49, 50, 51, 52, 53, 54, 55, 56, 57, 58, 59, 60, 61, 62, 63, 10, 10, 10, 10, 10, 10])) := by
  decide +kernel

/-- `--slice 0..3` of a file. -/
def sliceOf (B : Nat) (content : Bytes) (sched : Nat → Option Nat) (x y : Nat) : RangeSlicer (Buffered Reader) :=
  ⟨RawStream.new B (Reader.open content sched) 1 0, 0, 0, [], ⟨[⟨.fromStart x, .fromStart y⟩], [], usizeMax, 0⟩⟩

theorem sliceOf_eq (B : Nat) (content : Bytes) (sched : Nat → Option Nat) (x y : Nat) :
    RangeSlicer.new false (RawStream.new B (Reader.open content sched) 1 0) ([⟨⟨0, (x : Int)⟩, ⟨0, (y : Int)⟩⟩].map RangeMapper.ofMapper) = .ok (sliceOf B content sched x y) := by
  simp [RangeSlicer.new, Cutter.ofRanges, Cutter.minTrans, RangeMapper.ofMapper, RangeMapper.anchorOf, RangeMapper.hasRightAnchor, List.filter, Cutter.sortFilters, stableSort, insertSorted, sliceOf]

/-- **Counterexample** (a source that reports the end early): `--slice 3..5 --invert s..e` of a 10-byte file shows the gap 0..3 but not the
gap 5..10, because `--slice` reports the end after its last range. -/
theorem C23_early_end_counterexample :
    seen (MapStream.segSrc (RangeSlicer.segSrc (RawStream.byteSrc 64 1000) 64) (Bridge.ops [⟨⟨0, 0⟩, ⟨1, 0⟩⟩]))
      (.ok (Bridge.new (sliceOf 64 [0, 1, 2, 3, 4, 5, 6, 7, 8, 9] (fun _ => some 64) 3 5))) 5 = .ok (true, [(0, [0, 1, 2])]) := by
  decide +kernel

/-- **Counterexample** (the same for `--extend`): `--slice 3..5 --extend s..e+3` of a 10-byte file shows 3..5. -/
theorem C24_early_end_counterexample :
    seen (MapStream.segSrc (RangeSlicer.segSrc (RawStream.byteSrc 64 1000) 64) (Extend.ops [⟨⟨0, 0⟩, ⟨1, 3⟩⟩]))
      (.ok (Extend.new (sliceOf 64 [0, 1, 2, 3, 4, 5, 6, 7, 8, 9] (fun _ => some 64) 3 5))) 5 = .ok (true, [(3, [3, 4])]) := by
  decide +kernel

end Nd.Props
