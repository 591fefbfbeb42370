import Verif.Props.ProgramBack
import Verif.Props.ProgramWide
/-!
# C43: what a call prints, given to another call

README: "hexdump is also a binary patch".
-/
namespace Nd.Props
open Nd Nd.Spec

/-- The offset lies in one of the slices. -/
def Covered (segs : List Seg) (i : Nat) : Prop := ∃ x ∈ segs, x.pos ≤ i ∧ i < x.tail

/-- The records of the slices `segs` of `b`. -/
def recsOf (b : Bytes) (segs : List Seg) : List Rec := segs.map fun x => { offset := x.pos, span := x.len, data := x.bytes b }

/-- `new` has the bytes of `b` in the slices and those of `a` elsewhere. -/
structure Overlay (segs : List Seg) (a b new : Bytes) : Prop where
  length : new.length = a.length
  inside : ∀ i, Covered segs i → new[i]? = b[i]?
  outside : ∀ i, ¬ Covered segs i → new[i]? = a[i]?

theorem Overlay.same {segs : List Seg} {a new : Bytes} (h : Overlay segs a a new) : new = a := by
  refine List.ext_getElem? fun i => ?_
  by_cases hc : Covered segs i
  · exact h.inside i hc
  · exact h.outside i hc

theorem Overlay.whole {segs : List Seg} {a b new : Bytes} (h : Overlay segs a b new) (hl : a.length = b.length) (hc : ∀ i, i < b.length → Covered segs i) : new = b := by
  refine List.ext_getElem? fun i => ?_
  by_cases hi : i < b.length
  · exact h.inside i (hc i hi)
  · rw [List.getElem?_eq_none (by rw [h.length]; omega), List.getElem?_eq_none (by omega)]

theorem recsOf_ordered (b : Bytes) : ∀ (segs : List Seg) (p : Nat), (∀ x ∈ segs, p ≤ x.pos) → segs.Pairwise (fun x y => x.tail ≤ y.pos) → Ordered p (recsOf b segs)
  | [], _, _, _ => trivial
  | x :: segs, p, hp, hd => by
    rw [List.pairwise_cons] at hd
    exact ⟨hp x (by simp), recsOf_ordered b segs _ hd.1 hd.2⟩

/-- Records of disjoint slices of `b`, applied to a stream that has all of these slices. -/
theorem splice_overlay (a b : Bytes) : ∀ (segs : List Seg) (p : Nat), (∀ x ∈ segs, p ≤ x.pos ∧ 0 < x.len ∧ x.tail ≤ a.length ∧ x.tail ≤ b.length) → segs.Pairwise (fun x y => x.tail ≤ y.pos) →
    (splice p (a.drop p) (recsOf b segs)).length = a.length - p ∧
    (∀ i, Covered segs (p + i) → (splice p (a.drop p) (recsOf b segs))[i]? = b[p + i]?) ∧ (∀ i, ¬ Covered segs (p + i) → (splice p (a.drop p) (recsOf b segs))[i]? = a[p + i]?)
  | [], p, _, _ => by
    refine ⟨by simp [recsOf, splice], fun i ⟨_, h, _⟩ => by simp at h, fun i _ => by simp [recsOf, splice]⟩
  | x :: segs, p, hin, hd => by
    rw [List.pairwise_cons] at hd
    obtain ⟨h1, h2, h3, h4⟩ := hin x (by simp)
    obtain ⟨g1, g2, g3⟩ := splice_overlay a b segs x.tail (fun y hy => ⟨hd.1 y hy, (hin y (by simp [hy])).2⟩) hd.2
    have hcov : ∀ i, Covered (x :: segs) i ↔ (x.pos ≤ i ∧ i < x.tail) ∨ Covered segs i := by
      intro i
      simp [Covered]
    have hlate : ∀ i, Covered segs i → x.tail ≤ i := by
      rintro i ⟨y, hy, hy1, _⟩
      have := hd.1 y hy
      omega
    simp only [Seg.tail] at h3 h4 g1 g2 g3 hcov hlate
    have heq : splice p (a.drop p) (recsOf b (x :: segs)) =
        (a.drop p).take (x.pos - p) ++ (x.bytes b ++ splice (x.pos + x.len) (a.drop (x.pos + x.len)) (recsOf b segs)) := by
      simp only [recsOf, List.map_cons, splice]
      rw [if_pos (by rw [List.length_drop]; omega), List.drop_drop]
      congr 4
      omega
    have l1 : ((a.drop p).take (x.pos - p)).length = x.pos - p := by
      rw [List.length_take, List.length_drop]
      omega
    have l2 : (x.bytes b).length = x.len := by
      simp only [Seg.bytes, List.length_take, List.length_drop]
      omega
    rw [heq]
    refine ⟨by rw [List.length_append, List.length_append, l1, l2, g1]; omega, fun i hi => ?_, fun i hi => ?_⟩
    · rw [hcov] at hi
      rw [List.getElem?_append_right (by rcases hi with hi | hi <;> [skip; have := hlate _ hi] <;> omega), l1]
      by_cases hx : p + i < x.pos + x.len
      · rw [List.getElem?_append_left (by omega), Seg.bytes, List.getElem?_take_of_lt (by omega), List.getElem?_drop]
        congr 1
        rcases hi with hi | hi <;> [skip; have := hlate _ hi] <;> omega
      · rw [List.getElem?_append_right (by omega), l2]
        have := g2 (i - (x.pos - p) - x.len) (by
          rw [show x.pos + x.len + (i - (x.pos - p) - x.len) = p + i by omega]
          rcases hi with hi | hi
          · omega
          · exact hi)
        rw [this]
        congr 1
        omega
    · rw [hcov] at hi
      by_cases hx : p + i < x.pos
      · rw [List.getElem?_append_left (by omega), List.getElem?_take_of_lt (by omega), List.getElem?_drop]
      · have : ¬ p + i < x.pos + x.len := fun h => hi (Or.inl ⟨by omega, h⟩)
        rw [List.getElem?_append_right (by omega), List.getElem?_append_right (by omega), l1, l2]
        have := g3 (i - (x.pos - p) - x.len) (by
          rw [show x.pos + x.len + (i - (x.pos - p) - x.len) = p + i by omega]
          exact fun h => hi (Or.inr h))
        rw [this]
        congr 1
        omega

theorem splice_overlay_zero (a b : Bytes) (segs : List Seg) (hin : ∀ x ∈ segs, 0 < x.len ∧ x.tail ≤ a.length ∧ x.tail ≤ b.length) (hd : segs.Pairwise fun x y => x.tail ≤ y.pos) :
    Overlay segs a b (splice 0 a (recsOf b segs)) := by
  obtain ⟨h1, h2, h3⟩ := splice_overlay a b segs 0 (fun x hx => ⟨Nat.zero_le _, hin x hx⟩) hd
  simp only [List.drop_zero, Nat.zero_add, Nat.sub_zero] at h1 h2 h3
  exact ⟨h1, h2, h3⟩

/-- `nd -f b --patch DUMP FILE` -/
def patchArgs (name dump : String) : Args := { inputs := [name], patch := some dump, outFormat := some "b" }

def patchJob (recs : List Rec) : Job := { patch := some recs, printing := .binary }

theorem patch_asks (name dump : String) (recs : List Rec) : Asks (patchArgs name dump) (patchJob recs) :=
  ⟨⟨.none, .b, .none, .none, .none, .none, .none, .none, .none, .none, .none⟩, Or.inl rfl, rfl⟩

/-- The standard input is not read twice. -/
def OneStdin (name dump : String) : Prop := ¬ ((name = "-" ∨ name = "/dev/stdin") ∧ (dump = "-" ∨ dump = "/dev/stdin"))

theorem OneStdin.count {name dump : String} (h : OneStdin name dump) : ([name, dump].filter fun x => x = "-" ∨ x = "/dev/stdin").length ≤ 1 := by
  unfold OneStdin at h
  by_cases h1 : name = "-" ∨ name = "/dev/stdin"
  · by_cases h2 : dump = "-" ∨ dump = "/dev/stdin"
    · exact absurd ⟨h1, h2⟩ h
    · simp [h1, h2]
  · rw [List.filter_cons, if_neg (by simpa using h1)]
    exact Nat.le_trans (List.length_filter_le _ _) (by simp)

/-- A file patched with the records of another one. -/
theorem patch_prints (h : Host) (name dump : String) (old text : Bytes) (s t : Nat → Option Nat) (recs : List Rec) (hc : h.checks = false) (hB : 0 < h.block)
    (hf : h.files name = some (old, s)) (hd : h.files dump = some (text, t)) (hs : ∀ i, s i ≠ none) (ht : ∀ i, t i ≠ none) (hone : OneStdin name dump)
    (hr : Records .hex text recs) (ho : Ordered 0 recs) (hsl : ShortLines h.block text) (hl : old.length < 2 ^ 48) (hl' : (splice 0 old recs).length < 2 ^ 48) :
    ∃ N, ∀ fuel, N < fuel → (h.withFuel fuel).run (patchArgs name dump) = (splice 0 old recs, none) := by
  have hst : (patchJob recs).stream [old] = splice 0 old recs := by
    simp [patchJob, Job.stream, Job.filtered, Joint.join, Spec.cat, Spec.pad, alignTo_one]
  have hsu : Surroundings h (patchArgs name dump) (patchJob recs) [(old, s)] [old] [s, t] := by
    refine { release := hc, inplace := rfl, block := hB, opened := .cons hf .nil, stdin := hone.count, listed := by simp, patch := ⟨text, t, hd, by simp, hr, ho, hsl⟩,
             decodes := .cons rfl .nil, text := fun h => absurd rfl h, pad := ⟨Nat.zero_le _, Nat.zero_le _⟩, aligned := ?_, joined := ?_, stream := by rw [hst]; exact hl',
             slicer := ⟨by simp [patchArgs], by simp [patchJob]⟩, regex := trivial,
             fits := Or.inl (Or.inr (Or.inr (Or.inr ⟨16, _, rfl, ⟨rfl, rfl, rfl, rfl, rfl⟩, by decide, ?_⟩))) }
    · simpa [patchJob, Joint.word, alignTo_one] using hl
    · simpa [patchJob, Joint.join, Spec.cat, alignTo_one] using hl
    · simp only [RangeEnd.at, if_true, Bool.false_eq_true, if_false]
      omega
  obtain ⟨out, N, h1, _, h2⟩ := C37_success_partial _ _ _ _ _ _ (patch_asks name dump recs) hsu (by simpa using ⟨hs, ht⟩) (strides (splice 0 old recs).length 16 0 16)
    (by rw [hst]; exact ⟨_, _, show strides _ _ _ _ = strides _ _ _ _ by simp [RangeEnd.at], rfl, rfl⟩)
  refine ⟨N, fun fuel hfu => ?_⟩
  rw [h2 fuel hfu]
  rw [hst] at h1
  have h5 : Format.Tiles (splice 0 old recs).length 0 (strides (splice 0 old recs).length 16 0 16) := tiles_strides _ 16 (by decide)
  rw [show out = _ from h1, tiles_flatten _ _ 0 h5, List.drop_zero]

/-- The first call: what it prints is read back by `h'`. -/
theorem dump_prints (h h' : Host) (a : Args) (j : Job) (files : List InFile) (contents : List Bytes) (scheds : List (Nat → Option Nat))
    (ha : Asks a j) (hs : Surroundings h a j files contents scheds) (hok : ∀ s ∈ scheds, ∀ i, s i ≠ none) (hj : j.printing = .text .hex)
    (segs : List Seg) (hsegs : j.Slices (j.stream contents) segs) (hshort : ∀ x ∈ segs, 47 + 4 * max x.len (max 16 j.slicer.columns) < (h'.block - 1777) / 8) :
    ∃ text N, (∀ fuel, N < fuel → (h.withFuel fuel).run a = (text, none)) ∧ Records .hex text (recsOf (j.stream contents) segs) ∧ ShortLines h'.block text := by
  obtain ⟨text, N, h1, h2, h3⟩ := C37_success_partial h a j files contents scheds ha hs hok segs hsegs
  rw [hj] at h1
  refine ⟨text, N, h3, h1, fun l hl => ?_⟩
  obtain ⟨x, hx, hle⟩ := h2 (by rw [hj]; simp) l hl
  have := hshort x hx
  omega

/-- **C43**: what a call prints for slices that do not overlap, given to `nd --patch` with any file that is long enough, puts the slices in place and changes nothing else. -/
theorem C43_patch_partial (h h' : Host) (a : Args) (j : Job) (files : List InFile) (contents : List Bytes) (scheds : List (Nat → Option Nat))
    (ha : Asks a j) (hs : Surroundings h a j files contents scheds) (hok : ∀ s ∈ scheds, ∀ i, s i ≠ none) (hj : j.printing = .text .hex)
    (segs : List Seg) (hsegs : j.Slices (j.stream contents) segs) (hshort : ∀ x ∈ segs, 47 + 4 * max x.len (max 16 j.slicer.columns) < (h'.block - 1777) / 8)
    (hdis : segs.Pairwise fun x y => x.tail ≤ y.pos) (hne : ∀ x ∈ segs, 0 < x.len) (hc : h'.checks = false) (hB : 0 < h'.block) :
    ∃ text N, (∀ fuel, N < fuel → (h.withFuel fuel).run a = (text, none)) ∧
      ∀ (name dump : String) (old : Bytes) (s t : Nat → Option Nat), h'.files name = some (old, s) → h'.files dump = some (text, t) → (∀ i, s i ≠ none) → (∀ i, t i ≠ none) →
        OneStdin name dump → old.length < 2 ^ 48 → (∀ x ∈ segs, x.tail ≤ old.length) →
        ∃ new N', Overlay segs old (j.stream contents) new ∧ ∀ fuel, N' < fuel → (h'.withFuel fuel).run (patchArgs name dump) = (new, none) := by
  obtain ⟨text, N, h1, h2, h3⟩ := dump_prints h h' a j files contents scheds ha hs hok hj segs hsegs hshort
  refine ⟨text, N, h1, fun name dump old s t hf hd hs' ht hone hl hin => ?_⟩
  have hov := splice_overlay_zero old (j.stream contents) segs (fun x hx => ⟨hne x hx, hin x hx, slices_inside hsegs (hs.fits.imp id And.right) x hx⟩) hdis
  obtain ⟨N', hN⟩ := patch_prints h' name dump old text s t _ hc hB hf hd hs' ht hone h2 (recsOf_ordered _ segs 0 (fun _ _ => Nat.zero_le _) hdis) h3 hl (by rw [hov.length]; exact hl)
  exact ⟨_, N', hov, hN⟩

/-- **C43**: applied to the stream they come from, the records change nothing. -/
theorem C43_unchanged_partial (h h' : Host) (a : Args) (j : Job) (files : List InFile) (contents : List Bytes) (scheds : List (Nat → Option Nat))
    (ha : Asks a j) (hs : Surroundings h a j files contents scheds) (hok : ∀ s ∈ scheds, ∀ i, s i ≠ none) (hj : j.printing = .text .hex)
    (segs : List Seg) (hsegs : j.Slices (j.stream contents) segs) (hshort : ∀ x ∈ segs, 47 + 4 * max x.len (max 16 j.slicer.columns) < (h'.block - 1777) / 8)
    (hdis : segs.Pairwise fun x y => x.tail ≤ y.pos) (hne : ∀ x ∈ segs, 0 < x.len) (hc : h'.checks = false) (hB : 0 < h'.block) :
    ∃ text N, (∀ fuel, N < fuel → (h.withFuel fuel).run a = (text, none)) ∧
      ∀ (name dump : String) (s t : Nat → Option Nat), h'.files name = some (j.stream contents, s) → h'.files dump = some (text, t) → (∀ i, s i ≠ none) → (∀ i, t i ≠ none) →
        OneStdin name dump → ∃ N', ∀ fuel, N' < fuel → (h'.withFuel fuel).run (patchArgs name dump) = (j.stream contents, none) := by
  obtain ⟨text, N, h1, h2⟩ := C43_patch_partial h h' a j files contents scheds ha hs hok hj segs hsegs hshort hdis hne hc hB
  refine ⟨text, N, h1, fun name dump s t hf hd hs' ht hone => ?_⟩
  obtain ⟨new, N', h3, h4⟩ := h2 name dump _ s t hf hd hs' ht hone hs.stream (slices_inside hsegs (hs.fits.imp id And.right))
  rw [h3.same] at h4
  exact ⟨N', h4⟩

/-- **C43**: what `nd --width N` prints for one file, given to `nd --patch` with another one of the same length, turns that one into the first one; lines that are not longer than
about an eighth of the block. -/
theorem C43_dump_is_patch (h h' : Host) (name t : String) (n : Nat) (ht : Numeral t.toList n) (hn : 0 < n) (content : Bytes) (s : Nat → Option Nat) (hc : h.checks = false) (hB : 0 < h.block)
    (hf : h.files name = some (content, s)) (hs : ∀ i, s i ≠ none) (hl : content.length < 2 ^ 48) (hc' : h'.checks = false) (hB' : 47 + 4 * max 16 n < (h'.block - 1777) / 8) :
    ∃ text N, (∀ fuel, N < fuel → (h.withFuel fuel).run (piecesArgs name t) = (text, none)) ∧
      ∀ (name' dump : String) (old : Bytes) (s' t' : Nat → Option Nat), h'.files name' = some (old, s') → h'.files dump = some (text, t') → (∀ i, s' i ≠ none) → (∀ i, t' i ≠ none) →
        OneStdin name' dump → old.length = content.length → ∃ N', ∀ fuel, N' < fuel → (h'.withFuel fuel).run (patchArgs name' dump) = (content, none) := by
  obtain ⟨hst, hsu⟩ := pieces_surroundings h name t n hn content s hc hB hf hl
  have hcut : (piecesJob n).Slices content (strides content.length n 0 n) := ⟨_, _, show strides _ _ _ _ = strides _ _ _ _ by simp [RangeEnd.at], rfl, rfl⟩
  have hlen : ∀ x ∈ strides content.length n 0 n, x.len ≤ n := by
    intro x hx
    have := (strides_mem hx).2.2
    omega
  obtain ⟨hpos, hdis⟩ := strides_tiles content.length n hn
  obtain ⟨text, N, h1, h2⟩ := C43_patch_partial h h' _ _ _ _ _ (pieces_asks name t n ht) hsu (by simpa using hs) rfl (strides content.length n 0 n) (by rw [hst]; exact hcut)
    (fun x hx => by
      have := hlen x hx
      simp only [piecesJob, Slicer.columns, RangeEnd.at, if_true, Bool.false_eq_true, if_false]
      omega) hdis hpos hc' (by omega)
  refine ⟨text, N, h1, fun name' dump old s' t' hf' hd hs' ht' hone hle => ?_⟩
  obtain ⟨new, N', h3, h4⟩ := h2 name' dump old s' t' hf' hd hs' ht' hone (by omega) (fun x hx => by rw [hle]; exact (strides_mem hx).2.1)
  rw [hst] at h3
  rw [h3.whole hle fun i hi => ?_] at h4
  · exact ⟨N', h4⟩
  · rw [strides_tile _ _ hn]
    refine ⟨_, List.mem_map.2 ⟨i / n, ?_, rfl⟩, Nat.div_mul_le_self i n, ?_⟩
    · rw [List.mem_range, Nat.lt_iff_add_one_le, Nat.le_div_iff_mul_le hn, Nat.add_mul]
      have := Nat.div_mul_le_self i n
      omega
    · have := Nat.div_add_mod i n
      have := Nat.mod_lt i hn
      simp only [Seg.tail]
      have h6 := Nat.mul_comm n (i / n)
      omega

/-! ## `--guide` -/

/-- `nd --guide DUMP FILE` -/
def guideByArgs (name dump : String) : Args := { inputs := [name], guide := some dump }

def guideByJob (recs : List Rec) : Job := { slicer := .guide recs }

theorem guideBy_asks (name dump : String) (recs : List Rec) : Asks (guideByArgs name dump) (guideByJob recs) :=
  ⟨⟨.none, .none, .none, .none, .none, .none, .guide, .none, .none, .none, .none⟩, Or.inl rfl, rfl⟩

theorem guided_recsOf (b : Bytes) (segs : List Seg) : guided (recsOf b segs) = segs := by
  simp only [guided, recsOf, List.map_map]
  exact List.map_id segs

/-- **C43**: what a call prints for slices with ascending starts, given to `nd --guide` with any file that is long enough, makes it print the same slices of that file. -/
theorem C43_guide_partial (h h' : Host) (a : Args) (j : Job) (files : List InFile) (contents : List Bytes) (scheds : List (Nat → Option Nat))
    (ha : Asks a j) (hs : Surroundings h a j files contents scheds) (hok : ∀ s ∈ scheds, ∀ i, s i ≠ none) (hj : j.printing = .text .hex)
    (segs : List Seg) (hsegs : j.Slices (j.stream contents) segs) (hshort : ∀ x ∈ segs, 47 + 4 * max x.len (max 16 j.slicer.columns) < (h'.block - 1784) / 8)
    (hasc : segs.Pairwise fun x y => x.pos < y.pos) (hne : ∀ x ∈ segs, 0 < x.len) (hc : h'.checks = false) (hB : 1792 ≤ h'.block) :
    ∃ text N, (∀ fuel, N < fuel → (h.withFuel fuel).run a = (text, none)) ∧
      ∀ (name dump : String) (other : Bytes) (s t : Nat → Option Nat), h'.files name = some (other, s) → h'.files dump = some (text, t) → (∀ i, s i ≠ none) → (∀ i, t i ≠ none) →
        OneStdin name dump → other.length < 2 ^ 48 → (∀ x ∈ segs, x.tail ≤ other.length) →
        ∃ out N', Records .hex out (recsOf other segs) ∧ ∀ fuel, N' < fuel → (h'.withFuel fuel).run (guideByArgs name dump) = (out, none) := by
  obtain ⟨text, N, h1, h2, h3⟩ := dump_prints h h' a j files contents scheds ha hs hok hj segs hsegs (fun x hx => Nat.lt_of_lt_of_le (hshort x hx) (Nat.div_le_div_right (by omega)))
  refine ⟨text, N, h1, fun name dump other s t hf hd hs' ht hone hl hin => ?_⟩
  have hst : (guideByJob (recsOf (j.stream contents) segs)).stream [other] = other := by
    simp [guideByJob, Job.stream, Job.filtered, Joint.join, Spec.cat, Spec.pad, alignTo_one]
  have hsu : Surroundings h' (guideByArgs name dump) (guideByJob (recsOf (j.stream contents) segs)) [(other, s)] [other] [s, t] := by
    refine { release := hc, inplace := rfl, block := by omega, opened := .cons hf .nil, stdin := hone.count, listed := by simp, patch := trivial,
             decodes := .cons rfl .nil, text := fun h => absurd rfl h, pad := ⟨Nat.zero_le _, Nat.zero_le _⟩, aligned := ?_, joined := ?_, stream := by rw [hst]; exact hl,
             slicer := ⟨by simp [guideByArgs], ?_⟩, regex := trivial,
             fits := Or.inl (Or.inr (Or.inl ⟨by omega, _, rfl, ⟨rfl, rfl, rfl, rfl, rfl⟩, ?_, ?_⟩)) }
    · simpa [guideByJob, Joint.word, alignTo_one] using hl
    · simpa [guideByJob, Joint.join, Spec.cat, alignTo_one] using hl
    · rintro recs file h4 h5
      cases h4
      cases h5
      exact ⟨text, t, hd, by simp, h2, h3⟩
    · rw [recsOf, List.pairwise_map]
      exact hasc
    · rw [hst]
      intro r hr
      obtain ⟨x, hx, rfl⟩ := List.mem_map.1 hr
      have := hshort x hx
      exact ⟨hne x hx, by simp only; omega, hin x hx⟩
  obtain ⟨out, N', h4, _, h5⟩ := C37_success_partial _ _ _ _ _ _ (guideBy_asks name dump _) hsu (by simpa using ⟨hs', ht⟩) segs
    (by rw [hst]; exact ⟨_, _, (guided_recsOf _ segs).symm, rfl, rfl⟩)
  rw [hst] at h4
  exact ⟨out, N', h4, h5⟩

/-! ## Undoing `--zip` -/

theorem minLen_le : ∀ (cs : List Bytes) (c : Bytes), c ∈ cs → minLen cs ≤ c.length
  | [d], c, h => by
    rw [List.mem_singleton] at h
    subst h
    exact Nat.le_refl _
  | d :: e :: cs, c, h => by
    rw [minLen]
    rcases List.mem_cons.1 h with rfl | h
    · exact Nat.min_le_left _ _
    · exact Nat.le_trans (Nat.min_le_right _ _) (minLen_le (e :: cs) c h)

/-- The `r`-th words of the inputs. -/
def zipRow (n : Nat) (cs : List Bytes) (r : Nat) : Bytes := cs.flatMap fun c => (c.drop (r * n)).take n

theorem word_length {n m r : Nat} {c : Bytes} (hr : r < m) (hm : m * n ≤ c.length) : ((c.drop (r * n)).take n).length = n := by
  have := Nat.mul_le_mul_right n (show r + 1 ≤ m from hr)
  rw [Nat.add_mul] at this
  rw [List.length_take, List.length_drop]
  omega

theorem zipRow_length {n m r : Nat} (hr : r < m) : ∀ (cs : List Bytes), (∀ c ∈ cs, m * n ≤ c.length) → (zipRow n cs r).length = cs.length * n
  | [], _ => by simp [zipRow]
  | c :: cs, h => by
    have ih := zipRow_length hr cs fun d hd => h d (by simp [hd])
    simp only [zipRow, List.flatMap_cons, List.length_append, List.length_cons] at ih ⊢
    rw [ih, word_length hr (h c (by simp)), Nat.add_mul]
    omega

/-- The `i`-th word of a row. -/
theorem zipRow_word {n m r : Nat} (hr : r < m) : ∀ (cs : List Bytes) (i : Nat) (hi : i < cs.length), (∀ c ∈ cs, m * n ≤ c.length) →
    ((zipRow n cs r).drop (i * n)).take n = (cs[i].drop (r * n)).take n
  | c :: cs, 0, _, h => by
    have := word_length hr (h c (by simp))
    simp only [zipRow, List.flatMap_cons, Nat.zero_mul, List.drop_zero, List.getElem_cons_zero]
    rw [List.take_append_of_le_length (by omega), List.take_of_length_le (by omega)]
  | c :: cs, i + 1, hi, h => by
    have hl := word_length hr (h c (by simp))
    have ih := zipRow_word hr cs i (by simpa using hi) fun d hd => h d (by simp [hd])
    simp only [zipRow, List.flatMap_cons, List.getElem_cons_succ] at ih ⊢
    rw [show (i + 1) * n = ((c.drop (r * n)).take n).length + i * n by rw [hl, Nat.add_mul]; omega, ← List.drop_drop, List.drop_left, ih]

theorem rows_flatten {k : Nat} (row : Nat → Bytes) : ∀ (m : Nat), (∀ r, r < m → (row r).length = k) → ((List.range m).flatMap row).length = m * k
  | 0, _ => by simp
  | m + 1, h => by
    rw [List.range_succ, List.flatMap_append, List.length_append, rows_flatten row m fun r hr => h r (by omega)]
    simp only [List.flatMap_cons, List.flatMap_nil, List.append_nil]
    rw [h m (by omega), Nat.add_mul]
    omega

theorem rows_part {k : Nat} (row : Nat → Bytes) : ∀ (m : Nat), (∀ r, r < m → (row r).length = k) → ∀ r, r < m → ∀ i n, i + n ≤ k →
    (((List.range m).flatMap row).drop (r * k + i)).take n = ((row r).drop i).take n
  | 0, _, r, hr, _, _, _ => by omega
  | m + 1, h, r, hr, i, n, hin => by
    have hl := rows_flatten row m fun r hr => h r (by omega)
    rw [List.range_succ, List.flatMap_append]
    simp only [List.flatMap_cons, List.flatMap_nil, List.append_nil]
    by_cases hrm : r < m
    · have := Nat.mul_le_mul_right k (show r + 1 ≤ m from hrm)
      rw [Nat.add_mul] at this
      rw [List.drop_append_of_le_length (by omega), List.take_append_of_le_length (by rw [List.length_drop]; omega)]
      exact rows_part row m (fun r hr => h r (by omega)) r hrm i n hin
    · have : r = m := by omega
      subst this
      rw [← List.drop_drop, ← hl, List.drop_left]

theorem words_flatten (c : Bytes) (n : Nat) : ∀ (m : Nat), m * n ≤ c.length → ((List.range m).map fun r => (c.drop (r * n)).take n).flatten = c.take (m * n)
  | 0, _ => by simp
  | m + 1, h => by
    rw [Nat.add_mul] at h
    rw [List.range_succ, List.map_append, List.flatten_append, words_flatten c n m (by omega), Nat.add_mul, Nat.one_mul, List.take_add]
    simp

/-- The slices of `n` bytes that begin `i` bytes behind the multiples of `k`, in a stream of `m` times `k` bytes. -/
theorem strides_columns {m k i n : Nat} (hk : 0 < k) (hn : 0 < n) (hin : i + n ≤ k) :
    strides (m * k) k i (i + n : Nat) = (List.range m).map fun r => { pos := r * k + i, len := n } := by
  have hm : (m * k + k - 1) / k = m := by
    rw [show m * k + k - 1 = k - 1 + m * k by omega, Nat.add_mul_div_right _ _ hk, Nat.div_eq_of_lt (by omega)]
    omega
  unfold strides
  rw [hm, ← List.filterMap_eq_map]
  refine List.filterMap_congr fun r hr => ?_
  have h1 := Nat.mul_le_mul_right k (show r + 1 ≤ m from List.mem_range.1 hr)
  rw [Nat.add_mul] at h1
  have h2 : ((r * k : Nat) : Int) = r * k := Int.natCast_mul _ _
  have h3 : ((m * k : Nat) : Int) = m * k := Int.natCast_mul _ _
  rw [if_pos (by omega)]
  simp only [Function.comp]
  congr 1
  refine congr (congrArg Seg.mk ?_) ?_ <;> omega

theorem unzip_columns {n i : Nat} {cs : List Bytes} (hn : 0 < n) (hi : i < cs.length) :
    ((strides (zip n cs).length (cs.length * n) (i * n : Nat) (i * n + n : Nat)).map fun x => x.bytes (zip n cs)).flatten = cs[i].take (minLen cs / n * n) := by
  have hin : i * n + n ≤ cs.length * n := by
    have := Nat.mul_le_mul_right n (show i + 1 ≤ cs.length from hi)
    rwa [Nat.add_mul, Nat.one_mul] at this
  have hm : ∀ c ∈ cs, minLen cs / n * n ≤ c.length := fun c hc => Nat.le_trans (Nat.div_mul_le_self _ _) (minLen_le cs c hc)
  have hz : zip n cs = (List.range (minLen cs / n)).flatMap (zipRow n cs) := rfl
  have hrow : ∀ r, r < minLen cs / n → (zipRow n cs r).length = cs.length * n := fun r hr => zipRow_length hr cs hm
  have hl : (zip n cs).length = minLen cs / n * (cs.length * n) := by rw [hz, rows_flatten _ _ hrow]
  rw [hl, strides_columns (Nat.mul_pos (by omega) hn) hn hin, List.map_map, ← words_flatten _ _ _ (hm _ (List.getElem_mem hi))]
  congr 1
  refine List.map_congr_left fun r hr => ?_
  rw [List.mem_range] at hr
  simp only [Function.comp, Seg.bytes]
  rw [hz, rows_part _ _ hrow r hr _ _ hin, zipRow_word hr cs i hi hm]

/-- The call that takes the words of one of the inputs: `nd -F x -f b --width KN,IN..(I+1)N`. -/
def unzipJob (k n i : Nat) : Job := { coding := .located .hex, slicer := .width (k * n) (⟨false, (i * n : Nat)⟩, ⟨false, (i * n + n : Nat)⟩), printing := .binary }

/-- **C43**: what `nd --zip N` prints for `K` files, given to `nd -F x -f b --width KN,IN..(I+1)N`, is the file number `I` up to the length of the shortest one, each padded to whole words;
streams that are shorter than the block. -/
theorem C43_unzip_partial (h h' : Host) (a a' : Args) (n i : Nat) (files : List InFile) (scheds : List (Nat → Option Nat)) (hn : 0 < n) (hi : i < files.length)
    (ha : Asks a { joint := .zip n }) (hs : Surroundings h a { joint := .zip n } files (files.map Prod.fst) scheds) (hok : ∀ s ∈ scheds, ∀ i, s i ≠ none)
    (ha' : Asks a' (unzipJob files.length n i)) (hip : a'.inplace = false) (hpa : a'.patch = none) (hre : a'.regex = none) (hc : h'.checks = false) (hB : 2704 ≤ h'.block)
    (hsmall : (zip n (files.map fun f => alignTo n 0 f.1)).length < h'.block) :
    ∃ text N, (∀ fuel, N < fuel → (h.withFuel fuel).run a = (text, none)) ∧
      ∀ (name : String) (s : Nat → Option Nat), a'.inputs = [name] → h'.files name = some (text, s) → (∀ i, s i ≠ none) →
        ∃ N', ∀ fuel, N' < fuel → (h'.withFuel fuel).run a' = ((alignTo n 0 files[i].1).take (minLen (files.map fun f => alignTo n 0 f.1) / n * n), none) := by
  have hst : ({ joint := .zip n } : Job).stream (files.map Prod.fst) = zip n (files.map fun f => alignTo n 0 f.1) := by
    simp [Job.stream, Job.filtered, Joint.join, Spec.pad, Function.comp_def]
  have hsegs : ({ joint := .zip n } : Job).Slices (zip n (files.map fun f => alignTo n 0 f.1)) (strides (zip n (files.map fun f => alignTo n 0 f.1)).length 16 0 16) :=
    ⟨_, _, show strides _ _ _ _ = strides _ _ _ _ by simp [RangeEnd.at], rfl, rfl⟩
  obtain ⟨text, N, h1, h2, h3⟩ := dump_prints h h' a _ _ _ _ ha hs hok rfl _ (by rw [hst]; exact hsegs) (fun x hx => by
    have := (strides_mem hx).2.2
    simp only [Slicer.columns, RangeEnd.at, if_true, Bool.false_eq_true, if_false]
    omega)
  rw [hst] at h2
  have hsl := hs.stream
  rw [hst] at hsl
  refine ⟨text, N, h1, fun name s hin hf hs' => ?_⟩
  generalize hz : zip n (files.map fun f => alignTo n 0 f.1) = z at *
  have hst' : (unzipJob files.length n i).stream [z] = z := by
    simp [unzipJob, Job.stream, Job.filtered, Joint.join, Spec.cat, Spec.pad, alignTo_one]
  have hs2 : Surroundings h' a' (unzipJob files.length n i) [(text, s)] [z] [s] := by
    refine { release := hc, inplace := hip, block := by omega, opened := ?_, stdin := ?_, listed := by simp, patch := by rw [hpa]; trivial,
             decodes := .cons (dump_decodes (f := .hex) h2 (tiles_strides z.length 16 (by decide)) hsl _) .nil, text := fun _ => by simpa [unzipJob, Joint.word, Nat.mod_one] using h3,
             pad := ⟨Nat.zero_le _, Nat.zero_le _⟩, aligned := ?_, joined := ?_, stream := by rw [hst']; exact hsl, slicer := ?_, regex := by rw [hre]; trivial,
             fits := Or.inr ⟨by rw [hst']; exact hsmall, ?_, ?_, ?_, ?_, ?_⟩ }
    · simpa [unzipJob, Joint.word, alignTo_one] using hsl
    · simpa [unzipJob, Joint.join, Spec.cat, alignTo_one] using hsl
    · refine ⟨fun t ht => ?_, fun recs file hj => by simp [unzipJob] at hj⟩
      rw [(width_text ha'.slicer).1] at ht
      cases ht
    · simp only [unzipJob, RangeEnd.at, Bool.false_eq_true, if_false]
      exact ⟨Nat.mul_pos (by omega) hn, by omega, by omega, by simp⟩
    all_goals try simp [unzipJob]
    · unfold inputsOf
      rw [hin]
      exact .cons hf .nil
    · unfold inputsOf
      rw [hin, hpa, (width_text ha'.slicer).2]
      simp only [List.cons_ne_nil, if_false, Option.toList_none]
      exact Nat.le_trans (List.length_filter_le _ _) (by simp)
  obtain ⟨out, N', h4, _, h5⟩ := C37_success_partial _ _ _ _ _ _ ha' hs2 (by simpa using hs') (strides z.length (files.length * n) (i * n : Nat) (i * n + n : Nat))
    (by rw [hst']; exact ⟨_, _, show strides _ _ _ _ = strides _ _ _ _ by simp [RangeEnd.at], rfl, rfl⟩)
  refine ⟨N', fun fuel hfu => ?_⟩
  rw [h5 fuel hfu]
  rw [hst'] at h4
  have := unzip_columns (n := n) (i := i) (cs := files.map fun f => alignTo n 0 f.1) hn (by simpa using hi)
  simp only [hz, List.length_map, List.getElem_map] at this
  rw [show out = _ from h4, this]

/-! ## Examples -/

/-- Two files and the dump of the first one. -/
def pairFiles (x y text : Bytes) (s : Nat → Option Nat) (name : String) : Option InFile :=
  if name = "x" then some (x, s) else if name = "y" then some (y, s) else if name = "dump" then some (text, s) else none

open Conformance in
/-- `nd --width 7 x > dump; nd -f b --patch dump y` prints `x`, whatever the two files of the same length contain and however they are read. -/
example (x y : Bytes) (hl : y.length = x.length) (hx : x.length < 2 ^ 48) (s : Nat → Option Nat) (hs : ∀ i, s i ≠ none) :
    ∃ text N, (∀ fuel, N < fuel → ({ host none with files := pairFiles x y [] s, fuel := fuel } : Host).run (piecesArgs "x" "7") = (text, none)) ∧
      ∃ N', ∀ fuel, N' < fuel → ({ host none with files := pairFiles x y text s, fuel := fuel } : Host).run (patchArgs "y" "dump") = (x, none) := by
  obtain ⟨text, N, h1, _⟩ := C37_pieces { host none with files := pairFiles x y [] s } "x" "7" 7 (digit_numeral '7' (by decide)) (by decide) x s rfl (show 0 < 2 ^ 21 by decide) rfl hs hx
  refine ⟨text, N, h1, ?_⟩
  obtain ⟨text', N', h2, h3⟩ := C43_dump_is_patch { host none with files := pairFiles x y [] s } { host none with files := pairFiles x y text s } "x" "7" 7 (digit_numeral '7' (by decide)) (by decide) x s rfl
    (show 0 < 2 ^ 21 by decide) rfl hs hx rfl (show 47 + 4 * max 16 7 < (2 ^ 21 - 1777) / 8 by decide)
  have : text' = text := by
    have h4 := h1 (N + N' + 1) (by omega)
    have h5 := h2 (N + N' + 1) (by omega)
    have h6 := h4.symm.trans h5
    simp only [Prod.mk.injEq, and_true] at h6
    exact h6.symm
  subst this
  exact h3 "y" "dump" y s s rfl rfl hs hs (by simp [OneStdin]) hl

open Conformance in
/-- `nd --width 7 x > dump; nd --guide dump x` prints the same records again. -/
example (x : Bytes) (hx : x.length < 2 ^ 48) (s : Nat → Option Nat) (hs : ∀ i, s i ≠ none) :
    ∃ text, (∃ N, ∀ fuel, N < fuel → ({ host none with files := pairFiles x [] [] s, fuel := fuel } : Host).run (piecesArgs "x" "7") = (text, none)) ∧ Records .hex text (pieces 7 x) ∧
      ∃ out N', Records .hex out (pieces 7 x) ∧ ∀ fuel, N' < fuel → ({ host none with files := pairFiles x [] text s, fuel := fuel } : Host).run (guideByArgs "x" "dump") = (out, none) := by
  obtain ⟨text, N, h1, h0⟩ := C37_pieces { host none with files := pairFiles x [] [] s } "x" "7" 7 (digit_numeral '7' (by decide)) (by decide) x s rfl (show 0 < 2 ^ 21 by decide) rfl hs hx
  refine ⟨text, ⟨N, h1⟩, h0, ?_⟩
  obtain ⟨hst, hsu⟩ := pieces_surroundings { host none with files := pairFiles x [] [] s } "x" "7" 7 (by decide) x s rfl (show 0 < 2 ^ 21 by decide) rfl hx
  have hmem := fun y (hy : y ∈ strides x.length 7 0 7) => strides_mem hy
  have hasc : (strides x.length 7 0 7).Pairwise fun a b => a.pos < b.pos := by
    have h2 : (strides x.length 7 0 (7 : Nat)).Pairwise fun a b => a.tail ≤ b.pos := (strides_tiles x.length 7 (by decide)).2
    refine List.Pairwise.imp_of_mem (fun {a b} ha _ h => ?_) h2
    have := (hmem a ha).1
    simp only [Seg.tail] at h
    omega
  obtain ⟨text', N', h2, h3⟩ := C43_guide_partial { host none with files := pairFiles x [] [] s } { host none with files := pairFiles x [] text s } _ _ _ _ _
    (pieces_asks "x" "7" 7 (digit_numeral '7' (by decide))) hsu (by simpa using hs) rfl (strides x.length 7 0 7)
    (by rw [hst]; exact ⟨_, _, show strides _ _ _ _ = strides _ _ _ _ by simp [RangeEnd.at], rfl, rfl⟩)
    (fun y hy => by
      have := (hmem y hy).2.2
      show 47 + 4 * max y.len (max 16 7) < (2 ^ 21 - 1784) / 8
      omega) hasc (fun y hy => (hmem y hy).1) rfl (show 1792 ≤ 2 ^ 21 by decide)
  have : text' = text := by
    have h4 := h1 (N + N' + 1) (by omega)
    have h5 := h2 (N + N' + 1) (by omega)
    have h6 := h4.symm.trans h5
    simp only [Prod.mk.injEq, and_true] at h6
    exact h6.symm
  subst this
  obtain ⟨out, N'', h4, h5⟩ := h3 "x" "dump" x s s rfl rfl hs hs (by simp [OneStdin]) hx (fun y hy => (hmem y hy).2.1)
  refine ⟨out, N'', ?_, h5⟩
  have h7 : strides x.length 7 0 7 = _ := strides_tile x.length 7 (by decide)
  rw [h7, recsOf, List.map_map] at h4
  refine cast (congrArg (Records .hex out) (List.map_congr_left fun i _ => ?_)) h4
  simp only [Function.comp, Seg.bytes]
  congr 1
  rw [← List.length_drop, List.take_eq_take_iff]
  omega

/-- `nd --zip 1 x y` -/
def zipArgs : Args := { inputs := ["x", "y"], zip := some "1" }

/-- `nd -F x -f b --width 2,1..2 dump` -/
def unzipArgs : Args := { inputs := ["dump"], inFormat := some "x", outFormat := some "b", width := some "2,1..2" }

theorem zip_asks : Asks zipArgs { joint := .zip 1 } :=
  ⟨⟨.none, .none, .none, .zip (digit_numeral '1' (by decide)) (by decide), .none, .none, .none, .none, .none, .none, .none⟩, Or.inl rfl, rfl⟩

theorem unzip_asks : Asks unzipArgs (unzipJob 2 1 1) :=
  ⟨⟨.x, .b, .none, .none, .none, .none, .width (.range (t := ['2']) (u := "1..2".toList) (digit_numeral '2' (by decide))
    (.mk (digit_side .first '1' (by decide)) (digit_side .last '2' (by decide)))), .none, .none, .none, .none⟩, Or.inl rfl, rfl⟩

open Conformance in
/-- `nd --zip 1 x y > dump; nd -F x -f b --width 2,1..2 dump` prints `y`, if it is as long as `x` and both together are shorter than the block of 2^21 bytes (README has the same with `0..1`). -/
example (x y : Bytes) (hl : y.length = x.length) (hx : 2 * x.length < 2 ^ 21) (s : Nat → Option Nat) (hs : ∀ i, s i ≠ none) :
    ∃ text N, (∀ fuel, N < fuel → ({ host none with files := pairFiles x y [] s, fuel := fuel } : Host).run zipArgs = (text, none)) ∧
      ∃ N', ∀ fuel, N' < fuel → ({ host none with files := fun _ => some (text, s), fuel := fuel } : Host).run unzipArgs = (y, none) := by
  have hz : (zip 1 [x, y]).length = 2 * x.length := by
    have hm : minLen [x, y] = x.length := by simp [minLen, hl]
    have hc : ∀ c ∈ [x, y], x.length * 1 ≤ c.length := by simp [hl]
    show ((List.range (minLen [x, y] / 1)).flatMap (zipRow 1 [x, y])).length = _
    rw [hm, Nat.div_one, rows_flatten (k := 2) _ _ fun r hr => by rw [zipRow_length hr _ hc]; rfl]
    omega
  have hsu : Surroundings { host none with files := pairFiles x y [] s } zipArgs { joint := .zip 1 } [(x, s), (y, s)] [x, y] [s] := by
    refine { release := rfl, inplace := rfl, block := show 0 < 2 ^ 21 by decide, opened := .cons rfl (.cons rfl .nil), stdin := by decide, listed := by simp, patch := trivial,
             decodes := .cons rfl (.cons rfl .nil), text := fun h => absurd rfl h, pad := ⟨Nat.zero_le _, Nat.zero_le _⟩, aligned := ?_, joined := ?_, stream := ?_,
             slicer := ⟨by simp [zipArgs], by simp⟩, regex := trivial,
             fits := Or.inl (Or.inr (Or.inr (Or.inr ⟨16, _, rfl, ⟨rfl, rfl, rfl, rfl, rfl⟩, by decide, ?_⟩))) }
    · simp [Joint.word, alignTo_one, hl]
      omega
    · simp [Joint.join, alignTo_one, hz]
      omega
    · simp [Job.stream, Job.filtered, Joint.join, Spec.pad, alignTo_one, hz]
      omega
    · simp only [RangeEnd.at, if_true, Bool.false_eq_true, if_false]
      omega
  obtain ⟨text, N, _, _, h2⟩ := C37_success_partial _ _ _ _ _ _ zip_asks hsu (by simpa using hs) _ ⟨_, _, rfl, rfl, rfl⟩
  refine ⟨text, N, h2, ?_⟩
  obtain ⟨text', N', h3, h4⟩ := C43_unzip_partial { host none with files := pairFiles x y [] s } { host none with files := fun _ => some (text, s) } zipArgs unzipArgs 1 1 [(x, s), (y, s)] [s] (by decide) (by simp)
    zip_asks hsu (by simpa using hs) unzip_asks rfl rfl rfl rfl (show 2704 ≤ 2 ^ 21 by decide) (by
      show (zip 1 ([(x, s), (y, s)].map fun f => alignTo 1 0 f.1)).length < 2 ^ 21
      simp [alignTo_one, hz, hx])
  have : text' = text := by
    have h4 := h2 (N + N' + 1) (by omega)
    have h5 := h3 (N + N' + 1) (by omega)
    have h6 := h4.symm.trans h5
    simp only [Prod.mk.injEq, and_true] at h6
    exact h6.symm
  subst this
  obtain ⟨N'', h5⟩ := h4 "dump" s rfl rfl hs
  refine ⟨N'', fun fuel hf => ?_⟩
  have := h5 fuel hf
  simp only [List.getElem_cons_succ, List.getElem_cons_zero, alignTo_one, List.map_cons, List.map_nil, minLen, hl, Nat.min_self, Nat.div_one, Nat.mul_one] at this
  rw [← hl, List.take_length] at this
  exact this

end Nd.Props
