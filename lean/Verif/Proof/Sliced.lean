import Verif.Proof.Pressed
import Verif.Proof.Rounds
/-!
# Slicing on streams of any length, from the slicer to the drains
-/
namespace Nd
open Spec Props

/-! ## Slices that stay apart -/

theorem occurrences_apart {p : Bytes} (hu : Unbordered p) (content : Bytes) : (occurrences p content).Pairwise fun a b => a.tail ≤ b.pos := by
  refine (occurrences_sorted p content).imp_of_mem fun {a b} ha hb hab => ?_
  rw [occurrences_eq] at ha hb
  obtain ⟨_, _, a1, _, t, a2⟩ := mem_occIn.1 ha
  obtain ⟨_, _, _, _, u, b2⟩ := mem_occIn.1 hb
  rcases Nat.lt_or_ge b.pos a.tail with hlt | hge
  · exfalso
    simp only [Seg.tail, a1] at hlt
    apply hu (b.pos - a.pos) (by omega) (by omega)
    have h1 : content.drop b.pos = (content.drop a.pos).drop (b.pos - a.pos) := by
      rw [List.drop_drop]; congr 1; omega
    rw [← a2, ← b2, List.drop_append_of_le_length (by omega)] at h1
    have h2 := congrArg (List.take (p.length - (b.pos - a.pos))) h1
    rw [show List.take (p.length - (b.pos - a.pos)) (p ++ u) = p.take (p.length - (b.pos - a.pos)) from List.take_append_of_le_length (by omega),
      List.take_append_of_le_length (by simp), List.take_of_length_le (l := p.drop (b.pos - a.pos)) (by simp)] at h2
    exact h2.symm
  · exact hge

theorem invert_apart {r : RangeEnd × RangeEnd} (h1 : r.1.fromEnd = false) (h2 : 0 ≤ r.1.off) (h3 : r.2.fromEnd = true) (h4 : r.2.off ≤ 0) {segs : List Seg} (hs : Sorted segs)
    (hp : ∀ x ∈ segs, 0 < x.len) (len : Nat) : (invert [r] segs len).Pairwise fun a b => a.tail ≤ b.pos := by
  unfold invert
  rw [List.pairwise_flatMap]
  refine ⟨fun g hg => ?_, (gaps_apart len segs 0 hs hp).imp_of_mem fun {a b} ha hb hab x hx y hy => ?_⟩
  · unfold images
    cases hc : clipped len (r.1.on g) (r.2.on g) <;> simp [hc]
  · obtain ⟨r', hr, _, _, x1, _⟩ := images_mem hx
    obtain ⟨r'', hr', _, _, _, y1⟩ := images_mem hy
    simp only [List.mem_singleton] at hr hr'
    subst hr hr'
    simp only [RangeEnd.on, h1, h3, if_true, Bool.false_eq_true, if_false] at x1 y1
    omega

theorem extend_apart {r : RangeEnd × RangeEnd} (h1 : r.1.fromEnd = false) (h2 : r.1.off = 0) {segs : List Seg} (hs : segs.Pairwise fun a b => a.tail ≤ b.pos)
    (hfits : ∀ x ∈ segs, r.2.on ((x.pos : Int), (x.tail : Int)) ≤ x.tail) (len : Nat) : (Spec.extend [r] segs len).Pairwise fun a b => a.tail ≤ b.pos := by
  unfold Spec.extend
  rw [List.pairwise_flatMap]
  refine ⟨fun g hg => ?_, hs.imp_of_mem fun {a b} ha hb hab x hx y hy => ?_⟩
  · unfold images
    cases hc : clipped len (r.1.on ((g.pos : Int), (g.tail : Int))) (r.2.on ((g.pos : Int), (g.tail : Int))) <;> simp [hc]
  · obtain ⟨r', hr, _, _, x1, _⟩ := images_mem hx
    obtain ⟨r'', hr', _, _, _, y1⟩ := images_mem hy
    simp only [List.mem_singleton] at hr hr'
    subst hr hr'
    have := hfits a ha
    simp only [RangeEnd.on, h1, h2, Bool.false_eq_true, if_false] at x1 y1 this
    omega

/-! ## `--find`, and what follows it -/

theorem find_sliced (h : Host) {scheds : List (Nat → Option Nat)} (p : Pipeline InoutFormat) (srcs : List Reader) (j : Job) {content : Bytes} {raw ext : List Seg}
    (hf : j.Fits ((h.block - 1784) / 8)) {q : Bytes} (hq : j.slicer = .find q) {node : Node} (hn : j.slicer.Node h scheds node) {regex invert extend : Option String}
    (hrn : RegexNode h j.regex regex) (hin : MappersNode j.invert invert) (hen : MappersNode j.extend extend) (h1 : j.slicer.Cuts content raw)
    (h2 : j.Extended content.length (j.inverted content.length (j.searched content raw)) ext) (hlen : content.length < usizeMax) {d : DynByte} {F w tee} (hd : Feeds d F h.block w content tee) :
    ∃ g, (∀ y rest, (h.stages p srcs).loop (node :: (optNode .regex regex ++ optNode .bridge invert ++ optNode .extend extend ++ rest)) (y, .byte d) = (h.stages p srcs).loop rest (y, .segment g)) ∧
      (∃ w' ≤ w, ∃ D, Pressed g F tee D w' content ext) ∧ (j.lines.isSome → ext.Pairwise fun a b => a.tail ≤ b.pos) := by
  have hf2 := hf.2
  rw [hq] at hn hf2
  simp only at hf2
  obtain ⟨hu, hL, hlines⟩ := hf2
  cases node <;> simp only [Slicer.Node] at hn
  rename_i text
  obtain ⟨g, hg, w', hw', hp⟩ := find_pressed h p hn hu hL hd
  have hstep : ∀ y, (h.stages p srcs).step (.find text) (y, .byte d) = .ok (y, .segment g) := fun y => by simp only [Stages.step, Host.stages, hg]
  have hregex : regex = none := by
    rw [hf.1.1] at hrn
    cases regex with
    | none => rfl
    | some => exact hrn.elim
  subst hregex
  simp only [Stages.loop, hstep]
  have hraw : raw = occurrences q content := by
    rw [hq] at h1
    exact h1
  have hap := occurrences_apart hu content
  rw [← hraw] at hap hp
  rcases hf.cases h1 h2 with ⟨f1, f2, rfl⟩ | ⟨q', hq', _, ⟨r, f1, f2, f3, f4, f5, f6, rfl⟩ | ⟨r, f1, f2, f3, f4, f5, f6, f7, f8, rfl⟩⟩
  · rw [f1] at hin
    rw [f2] at hen
    cases invert with
    | some => exact hin.elim
    | none =>
      cases extend with
      | some => exact hen.elim
      | none => exact ⟨g, fun y rest => rfl, ⟨w', hw', _, hp⟩, fun _ => hap⟩
  · rw [f1] at hin
    rw [f2] at hen
    cases invert with
    | none => exact hin.elim
    | some t =>
      cases extend with
      | some => exact hen.elim
      | none =>
        obtain ⟨ms, m1, m2⟩ := hin
        obtain ⟨m, rfl, rfl⟩ : ∃ m, ms = [m] ∧ m.toSpec = r := by
          cases ms with
          | nil => cases m2
          | cons m ms =>
            cases ms with
            | nil => exact ⟨m, rfl, by simpa using m2⟩
            | cons => simp at m2
        refine ⟨_, fun y rest => ?_, ⟨w', hw', 0, hp.bridge (by omega) f3 f4 f5 f6⟩, fun _ => invert_apart f3 f4 f5 f6 hp.good.1 (fun x hx => (hp.good.2 x hx).1) _⟩
        simp only [optNode, List.nil_append, List.cons_append, Stages.loop, Stages.step]
        rw [show (h.stages p srcs).manipulate (.bridge t) g = h.manipulate (.bridge t) g from rfl]
        simp only [Host.manipulate, m1, attempt]
  · rw [f1] at hin
    rw [f2] at hen
    obtain rfl : q = q' := by
      rw [hq] at hq'
      cases hq'
      rfl
    cases invert with
    | some => exact hin.elim
    | none =>
      cases extend with
      | none => exact hen.elim
      | some t =>
        obtain ⟨ms, m1, m2⟩ := hen
        obtain ⟨m, rfl, rfl⟩ : ∃ m, ms = [m] ∧ m.toSpec = r := by
          cases ms with
          | nil => cases m2
          | cons m ms =>
            cases ms with
            | nil => exact ⟨m, rfl, by simpa using m2⟩
            | cons => simp at m2
        refine ⟨_, fun y rest => ?_, ⟨w', hw', 0, hp.extend (by omega) f3 f4 (by omega) f6 f7 f8⟩, fun hl => extend_apart f3 ((hlines hl).2 _ f2 _ (by simp)) hap f7 _⟩
        simp only [optNode, List.nil_append, List.cons_append, Stages.loop, Stages.step]
        rw [show (h.stages p srcs).manipulate (.extend t) g = h.manipulate (.extend t) g from rfl]
        simp only [Host.manipulate, m1, attempt]

/-- `--lines` after it. -/
theorem Pressed.lines {g : DynSeg} {F tee D w content segs} (h : Pressed g F tee D w content segs) (hd : segs.Pairwise fun a b => a.tail ≤ b.pos) (hlen : content.length < 2 ^ 64)
    {B : Nat} (hB : 0 < B) (ms : List SegmentMapper) {cache} :
    ∃ s, FilterStream.new false g.st (ms.map RangeMapper.ofMapper) = .ok s ∧
      Drains { src := FilterStream.segSrc g.src, st := s, cache := cache } F B (w + 2) (slicesOf content (pick (ms.map SegmentMapper.toSpec) segs)) True := by
  obtain ⟨⟨K, R, hK, hR, hk, ht, hG, h0⟩, hso, hin⟩ := h
  obtain ⟨s, hs⟩ := C25_new_ok g.st (ms.map RangeMapper.ofMapper)
  refine ⟨s, hs, ?_⟩
  rw [← coverAny_lines]
  refine Rounds.drains (FilterStream.rounds hR ht hK (coverAny segs.length (ms.map RangeMapper.ofMapper)) segs.length) hB ?_ hlen
  unfold FilterStream.new at hs
  cases hc : Cutter.ofRanges false (ms.map RangeMapper.ofMapper) with
  | error e => rw [hc] at hs; cases hs
  | ok c =>
    rw [hc] at hs
    cases hs
    obtain ⟨c1, c2⟩ := Cutter.ofRanges_inv hc
    have hpos : ∀ x ∈ segs, 0 < x.len := fun x hx => (hin x hx).1
    refine ⟨segs, rfl, ⟨c1, by simp, Nat.zero_le _, fun i _ _ => c2 _ _, by simp [keep], (FilterStream.disjoint_inc hpos hd).imp fun h => Or.inl h⟩, hpos, hd, rfl, Nat.zero_le _, fun _ _ => Nat.zero_le _,
      fun _ => rfl, Or.inl ⟨0, w, h0, fun _ => Nat.le_refl _, fun h => absurd h (by simp)⟩⟩

/-! ## The second half of the pipeline -/

theorem slicing_drains (h : Host) {scheds : List (Nat → Option Nat)} (p : Pipeline InoutFormat) (srcs : List Reader) (j : Job) {content : Bytes} {segs : List Seg} (hB : 0 < h.block)
    (hf : j.Fits ((h.block - 1784) / 8)) {node : Node} (hn : j.slicer.Node h scheds node) {regex invert extend text : Option String} (hrn : RegexNode h j.regex regex)
    (hin : MappersNode j.invert invert) (hen : MappersNode j.extend extend) (hln : RangesNode j.lines text) (hc : h.checks = false)
    (hs : j.Slices content segs) (hlen : content.length < usizeMax) {d : DynByte} {F w} (hd : Carries d.src d.st F h.block w content) :
    ∃ g, (∀ rest, (h.stages p srcs).loop (node :: (optNode .regex regex ++ optNode .bridge invert ++ optNode .extend extend ++ optNode .merge j.merge ++ optNode .lines text ++ rest)) (none, .byte d) =
        (h.stages p srcs).loop rest (none, .segment g)) ∧
      ∃ w' ≤ w + 2, Drains g F h.block w' (slicesOf content segs) True := by
  have h64 : content.length < 2 ^ 64 := by unfold usizeMax at hlen; omega
  have key : ∀ (g : DynSeg) (w' : Nat) (K : SegKind), w' ≤ w → K.exact = true → SegDelivers g.src K F g.st w' content segs →
      ∃ w' ≤ w + 2, Drains g F h.block w' (slicesOf content segs) True := by
    intro g w' K hw' hK hg
    refine ⟨w', by omega, fun f fuel hf => ScatterDrain.delivers hK f hB hg h64 hf, fun _ f fuel c hf => ?_⟩
    obtain ⟨R, hR, hs⟩ := hg
    have := ScatterDrain.scatter_eq hR hK f fuel (ScatterDrain.new g.st) c 0 w' content segs hs rfl (by simpa [ScatterDrain.new] using h64) hf
    simpa only [ScatterDrain.new, absOf_zero] using this
  -- merged slices, without `--lines`
  have merged : ∀ (g : DynSeg) (w' : Nat) (ext : List Seg) (ns : List Node), w' ≤ w → Mergeable g F w' content ext → segs = j.merged ext →
      (∀ rest, (h.stages p srcs).loop (node :: (ns ++ rest)) (none, .byte d) = (h.stages p srcs).loop rest (none, .segment g)) →
      ∃ g, (∀ rest, (h.stages p srcs).loop (node :: (ns ++ optNode .merge j.merge ++ rest)) (none, .byte d) = (h.stages p srcs).loop rest (none, .segment g)) ∧
        ∃ w' ≤ w + 2, Drains g F h.block w' (slicesOf content segs) True := by
    rintro g w' ext ns hw' ⟨⟨K, k1, k2, k3, k4, k5, k6, hz, k7⟩, hso⟩ hsegs hl
    unfold Job.merged at hsegs
    cases hm : j.merge with
    | none =>
      rw [hm] at hsegs
      simp only at hsegs
      subst hsegs
      exact ⟨g, fun rest => by rw [← hl]; simp only [optNode, List.append_nil], key g w' K hw' k2 k1⟩
    | some n =>
      rw [hm] at hsegs
      simp only at hsegs
      subst hsegs
      have hmg := MergeStream.delivers k1 k4 k5 k6 k7 hso (by omega) n
      refine ⟨{ src := MergeStream.segSrc g.src, st := MergeStream.new g.st n, cache := fun t => g.cache t.src }, fun rest => ?_, key _ w' _ hw' (by simp [MergeStream.kind, k2, k3]) hmg⟩
      rw [List.append_assoc, hl]
      simp only [optNode, List.cons_append, List.nil_append, Stages.loop, Stages.step]
      rw [show (h.stages p srcs).manipulate (.merge n) g = .ok { src := MergeStream.segSrc g.src, st := MergeStream.new g.st n, cache := fun t => g.cache t.src } from rfl]
  obtain ⟨raw, ext, hraw, hext, hsegs⟩ := hs
  by_cases hq : ∃ q, j.slicer = .find q
  · obtain ⟨q, hq⟩ := hq
    obtain ⟨g, hl, ⟨w', hw', D, hp⟩, hap⟩ := find_sliced h p srcs j hf hq hn hrn hin hen hraw hext hlen hd.feeds
    unfold Job.picked at hsegs
    cases hli : j.lines with
    | none =>
      rw [hli] at hln hsegs
      cases text with
      | some t => exact hln.elim
      | none =>
        obtain ⟨g', h1, h2⟩ := merged g w' ext _ hw' hp.mergeable hsegs (hl none)
        exact ⟨g', fun rest => by rw [← h1]; simp only [optNode, List.append_nil], h2⟩
    | some rs =>
      rw [hli] at hln hsegs hap
      cases text with
      | none => exact hln.elim
      | some t =>
        have hf2 := hf.2
        rw [hq, hli] at hf2
        simp only [Option.isSome_some, true_implies] at hf2
        obtain ⟨ms, l1, l2⟩ := hln
        have hm := hf2.2.2.1
        unfold Job.merged at hsegs
        rw [hm] at hsegs
        simp only at hsegs
        obtain ⟨s, s1, s2⟩ := hp.lines (hap rfl) h64 hB ms (cache := fun t => g.cache t.src)
        rw [l2, ← hsegs] at s2
        refine ⟨_, fun rest => ?_, w' + 2, by omega, s2⟩
        rw [hm, List.append_assoc, List.append_assoc, hl]
        simp only [optNode, List.cons_append, List.nil_append, Stages.loop, Stages.step]
        rw [show (h.stages p srcs).manipulate (.lines t) g = h.manipulate (.lines t) g from rfl]
        simp only [Host.manipulate, attempt, l1, hc, s1]
  · have hnone : j.invert = none ∧ j.extend = none := by
      rcases hf.1.2 with h | ⟨q, _, h, _⟩ | ⟨q, _, h, _⟩
      · exact h
      · exact absurd ⟨q, h⟩ hq
      · exact absurd ⟨q, h⟩ hq
    obtain rfl : ext = raw := by
      rcases hf.cases hraw hext with ⟨_, _, h⟩ | ⟨q, h, _⟩
      · exact h
      · exact absurd ⟨q, h⟩ hq
    rw [hf.1.1] at hrn
    rw [hnone.1] at hin
    rw [hnone.2] at hen
    cases regex with
    | some => exact hrn.elim
    | none =>
    cases invert with
    | some => exact hin.elim
    | none =>
    cases extend with
    | some => exact hen.elim
    | none =>
    have hcls : ∀ g, h.slicer p node d = .ok g → (h.stages p srcs).step node (none, .byte d) = .ok (none, .segment g) := by
      intro g hg
      cases hsl : j.slicer <;> rw [hsl] at hn <;> cases node <;> simp only [Slicer.Node] at hn <;> simp only [Stages.step, Host.stages, hg]
    unfold Job.picked at hsegs
    cases hl : j.lines with
    | none =>
      rw [hl] at hln hsegs
      cases text with
      | some t => exact hln.elim
      | none =>
        obtain ⟨g, hg, w', hw', hmg⟩ := slicer_mergeable h p j hf hn hc hraw hlen hd
        obtain ⟨g', h1, h2⟩ := merged g w' ext [] hw' hmg hsegs (fun rest => by simp only [List.nil_append, Stages.loop, hcls g hg])
        exact ⟨g', fun rest => by rw [← h1]; simp only [optNode, List.append_nil, List.nil_append], h2⟩
    | some rs =>
      rw [hl] at hln hsegs
      cases text with
      | none => exact hln.elim
      | some t =>
        replace hf := hf.2
        cases hsl : j.slicer with
        | walk => rw [hsl] at hf; exact hf.elim
        | guide => rw [hsl] at hf; exact hf.elim
        | slice => rw [hsl, hl] at hf; simp at hf
        | find q => exact absurd ⟨q, hsl⟩ hq
        | width n r =>
          rw [hsl] at hf hn hraw
          rw [hl] at hf
          simp only [Option.isSome_some, true_implies] at hf
          obtain ⟨hp, f1, f2, f3, f4, f5, f6, f7⟩ := hf
          unfold Job.merged at hsegs
          rw [f5] at hsegs
          simp only at hsegs
          obtain ⟨g, g', h1, h2, w', hw', K, hK, h3⟩ := lines_deliver h p (content := content) hp f6 f7 (by omega) hn hc hln hd
          simp only [Slicer.Cuts, f6, f7] at hraw
          subst hraw hsegs
          refine ⟨g', fun rest => ?_, key g' w' K hw' hK h3⟩
          rw [f5]
          simp only [optNode, List.nil_append, List.cons_append, Stages.loop]
          rw [hcls g h1]
          simp only [Stages.step]
          rw [show (h.stages p srcs).manipulate (.lines t) g = .ok g' from h2]

end Nd
