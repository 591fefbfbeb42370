import Verif.Proof.Feeds
import Verif.Proof.Tight
import Verif.Props.Map
/-!
# `--find`, and `--invert` and `--extend` after it, on streams of any length
-/
namespace Nd
open Spec Props

/-- A stream of slices that holds nothing back; `tee` tells that there is a tee in front of it. -/
structure Pressed (g : DynSeg) (F : Err → Prop) (tee : Prop) (D w : Nat) (content : Bytes) (segs : List Seg) : Prop where
  tight : ∃ K R, K.Firm ∧ SegFaithful g.src K F R ∧ SegKeeps g.src R ∧ SegTight g.src R D ∧
    (∀ s ph w rem segs, R s ph w rem segs → Kept tee (g.cache s) content rem) ∧ R g.st (.idle 0) w content segs
  good : MapStream.Good segs content.length

theorem find_pressed (h : Host) (p : Pipeline InoutFormat) {q : Bytes} {text : String} (hn : ExactMatchSlicer.parsePattern h.impl text.toUTF8.toList = .ok q) (hu : Unbordered q)
    (hL : 64 ≤ (h.block - 1784) / 8) {d : DynByte} {F w tee} {content : Bytes} (hd : Feeds d F h.block w content tee) :
    ∃ g, h.slicer p (.find text) d = .ok g ∧ ∃ w' ≤ w, Pressed g F tee ((h.block - 1784) / 8 + 1 - max 1 q.length) w' content (occurrences q content) := by
  obtain ⟨⟨w', hw', R, E, hR, hA, hs0, hE, hG⟩, _⟩ := hd
  have hl := parsePattern_length hn
  simp only [Host.slicer, attempt, ExactMatchSlicer.new, hn]
  refine ⟨_, rfl, w', hw', ⟨ExactMatchSlicer.kind, _, ⟨rfl, rfl, rfl, rfl, rfl, rfl, fun _ _ => trivial, rfl⟩, ExactMatchSlicer.faithful hu hR hA (fun _ h => h) (by omega) (by omega) h.block,
    ExactMatchSlicer.keeps hu hR hA (fun _ h => h) (by omega) (by omega) h.block, ExactMatchSlicer.tight hu hR hA (fun _ h => h) (by omega) (by omega) h.block, fun s ph w rem segs hr => ?_,
    ⟨⟨rfl, occurrences_eq _ _, by simp [occIn], Nat.zero_le _⟩, 1, (h.block - 1784) / 8, hs0, fun req n s' hf => ?_, Or.inr ?_⟩, by simp⟩, ?_⟩
  · obtain ⟨ph', h⟩ := hr.src
    exact hG _ _ _ _ h
  · exact (hA.fill _ _ _ _ _ _ _ _ hs0 hf).1 rfl
  · simp only; omega
  · exact ⟨(occurrences_sorted _ _).imp fun h => Nat.le_of_lt h, fun x hx => (occurrences_mem hx).2⟩

theorem Pressed.bridge {g : DynSeg} {F tee D w content segs} (h : Pressed g F tee D w content segs) (hlen : content.length ≤ usizeMax) {m : SegmentMapper} (h1 : m.toSpec.1.fromEnd = false)
    (h2 : 0 ≤ m.toSpec.1.off) (h3 : m.toSpec.2.fromEnd = true) (h4 : m.toSpec.2.off ≤ 0) :
    Pressed { src := MapStream.segSrc g.src (Bridge.ops [m]), st := Bridge.new g.st, cache := fun t => g.cache t.src } F tee 0 w content (invert [m.toSpec] segs content.length) := by
  obtain ⟨⟨K, R, hK, hR, hk, ht, hG, h0⟩, hso, hin⟩ := h
  have hgood : MapStream.Good (invert [m.toSpec] segs content.length) content.length := by
    refine ⟨invert_one_sorted _ _ _ hso fun x hx => (hin x hx).1, fun z hz => ?_⟩
    obtain ⟨g, hg, hz⟩ := List.mem_flatMap.1 hz
    obtain ⟨r, hr, h1, h2, h3, h4⟩ := images_mem hz
    exact ⟨h1, h2⟩
  have laws := Bridge.laws [m] (by simp) (content.length + m.toSpec.2.off.natAbs) (by
    intro m' hm
    simp only [List.mem_singleton] at hm
    subst hm
    simp only [RangeEnd.on, h1, h3, if_true, Bool.false_eq_true, if_false]
    omega)
  have snug : SnugLaws (Bridge.ops [m]) (Bridge.Inv [m] (content.length + m.toSpec.2.off.natAbs)) D := by
    have := Bridge.snug (m := m) (H := content.length + m.toSpec.2.off.natAbs) h1 h2 h3 h4
    exact ⟨fun aux seen news later len bytes maxc hI hb hn _ => this.snug aux seen news later len bytes maxc hI hb hn (Nat.zero_le _), this.grows, this.unwinds⟩
  refine ⟨⟨MapStream.firm, _, MapStream.firm_firm, MapStream.tight_faithful hR hk ht hK laws snug, MapStream.tight_keeps hR hk hK laws, MapStream.tight_tight hR hk ht hK laws snug,
    fun s ph w rem segs hT => ?_, ⟨⟨segs, .idle 0, h0, ?_, ?_, hgood, ?_, rfl, Nat.zero_le _, ?_⟩, ?_⟩⟩, hgood⟩
  · obtain ⟨segs, sph, hr, _⟩ := hT.1.inner
    exact hG _ _ _ _ _ hr
  · simp [Bridge.new, MapStream.new, Bridge.rest, invert]
  · refine ⟨by simp [Bridge.new, MapStream.new], by simp [Bridge.new, MapStream.new], fun x hx => ?_, fun g hg m' hm => ?_, hlen⟩
    · have := hin x (by simpa [Bridge.new, MapStream.new] using hx)
      simp only [Seg.tail] at this ⊢
      omega
    · simp only [List.mem_singleton] at hm
      subst hm
      simp only [RangeEnd.on, h3, if_true]
      omega
  · simp [Bridge.new, MapStream.new]
  · simp [Bridge.new, MapStream.new]
  · intro b c mc s' _ z hz
    simp [Bridge.new, MapStream.new] at hz

theorem Pressed.extend {g : DynSeg} {F tee D w content segs} (h : Pressed g F tee D w content segs) (hlen : content.length ≤ usizeMax) {m : SegmentMapper} (h1 : m.toSpec.1.fromEnd = false)
    (h2 : m.toSpec.1.off ≤ 0) (h3 : -(D : Int) < m.toSpec.1.off) (h4 : m.toSpec.1.off ≤ m.toSpec.2.on (0, 1))
    (hfits : ∀ x ∈ segs, m.toSpec.2.on ((x.pos : Int), (x.tail : Int)) ≤ x.tail) (hmono : segs.Pairwise (fun a b => a.pos ≤ b.pos ∧ a.tail ≤ b.tail)) :
    Pressed { src := MapStream.segSrc g.src (Extend.ops [m]), st := Extend.new g.st, cache := fun t => g.cache t.src } F tee 0 w content (extend [m.toSpec] segs content.length) := by
  obtain ⟨⟨K, R, hK, hR, hk, ht, hG, h0⟩, hso, hin⟩ := h
  have hle := extend_one_sorted m.toSpec segs content.length hmono
  have hgood : MapStream.Good (Spec.extend [m.toSpec] segs content.length) content.length := by
    refine ⟨Seg.Le.pairwise_sorted hle, fun z hz => ?_⟩
    obtain ⟨g, hg, hz⟩ := List.mem_flatMap.1 hz
    obtain ⟨r, hr, h1, h2, h3, h4⟩ := images_mem hz
    exact ⟨h1, h2⟩
  have laws := Extend.laws [m] (by simp) (content.length + m.toSpec.1.off.natAbs) content.length (by
    intro m' hm
    simp only [List.mem_singleton] at hm
    subst hm
    simp only [RangeEnd.on, h1, Bool.false_eq_true, if_false] at h4 ⊢
    omega) (by omega)
  have snug := Extend.snug (m := m) (D := D) (W := content.length) h1 h2 h3 h4
  refine ⟨⟨MapStream.firm, _, MapStream.firm_firm, MapStream.tight_faithful hR hk ht hK laws snug, MapStream.tight_keeps hR hk hK laws, MapStream.tight_tight hR hk ht hK laws snug,
    fun s ph w rem segs hT => ?_, ⟨⟨segs, .idle 0, h0, ?_, ?_, hgood, ?_, rfl, Nat.zero_le _, ?_⟩, ?_⟩⟩, hgood⟩
  · obtain ⟨segs, sph, hr, _⟩ := hT.1.inner
    exact hG _ _ _ _ _ hr
  · simp [Extend.new, MapStream.new, Extend.rest]
  · refine ⟨by simp [Extend.new, MapStream.new], fun x hx => ?_, fun x hx m' hm => ?_, by simpa [Extend.new, MapStream.new] using hle, hlen⟩
    · have := hin x (by simpa [Extend.new, MapStream.new] using hx)
      simp only [Seg.tail] at this ⊢
      omega
    · simp only [List.mem_singleton] at hm
      subst hm
      exact hfits x (by simpa [Extend.new, MapStream.new] using hx)
  · simp [Extend.new, MapStream.new]
  · simp [Extend.new, MapStream.new]
  · intro b c mc s' _ z hz
    simp [Extend.new, MapStream.new] at hz

theorem Pressed.mergeable {g : DynSeg} {F tee D w content segs} (h : Pressed g F tee D w content segs) : Mergeable g F w content segs := by
  obtain ⟨⟨K, R, hK, hR, hk, ht, hG, h0⟩, hso, hin⟩ := h
  exact ⟨⟨K, ⟨R, hR, h0⟩, hK.exact, hK.snap, hK.honest, hK.steady, hK.early, hK.lax, fun _ _ _ => hK.free _ _⟩, hso⟩

end Nd
