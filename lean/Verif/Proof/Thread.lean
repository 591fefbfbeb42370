import Verif.Proof.Sliced
/-!
# The slicing thread of `--patch-back` in the whole program
-/
namespace Nd
open Spec Props

/-! ## The thread until it ends -/

theorem Slicing.round_ended {S : SegSrc σ} {f : Formatting} {B : Nat} {a : Slicing σ} (h : a.fate.isSome) : a.round S f B = a := by
  unfold Slicing.round
  cases hf : a.fate with
  | none => rw [hf] at h; cases h
  | some r => rfl

theorem slicing_ended {S : SegSrc σ} {f : Formatting} {B : Nat} {a : Slicing σ} (h : a.fate.isSome) : ∀ fuel, Host.slicing S f B fuel a = a
  | 0 => rfl
  | fuel + 1 => by
    unfold Host.slicing
    rw [if_pos h]

theorem slicing_repeat (S : SegSrc σ) (f : Formatting) (B : Nat) : ∀ (fuel : Nat) (a : Slicing σ), Host.slicing S f B fuel a = Nat.repeat (fun a => a.round S f B) fuel a
  | 0, _ => rfl
  | fuel + 1, a => by
    unfold Host.slicing
    by_cases h : a.fate.isSome
    · rw [if_pos h]
      have : ∀ n, Nat.repeat (fun a => a.round S f B) n a = a := by
        intro n
        induction n with
        | zero => rfl
        | succ n ih =>
          show (Nat.repeat (fun a => a.round S f B) n a).round S f B = a
          rw [ih, Slicing.round_ended h]
      exact (this _).symm
    · rw [if_neg h, slicing_repeat S f B fuel, Slicing.ends.repeat_front]

/-- The slicing thread writes the lines of the slices to the command, and has then put the whole stream into the temporary file; or it fails. -/
def Threads (g : DynSeg) (F : Err → Prop) (B w : Nat) (content : Bytes) (xs : List (Nat × Bytes)) : Prop :=
  ∀ (f : Formatting) fuel, w + 2 < fuel →
    (∃ e, F e ∧ (Host.slicing g.src f B fuel (Slicing.new g.st)).fate = some (some e)) ∨
    ((Host.slicing g.src f B fuel (Slicing.new g.st)).fate = some none ∧ (Host.slicing g.src f B fuel (Slicing.new g.st)).written = xs.flatMap f.line ∧
      ∃ t, g.cache (Host.slicing g.src f B fuel (Slicing.new g.st)).st = some t ∧ t.data = content)

theorem SegTracked.threads {g : DynSeg} {K F} (hK : K.exact = true) (hfull : K.full = true) {w : Nat} {content : Bytes} {segs : List Seg} (hlen : content.length < 2 ^ 64)
    (h : SegTracked g.src K F (fun s rem => Kept True (g.cache s) content rem) g.st w content segs) (B : Nat) : Threads g F B w content (slicesOf content segs) := by
  obtain ⟨R, hR, hG, h0⟩ := h
  intro f fuel hf
  rw [slicing_repeat]
  have inv : ∀ n, Slicing.Inv R F (fun s rem => Kept True (g.cache s) content rem) f content.length ((slicesOf content segs).flatMap f.line) (w + 2)
      (Nat.repeat (fun a => a.round g.src f B) n (Slicing.new g.st)) := by
    intro n
    induction n with
    | zero => exact Slicing.Inv.new h0
    | succ n ih => exact (ih.round hR hK hfull hG hlen B).1.mono (by omega)
  obtain ⟨n, rfl⟩ : ∃ n, fuel = n + 1 := ⟨fuel - 1, by omega⟩
  have hend := Slicing.ends hR hK hfull hG hlen B n (w + 2) _ (Slicing.Inv.new h0 (F := F) (f := f)) (by omega)
  have hI := inv (n + 1)
  generalize Nat.repeat (fun a => a.round g.src f B) (n + 1) (Slicing.new g.st) = a at hend hI
  unfold Slicing.Inv at hI
  split at hI
  · rename_i hn
    exact absurd hn hend
  · rename_i hn
    obtain ⟨h1, h2⟩ := hI
    obtain ⟨t, h3, h4⟩ := h2 trivial
    exact Or.inr ⟨hn, h1, t, h3, by simpa using h4⟩
  · rename_i e hn
    exact Or.inl ⟨e, hI, hn⟩

theorem Shot.threads {g : DynSeg} {F} {content : Bytes} {n : Nat} {segs : List Seg} {tidy dry : Prop} (h : Shot g.src F (fun s => Kept True (g.cache s) content []) g.st content n segs tidy dry)
    (hd : dry) (h0 : n = 0 → segs = []) (hin : ∀ x ∈ segs, x.tail ≤ content.length) (hlen : content.length < 2 ^ 64) (B : Nat) : Threads g F B 0 content (slicesOf content segs) := by
  intro f fuel hf
  obtain ⟨fuel, rfl⟩ : ∃ k, fuel = k + 2 := ⟨fuel - 2, by omega⟩
  rcases h with ⟨e, h1, h2⟩ | ⟨s', h1, ⟨m, h2⟩, h3, hst, h4⟩
  · left
    refine ⟨e, h1, ?_⟩
    have : (Slicing.new g.st).round g.src f B = { Slicing.new g.st with fate := some (some e) } := by simp only [Slicing.round, Slicing.new, h2]
    unfold Host.slicing
    rw [if_neg (by simp [Slicing.new]), this, slicing_ended rfl]
  by_cases hn : n = 0
  · right
    have : (Slicing.new g.st).round g.src f B = { Slicing.new g.st with st := s', fate := some none } := by
      simp only [Slicing.round, Slicing.new, h1, hn, decide_true, Bool.and_self, if_true, List.append_nil]
    unfold Host.slicing
    rw [if_neg (by simp [Slicing.new]), this, slicing_ended rfl, h0 hn]
    obtain ⟨t, h5, h6⟩ := hst hn trivial
    exact ⟨rfl, rfl, t, h5, by simpa using h6⟩
  obtain ⟨k', k, s'', g1, _, _, g4, g5⟩ := h4 n (Or.inl (Nat.le_refl _))
  obtain ⟨_, g5⟩ := g5 (Nat.le_refl _)
  have hseg := Format.segments_line f 0 (content ++ m) segs fun x hx => by
    have := hin x hx
    simp only [Seg.tail] at this
    simp only [List.length_append]
    omega
  have habs : (segs.map fun x => (0 + x.pos, x.bytes (content ++ m))) = slicesOf content segs := by
    unfold slicesOf
    apply List.map_congr_left
    intro x hx
    have h2 := Seg.bytes_take x content m content.length (Nat.le_refl _) (hin x hx)
    rw [List.take_length] at h2
    rw [h2, Nat.zero_add]
  rw [habs] at hseg
  obtain ⟨buf, wr, hr, hbw⟩ : ∃ buf wr, (Slicing.new g.st).round g.src f B = { st := s'', offset := k', buf := buf, written := wr, fate := none } ∧
      wr ++ buf = (slicesOf content segs).flatMap f.line := by
    simp only [Slicing.round, Slicing.new, h1, hn, decide_false, Bool.and_false, Bool.false_eq_true, if_false, h2, h3, hseg, g1, Nat.zero_add, List.nil_append]
    split
    · exact ⟨_, _, rfl, by simp⟩
    · exact ⟨_, _, rfl, by simp⟩
  unfold Host.slicing
  rw [if_neg (by simp [Slicing.new]), hr]
  unfold Host.slicing
  rw [if_neg (by simp)]
  rcases (g5 hd).1 with ⟨e, h5, h6⟩ | ⟨m', s3, h5, _, h7⟩
  · left
    refine ⟨e, h5, ?_⟩
    simp only [Slicing.round, h6]
    rw [slicing_ended rfl]
  · right
    simp only [Slicing.round, h5, decide_true, Bool.and_self, if_true]
    rw [slicing_ended rfl]
    obtain ⟨t, h8, h9⟩ := h7 trivial
    exact ⟨rfl, hbw, t, h8, by simpa using h9⟩

/-! ## Slicers on streams of any length -/

/-- Tracked slices that can be printed and merged. -/
def Trackable (g : DynSeg) (F : Err → Prop) (w : Nat) (content : Bytes) (segs : List Seg) : Prop :=
  (∃ K : SegKind, SegTracked g.src K F (fun s rem => Kept True (g.cache s) content rem) g.st w content segs ∧ K.exact = true ∧ K.full = true ∧ K.snap = true ∧ K.honest = true ∧ K.steady = true ∧
    K.early = true ∧ K.strict = false ∧ ∀ lent k, (∃ x ∈ lent, x.pos = k) → K.policy lent k) ∧ Sorted segs

theorem slicer_trackable (h : Host) {scheds : List (Nat → Option Nat)} (p : Pipeline InoutFormat) (j : Job) {content : Bytes} {raw : List Seg} (hf : j.Fits ((h.block - 1784) / 8)) {node : Node}
    (hns : ∀ rs, j.slicer ≠ .slice rs) (hnf : ∀ q, j.slicer ≠ .find q) (hn : j.slicer.Node h scheds node) (hs : j.slicer.Cuts content raw) {d : DynByte} {F w}
    (hd : Feeds d F h.block w content True) : ∃ g, h.slicer p node d = .ok g ∧ ∃ w' ≤ w, Trackable g F w' content raw := by
  obtain ⟨⟨w', hw', R, E, hR, hA, hs0, hE, hG⟩, _⟩ := hd
  replace hf := hf.2
  cases hsl : j.slicer with
  | walk => rw [hsl] at hf; exact hf.elim
  | guide => rw [hsl] at hf; exact hf.elim
  | slice rs => exact absurd hsl (hns rs)
  | width n r =>
    rw [hsl] at hf hn hs
    cases node <;> simp only [Slicer.Node] at hn
    obtain ⟨m, fuel, k1, k2, k3⟩ := hn
    simp only at hf
    rename_i ps
    obtain ⟨hp, f1, f2, f3, f4, _⟩ := hf
    obtain ⟨h1, h2, h3, h4, h5, h6, h7, h8, h9, h10, h11⟩ := ConstSlicerParams.fromRaw_comb hp k2 content.length _ _ k3
    have hhead := h10 f1
    have ok : ConstSlicer.ParamsOk ps := ⟨by omega, by omega, h4, h7 f1, h5, h6, h8 f2⟩
    have hesc : ConstSlicer.escape ps ≤ r.2.at n := by
      unfold ConstSlicer.escape
      split <;> omega
    have hL' : ConstSlicer.Manner.polite.need ps.pitch ps.span (ConstSlicer.escape ps) ≤ (h.block - 1784) / 8 := by
      simp only [ConstSlicer.Manner.need]
      omega
    obtain ⟨st, hst, hrel⟩ := ConstSlicer.new_spec (Src := d.src) .polite ps ok d.st w' content hs0 hE hL'
    rw [h11] at hrel
    simp only [Host.slicer, attempt, hst]
    simp only [Slicer.Cuts] at hs
    subst hs
    refine ⟨_, rfl, w', hw', ⟨ConstSlicer.kind .polite ps.pitch ps.span, ⟨_, ConstSlicer.faithful hR hA (fun _ h => h) .polite ps.pitch ps.span (ps.tail + ps.span).toNat (ConstSlicer.escape ps) hL',
      fun s ph w rem segs hr => ?_, hrel⟩, by simp [ConstSlicer.kind]; omega, rfl, rfl, rfl, rfl, rfl, rfl, fun _ _ h => h⟩, strides_sorted _ _ _ _⟩
    obtain ⟨ph', h⟩ := hr.src
    exact hG _ _ _ _ h
  | find q => exact absurd hsl (hnf q)

theorem Pressed.trackable {g : DynSeg} {F D w content segs} (h : Pressed g F True D w content segs) : Trackable g F w content segs := by
  obtain ⟨⟨K, R, hK, hR, hk, ht, hG, h0⟩, hso, hin⟩ := h
  exact ⟨⟨K, ⟨R, hR, hG, h0⟩, hK.exact, hK.full, hK.snap, hK.honest, hK.steady, hK.early, hK.lax, fun _ _ _ => hK.free _ _⟩, hso⟩

theorem Trackable.threads {g : DynSeg} {F w content segs} (h : Trackable g F w content segs) (hlen : content.length < 2 ^ 64) (B : Nat) : Threads g F B w content (slicesOf content segs) := by
  obtain ⟨⟨K, h1, h2, h3, _⟩, _⟩ := h
  exact h1.threads h2 h3 hlen B

theorem Trackable.merged {g : DynSeg} {F w content segs} (h : Trackable g F w content segs) (hlen : content.length < usizeMax) (B n : Nat) :
    Threads { src := MergeStream.segSrc g.src, st := MergeStream.new g.st n, cache := fun t => g.cache t.src } F B w content (slicesOf content (merge n segs)) := by
  obtain ⟨⟨K, ⟨R, hR, hG, h0⟩, k1, k2, k3, k4, k5, k6, hz, k7⟩, hso⟩ := h
  have hlen' : content.length ≤ usizeMax := by omega
  refine SegTracked.threads (K := MergeStream.kind K) (by simp [MergeStream.kind, k1, k3]) k2 (by unfold usizeMax at hlen; omega) ⟨_, MergeStream.faithful hR k4 k5 k6 k7 n, ?_,
    segs, .idle 0, h0, hso, hlen', ?_, ⟨rfl, fun _ => ⟨hlen', hlen'⟩, by simp [MergeStream.new, Accumulator.new]⟩, by simp [MergeStream.new], by simp [MergeStream.new], merge_apart n segs hso, rfl, by simp⟩ B
  · rintro s ph w rem out ⟨segs, sph, hR', _⟩
    exact hG _ _ _ _ _ hR'
  · simp [MergeStream.new, Accumulator.rest, Accumulator.new]

/-- The second half of the pipeline behind the tee: slicing. -/
theorem slicing_threads (h : Host) {scheds : List (Nat → Option Nat)} (p : Pipeline InoutFormat) (srcs : List Reader) (j : Job) {content : Bytes} {segs : List Seg}
    (hf : j.Fits ((h.block - 1784) / 8)) (hns : ∀ rs, j.slicer ≠ .slice rs) (hl : j.lines = none) {node : Node} (hn : j.slicer.Node h scheds node)
    {regex invert extend : Option String} (hrn : RegexNode h j.regex regex) (hin : MappersNode j.invert invert) (hen : MappersNode j.extend extend)
    (hs : j.Slices content segs) (hlen : content.length < usizeMax) {d : DynByte} {F w} (hd : Feeds d F h.block w content True) :
    ∃ g, (∀ x rest, (h.stages p srcs).loop (node :: (optNode .regex regex ++ optNode .bridge invert ++ optNode .extend extend ++ optNode .merge j.merge ++ rest)) (x, .byte d) =
        (h.stages p srcs).loop rest (x, .segment g)) ∧
      ∃ w' ≤ w, Threads g F h.block w' content (slicesOf content segs) := by
  obtain ⟨raw, ext, hraw, hext, hsegs⟩ := hs
  have hsl : ∃ g, (∀ x rest, (h.stages p srcs).loop (node :: (optNode .regex regex ++ optNode .bridge invert ++ optNode .extend extend ++ rest)) (x, .byte d) =
      (h.stages p srcs).loop rest (x, .segment g)) ∧ ∃ w' ≤ w, Trackable g F w' content ext := by
    by_cases hq : ∃ q, j.slicer = .find q
    · obtain ⟨q, hq⟩ := hq
      obtain ⟨g, h1, ⟨w', hw', D, hp⟩, _⟩ := find_sliced h p srcs j hf hq hn hrn hin hen hraw hext hlen hd
      exact ⟨g, h1, w', hw', hp.trackable⟩
    · have hnone : j.invert = none ∧ j.extend = none := by
        rcases hf.1.2 with h | ⟨q, _, h, _⟩ | ⟨q, _, h, _⟩
        · exact h
        · exact absurd ⟨q, h⟩ hq
        · exact absurd ⟨q, h⟩ hq
      obtain rfl : ext = raw := by
        rcases hf.cases hraw hext with ⟨_, _, h⟩ | ⟨q, h, _⟩
        · exact h
        · exact absurd ⟨q, h⟩ hq
      rw [hf.1.1] at hrn
      rw [hnone.1] at hin
      rw [hnone.2] at hen
      cases regex with
      | some => exact hrn.elim
      | none =>
      cases invert with
      | some => exact hin.elim
      | none =>
      cases extend with
      | some => exact hen.elim
      | none =>
      obtain ⟨g, hg, w', hw', ht⟩ := slicer_trackable h p j hf hns (fun q h => hq ⟨q, h⟩) hn hraw hd
      refine ⟨g, fun x rest => ?_, w', hw', ht⟩
      have hcls : (h.stages p srcs).step node (x, .byte d) = .ok (x, .segment g) := by
        cases hsl : j.slicer <;> rw [hsl] at hn <;> cases node <;> simp only [Slicer.Node] at hn <;> simp only [Stages.step, Host.stages, hg]
      simp only [Stages.loop, hcls, optNode, List.nil_append]
  obtain ⟨g, h1, w', hw', ht⟩ := hsl
  unfold Job.picked Job.merged at hsegs
  rw [hl] at hsegs
  cases hm : j.merge with
  | none =>
    rw [hm] at hsegs
    simp only at hsegs
    subst hsegs
    exact ⟨g, fun x rest => by rw [← h1]; simp only [optNode, List.append_nil], w', hw', ht.threads (by unfold usizeMax at hlen; omega) _⟩
  | some n =>
    rw [hm] at hsegs
    simp only at hsegs
    subst hsegs
    refine ⟨_, fun x rest => ?_, w', hw', ht.merged hlen _ n⟩
    rw [List.append_assoc, h1]
    rfl

end Nd
