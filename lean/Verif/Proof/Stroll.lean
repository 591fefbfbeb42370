import Verif.Proof.Follow
/-!
# `--walk` on files of any length
-/
namespace Nd
open Spec Props

/-- A byte stream in front of `--walk` that lends `H` more bytes with every call; `tee` tells that there is a tee. -/
def Swells (d : DynByte) (F : Err → Prop) (H w : Nat) (c : Bytes) (tee : Prop) : Prop :=
  ∃ w' ≤ w, ∃ R L E, Serves d.src F AnyMargin R ∧ Ample d.src R L E ∧ Grows d.src R H ∧ R d.st (.idle 1) w' c ∧ ∀ s ph w rem, R s ph w rem → Kept tee (d.cache s) c rem

theorem ServesGrowing.swells {d : DynByte} {F H w w' c} (h : ServesGrowing d.src F AnyMargin H d.st w' c) (hw : w' ≤ w) : Swells d F H w c False := by
  obtain ⟨R, L, E, h1, h2, h3, h4⟩ := h
  exact ⟨w', hw, R, L, E, h1, h2, h3, h4, fun _ _ _ _ _ h => h.elim⟩

theorem TeeStream.grows {S : ByteSrc σ} {R H} (h : Grows S R H) (content : Bytes) : Grows (byteSrc S) (Rel S R content) H where
  more := by
    rintro t n w rem req n' t' ⟨hR, _⟩ heq
    simp only [byteSrc] at heq
    split at heq
    · cases heq
    · rename_i r src h1
      simp only [Except.ok.injEq, Prod.mk.injEq] at heq
      obtain ⟨rfl, rfl⟩ := heq
      exact h.more _ _ _ _ _ _ _ hR h1
  next := by
    rintro t n w rem k t1 req n' t2 ⟨hR, _⟩ hk h1 h2
    simp only [byteSrc] at h1 h2
    split at h1
    · cases h1
    · split at h1
      · cases h1
      · rename_i src hs
        cases h1
        split at h2
        · cases h2
        · rename_i r src' h3
          simp only [Except.ok.injEq, Prod.mk.injEq] at h2
          obtain ⟨rfl, rfl⟩ := h2
          exact h.next _ _ _ _ _ _ _ _ _ hR hk hs h3

theorem Swells.tee {d : DynByte} {F H w c} (h : Swells d F H w c False) : Swells d.tee F H w c True := by
  obtain ⟨w', hw', R, L, E, h1, h2, h3, h4, _⟩ := h
  exact ⟨w', hw', TeeStream.Rel d.src R c, L, fun t => E t.src, TeeStream.serves h1 c, TeeStream.ample h2 c, TeeStream.grows h3 c, ⟨h4, rfl, rfl, trivial⟩, fun s ph w rem hR _ => ⟨_, rfl, hR.2.1⟩⟩

theorem Swells.le {d : DynByte} {F H w w' c tee} (h : Swells d F H w c tee) (hw : w ≤ w') : Swells d F H w' c tee := by
  obtain ⟨w1, h1, h⟩ := h
  exact ⟨w1, by omega, h⟩

/-- The first node over a single file of bytes. -/
theorem input_swells (h : Host) (p : Pipeline InoutFormat) (j : Joint) (file : InFile) (scheds : List (Nat → Option Nat)) (hB : 0 < h.block) (hsub : file.2 ∈ scheds)
    (hfmt : p.inFormat.Reads .binary) (hj : j = .cat 1 ∨ j = .alone) (hw : p.wordSize = j.word) {H : Nat} (hs : ∀ i k, file.2 i = some k → H ≤ min (max 1 k) h.block)
    (fuel : Nat) (hf : CatStream.fills [(file.1.length, file.1)] < fuel) {d : DynByte}
    (hd : (h.withFuel fuel).input p [Reader.open file.1 file.2] j.node = .ok d) : Swells d (Failing scheds) H (CatStream.fills [(file.1.length, file.1)]) file.1 False := by
  obtain ⟨content, sched⟩ := file
  have hle : content.length ≤ CatStream.fills [(content.length, content)] := by simp [CatStream.fills]; omega
  have h1 : p.wordSize = 1 := by rcases hj with rfl | rfl <;> exact hw
  have hr := raw_delivers h.block fuel 1 (UInt8.ofNat p.filler) content sched hB (by decide) (by simp only at hf; omega)
  rw [alignTo_one] at hr
  have hg := (RawStream.growing hB hr hs).mono (F' := Failing scheds) (fun e he => Failing.io hsub he)
  unfold Host.input at hd
  simp only at hd
  rw [if_pos (show p.inFormat.isBinary = true from hfmt)] at hd
  simp only [List.map_cons, List.map_nil, h1] at hd
  rcases hj with rfl | rfl
  · simp only [Joint.node, Host.join] at hd
    cases hd
    exact (CatStream.single_growing hg (fun _ => NlMargin.any) hB hf).swells (Nat.le_refl _)
  · simp only [Joint.node, Host.join] at hd
    cases hd
    refine ServesGrowing.swells (w' := content.length) ?_ hle
    obtain ⟨R, L, E, g1, g2, g3, g4⟩ := hg
    refine ⟨R, L, E, ⟨fun s ph w rem req hR => ?_, g1.consume⟩, g2, g3, g4⟩
    rcases g1.fill s ph w rem req hR with he | ⟨eof, n, w', s', heq, hR', hn, hm, h1⟩
    · exact Or.inl he
    · exact Or.inr ⟨eof, n, w', s', heq, hR', hn, fun h => (hm h).imp fun m h => ⟨NlMargin.any h.1, h.2⟩, h1⟩

theorem WalkSlicer.Rel.src {Src : ByteSrc σ} {R} {H N : Nat} {rpns : List (List Tok)} {st : WalkSlicer σ} {ph w rem segs} (h : WalkSlicer.Rel Src R H N rpns st ph w rem segs) :
    ∃ ph', R st.src ph' w rem := by
  cases ph with
  | idle lb => obtain ⟨_, _, _, ⟨_, h⟩, _⟩ := h; exact ⟨_, h⟩
  | lent eof count cap => obtain ⟨_, _, _, _, _, _, h, _⟩ := h; exact ⟨_, h⟩
  | done => obtain ⟨_, _, ⟨_, h⟩, _⟩ := h; exact ⟨_, h⟩

theorem SegFaithful.weaken {S : SegSrc σ} {K F F' R} (h : SegFaithful S K F R) (hF : ∀ e, F e → F' e) : SegFaithful S K F' R :=
  { h with
    fill := fun s lb w rem segs hR => (h.fill s lb w rem segs hR).imp (fun ⟨e, he, h⟩ => ⟨e, hF e he, h⟩) id
    rest := fun s w rem segs hR => (h.rest s w rem segs hR).imp (fun ⟨e, he, h⟩ => ⟨e, hF e he, h⟩) id }

/-- The second half of the pipeline. -/
theorem walk_tracked (h : Host) (p : Pipeline InoutFormat) (srcs : List Reader) (j : Job) (scheds : List (Nat → Option Nat)) {content : Bytes} {segs : List Seg} {es : List Expr} {H : Nat}
    (hsl : j.slicer = .walk es) (hst : j.regex = none ∧ j.invert = none ∧ j.extend = none ∧ j.merge = none ∧ j.lines = none) (hne : es ≠ []) (hH : ∀ e ∈ es, Walkable H e)
    {node : Node} (hn : j.slicer.Node h scheds node) {regex invert extend text : Option String} (hrn : RegexNode h j.regex regex)
    (hin : MappersNode j.invert invert) (hen : MappersNode j.extend extend) (hln : RangesNode j.lines text) (hs : j.Slices content segs) (fuel : Nat) (hf : content.length < fuel)
    {d : DynByte} {w : Nat} {tee : Prop} (hd : Swells d (Failing scheds) H w content tee) :
      ∃ g, (∀ y rest, ((h.withFuel fuel).stages p srcs).loop (node :: (optNode .regex regex ++ optNode .bridge invert ++ optNode .extend extend ++ optNode .merge j.merge ++ optNode .lines text ++ rest))
          (y, .byte d) = ((h.withFuel fuel).stages p srcs).loop rest (y, .segment g)) ∧
        ∃ w' ≤ w, ∃ K : SegKind, K.exact = true ∧ K.full = true ∧
          SegTracked g.src K (Failing scheds) (fun s rem => Kept tee (g.cache s) content rem) g.st w' content segs := by
  obtain ⟨f1, f2, f3, f4, f5⟩ := hst
  obtain ⟨raw, ext, k1, k2, k3⟩ := hs
  unfold Job.Extended Job.inverted Job.searched at k2
  unfold Job.picked Job.merged at k3
  rw [f1, f2, f3] at k2
  rw [f4, f5] at k3
  rw [f1] at hrn
  rw [f2] at hin
  rw [f3] at hen
  rw [f5] at hln
  rw [hsl] at k1 hn
  simp only [Slicer.Cuts] at k1 k2 k3
  subst k2 k3
  cases regex with
  | some => exact hrn.elim
  | none =>
  cases invert with
  | some => exact hin.elim
  | none =>
  cases extend with
  | some => exact hen.elim
  | none =>
  cases text with
  | some => exact hln.elim
  | none =>
  cases node <;> simp only [Slicer.Node] at hn
  rename_i text
  obtain ⟨hl, st0, hst0⟩ := hn
  obtain ⟨st, hst⟩ : ∃ st, WalkSlicer.new d.st text.toList = .ok st := by
    unfold WalkSlicer.new at hst0 ⊢
    cases hm : (WalkSlicer.splitComma (WalkSlicer.stripComma text.toList)).mapM (Eval.rpnNew WalkSlicer.vars) with
    | error e => rw [hm] at hst0; cases hst0
    | ok f => exact ⟨_, rfl⟩
  obtain ⟨hfne, hfe⟩ := walk_new hst
  have hW := walks_mono (fun s ls h => C27_lengths_partial hne hH hl hst h) k1
  obtain ⟨w', hw', R, L, E, hR, hA, hG, hs0, hK⟩ := hd
  have hgs : ∃ g, (h.withFuel fuel).slicer p (.walk text) d = .ok g ∧ ∃ K : SegKind, K.exact = true ∧ K.full = true ∧
      SegTracked g.src K (Failing scheds) (fun s rem => Kept tee (g.cache s) content rem) g.st w' content segs := by
    simp only [Host.slicer, attempt, hst]
    refine ⟨_, rfl, WalkSlicer.kind, rfl, rfl, _, (WalkSlicer.faithful hR hA hG (fun _ h => h) hfne h.block content.length fuel hf).weaken (fun e he => ?_), fun s ph w rem segs hr => ?_, ?_⟩
    · rcases he with he | ⟨rfl, e', he⟩
      · exact he
      · exact he.panic
    · obtain ⟨_, hr⟩ := hr.src
      exact hK _ _ _ _ hr
    · simp only
      rw [hfe]
      refine ⟨Nat.le_refl _, Nat.zero_le _, ⟨rfl, Nat.zero_le _, ⟨List.Pairwise.nil, by simp⟩, _, rfl, hW⟩, ⟨1, hs0⟩, ?_⟩
      intro req n s' hfl
      rcases hR.fill _ _ _ _ req hs0 with ⟨e, _, h'⟩ | ⟨_, _, _, _, h', _, _, _, _, hne', _⟩
      · rw [hfl] at h'; cases h'
      · rw [hfl] at h'; cases h'
        have := (hne' rfl).1
        simp only
        omega
  obtain ⟨g, hg, hk⟩ := hgs
  refine ⟨g, fun y rest => ?_, w', hw', hk⟩
  rw [f4]
  simp only [optNode, List.nil_append, Stages.loop, Stages.step]
  rw [show ((h.withFuel fuel).stages p srcs).slicer (.walk text) d = (h.withFuel fuel).slicer p (.walk text) d from rfl, hg]

end Nd
