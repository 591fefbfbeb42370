import Verif.Proof.Exact
import Verif.Proof.FilterStream
import Verif.Proof.FindAny
import Verif.Proof.Guided
import Verif.Proof.Map
import Verif.Proof.Merge
import Verif.Proof.Range
import Verif.Proof.Regex
import Verif.Proof.Scatter
import Verif.Proof.Stride
import Verif.Proof.Walk
import Verif.Proof.WholeGrow
/-!
# Slicing a stream that is read at once
-/
namespace Nd
open Spec

/-- A byte stream of which `n` bytes are left can be filled again, after which `P` holds, or fails. -/
def Left (S : ByteSrc σ) (F : Err → Prop) (P : σ → Prop) (s : σ) (n : Nat) : Prop :=
  ∀ req, (∃ e, F e ∧ S.fill s req = .error e) ∨ ∃ eof m s', S.fill s req = .ok ((eof, m), s') ∧ m ≤ n ∧ (n = 0 → eof = true) ∧ P s'

/-- A fresh byte stream lends its whole content `c` at once, or fails.  `P` holds of what is left and the state after a fill. -/
def Lends (S : ByteSrc σ) (F : Err → Prop) (P : Bytes → σ → Prop) (s : σ) (c : Bytes) : Prop :=
  ∀ req, (∃ e, F e ∧ S.fill s req = .error e) ∨
    ∃ s', S.fill s req = .ok ((true, c.length), s') ∧ (∃ m, S.slice s' = c ++ m) ∧ P c s' ∧ ∀ k ≤ c.length, ∃ s'', S.consume s' k = .ok s'' ∧ Left S F (P (c.drop k)) s'' (c.length - k)

theorem Whole.lends {S : ByteSrc σ} {F M R} {s : σ} {w : Nat} {c : Bytes} (hw : Whole S F s) (hR : Serves S F M R) (hs : R s (.idle 1) w c) {P : Bytes → σ → Prop}
    (hP : ∀ s ph w rem, R s ph w rem → P rem s) : Lends S F P s c := by
  intro req
  rcases hR.fill _ _ _ _ req hs with h | ⟨eof, n, w', s', heq, hR', hn, hm, he, _⟩
  · exact Or.inl h
  rcases hw req with ⟨e, _, h'⟩ | ⟨n', s2, h'⟩
  · rw [heq] at h'; cases h'
  rw [heq] at h'
  cases h'
  have hn' := he rfl
  subst hn'
  refine Or.inr ⟨s', heq, ?_, hP _ _ _ _ hR', fun k hk => ?_⟩
  · by_cases h0 : 0 < c.length
    · obtain ⟨m, _, h2⟩ := hm h0
      rw [List.take_length] at h2
      exact ⟨m, h2⟩
    · have : c = [] := List.length_eq_zero_iff.1 (by omega)
      exact ⟨S.slice s', by rw [this]; rfl⟩
  · obtain ⟨s'', w'', h1, h2, _⟩ := hR.consume _ _ _ _ k hR' hk
    refine ⟨s'', h1, fun req => ?_⟩
    rcases hR.fill _ _ _ _ req h2 with h | ⟨eof, m, _, s3, h3, h5, h4, _, _, h6, _⟩
    · exact Or.inl h
    · refine Or.inr ⟨eof, m, s3, h3, by simpa using h4, fun h0 => ?_, hP _ _ _ _ h5⟩
      cases eof with
      | true => rfl
      | false =>
        have := (h6 rfl).1
        simp only [List.length_drop] at h4
        omega

/-- Nothing more appears, apart from `r` slices that are still there, and `P` holds then. -/
def Dry (S : SegSrc σ) (F : Err → Prop) (P : σ → Prop) (s : σ) (r : Nat) : Prop :=
  (∃ e, F e ∧ S.fill s = .error e) ∨ ∃ m s', S.fill s = .ok ((true, 0, r, m), s') ∧ (S.slices s').2.length = r ∧ P s'

/-- What can be done with a stream of slices after its only fill: `segs` are lent, of which all can be consumed; if `tidy` also a part of them.
If `dry` nothing more appears after all have been consumed.  `P` holds at the end. -/
structure Taken (S : SegSrc σ) (F : Err → Prop) (P : σ → Prop) (s : σ) (content : Bytes) (n : Nat) (segs : List Seg) (tidy dry : Prop) : Prop where
  bytes : ∃ m, (S.slices s).1 = content ++ m
  lent : (S.slices s).2 = segs
  still : n = 0 → P s
  consume : ∀ k, n ≤ k ∨ tidy → ∃ k' c s', S.consume s k = .ok ((k', c), s') ∧ k' ≤ k ∧ k' ≤ n ∧ c ≤ segs.length ∧
    (n ≤ k → k' = n ∧ (dry → Dry S F P s' (segs.length - c) ∧ ((∀ x ∈ segs, x.pos < n) → c = segs.length)))

/-- The first fill lends all slices `segs` of `content`, or fails. -/
def Shot (S : SegSrc σ) (F : Err → Prop) (P : σ → Prop) (s : σ) (content : Bytes) (n : Nat) (segs : List Seg) (tidy dry : Prop) : Prop :=
  (∃ e, F e ∧ S.fill s = .error e) ∨ ∃ s', S.fill s = .ok ((true, n, segs.length, n), s') ∧ Taken S F P s' content n segs tidy dry

theorem Dry.weaken {S : SegSrc σ} {F F' : Err → Prop} {P : σ → Prop} {s : σ} {r} (h : Dry S F P s r) (hF : ∀ e, F e → F' e) : Dry S F' P s r := by
  rcases h with ⟨e, h1, h2⟩ | h
  · exact Or.inl ⟨e, hF e h1, h2⟩
  · exact Or.inr h

theorem Shot.weaken {S : SegSrc σ} {F F' : Err → Prop} {P : σ → Prop} {s : σ} {content n segs tidy dry} {tidy' : Prop} (h : Shot S F P s content n segs tidy dry) (hF : ∀ e, F e → F' e)
    (ht : tidy' → tidy) : Shot S F' P s content n segs tidy' dry := by
  rcases h with ⟨e, h1, h2⟩ | ⟨s', h1, h2, h3, hst, h4⟩
  · exact Or.inl ⟨e, hF e h1, h2⟩
  · refine Or.inr ⟨s', h1, h2, h3, hst, fun k hk => ?_⟩
    obtain ⟨k', c, s'', g1, g2, g3, g4, g5⟩ := h4 k (hk.imp id ht)
    exact ⟨k', c, s'', g1, g2, g3, g4, fun h => ⟨(g5 h).1, fun hd => ⟨((g5 h).2 hd).1.weaken hF, ((g5 h).2 hd).2⟩⟩⟩

theorem Shot.dryer {S : SegSrc σ} {F : Err → Prop} {P : σ → Prop} {s : σ} {content n segs tidy dry} {dry' : Prop} (h : Shot S F P s content n segs tidy dry) (hd : dry' → dry) :
    Shot S F P s content n segs tidy dry' := by
  rcases h with h | ⟨s', h1, h2, h3, hst, h4⟩
  · exact Or.inl h
  · refine Or.inr ⟨s', h1, h2, h3, hst, fun k hk => ?_⟩
    obtain ⟨k', c, s'', g1, g2, g3, g4, g5⟩ := h4 k hk
    exact ⟨k', c, s'', g1, g2, g3, g4, fun h => ⟨(g5 h).1, fun hd' => (g5 h).2 (hd hd')⟩⟩

theorem unwindAll_length {k : Nat} : ∀ {segs rest : List Seg}, unwindAll k segs = .ok rest → rest.length = segs.length
  | [], _, h => by cases h; rfl
  | x :: xs, rest, h => by
    unfold unwindAll at h
    split at h
    · cases h
    · split at h
      · cases h
      · rename_i r hr
        cases h
        simp [unwindAll_length hr]

theorem cutSegs_rest {segs : List Seg} {k c : Nat} {rest : List Seg} (h : cutSegs k segs = .ok (c, rest)) :
    rest.length = segs.length - c ∧ ((∀ x ∈ segs, x.pos < k) → c = segs.length) := by
  unfold cutSegs at h
  simp only at h
  split at h
  · cases h
  · rename_i r hr
    cases h
    refine ⟨by rw [unwindAll_length hr, List.length_drop], fun hall => ?_⟩
    rw [takeWhile_all (by intro x hx; have := hall x hx; simpa using this)]

/-- Slices that can be cut at `n`, and anywhere if `tidy`. -/
theorem cutSegs_ok {segs : List Seg} {k n : Nat} (h : Sorted segs ∨ (n ≤ k ∧ ∀ x ∈ segs, x.pos < n)) : ∃ c rest, cutSegs k segs = .ok (c, rest) ∧ c ≤ segs.length := by
  rcases h with h | ⟨hk, h⟩
  · obtain ⟨c, h1, h2, _⟩ := cutSegs_spec k segs h
    exact ⟨c, _, h1, h2⟩
  · refine ⟨segs.length, [], ?_, Nat.le_refl _⟩
    unfold cutSegs
    rw [takeWhile_all (by intro x hx; have := h x hx; simp only [decide_eq_true_eq]; omega)]
    simp [unwindAll]

/-! ## Manipulators -/

theorem RegexSlicer.shot {find : Bytes → List Seg} {S : SegSrc σ} {F} {P : σ → Prop} {s : σ} {content : Bytes} {n : Nat} {segs : List Seg} {tidy dry : Prop} (h : Shot S F P s content n segs tidy dry)
    (hin : ∀ x ∈ segs, x.tail ≤ content.length) (hcut : Sorted (searched find content segs) ∨ ∀ x ∈ searched find content segs, x.pos < n) :
    Shot (segSrc find S) F (fun t => P t.src) (new s) content n (searched find content segs) (tidy ∧ Sorted (searched find content segs)) (dry ∧ ∀ x ∈ segs, x.pos < n) := by
  rcases h with ⟨e, h1, h2⟩ | ⟨s', h1, ⟨m, h2⟩, h3, hst, h4⟩
  · exact Or.inl ⟨e, h1, by simp only [segSrc, fill, new, h2]⟩
  right
  refine ⟨{ src := s', matches_ := searched find content segs, scanned := n }, ?_, ⟨m, h2⟩, rfl, hst, fun k hk => ?_⟩
  · simp only [segSrc, fill, new, h1, h3, Nat.lt_irrefl, if_false, h2, List.take_length, scan_all find content m segs hin, List.nil_append, Nat.zero_add]
  · obtain ⟨k', c, s'', g1, g2, g3, g4, g5⟩ := h4 k (hk.imp id And.left)
    have again : ∀ ms sc, n ≤ k → (dry ∧ ∀ x ∈ segs, x.pos < n) → Dry (segSrc find S) F (fun t => P t.src) { src := s'', matches_ := ms, scanned := sc } ms.length := by
      intro ms sc hnk ⟨d1, d2⟩
      obtain ⟨d3, d4⟩ := (g5 hnk).2 d1
      rw [d4 d2, Nat.sub_self] at d3
      rcases d3 with ⟨e, d5, d6⟩ | ⟨m', s3, d5, d6, d7⟩
      · exact Or.inl ⟨e, d5, by simp only [segSrc, fill, d6]⟩
      · refine Or.inr ⟨m', { src := s3, matches_ := ms, scanned := sc }, ?_, rfl, d7⟩
        simp only [segSrc, fill, d5, d6, Nat.lt_irrefl, if_false, List.take_zero, scan, List.append_nil, Nat.add_zero]
    simp only [segSrc, g1]
    by_cases h0 : k' = 0
    · subst h0
      rw [if_pos rfl]
      refine ⟨0, 0, _, rfl, by omega, by omega, Nat.zero_le _, fun hnk => ⟨(g5 hnk).1, fun hd => ?_⟩⟩
      have hs0 : searched find content segs = [] := by
        have : segs = [] := by
          cases segs with
          | nil => rfl
          | cons x xs =>
            have h1 := hd.2 x (by simp)
            have h2 := (g5 hnk).1
            omega
        rw [this]
        rfl
      have := again (searched find content segs) n hnk hd
      rw [hs0] at this ⊢
      exact ⟨this, fun _ => rfl⟩
    · rw [if_neg h0]
      obtain ⟨d, rest, q1, q2⟩ := cutSegs_ok (k := k') (n := n) (segs := searched find content segs) (by
        rcases hcut with hc | hc
        · exact Or.inl hc
        · rcases hk with hk | hk
          · exact Or.inr ⟨by have := g5 hk; omega, hc⟩
          · exact Or.inl hk.2)
      rw [q1, ckSub, if_pos g3]
      obtain ⟨q3, q4⟩ := cutSegs_rest q1
      refine ⟨k', d, _, rfl, g2, g3, q2, fun hnk => ⟨(g5 hnk).1, fun hd => ⟨?_, fun hall => q4 fun x hx => by rw [(g5 hnk).1]; exact hall x hx⟩⟩⟩
      rw [← q3]
      exact again _ _ hnk hd

theorem MapStream.shot {S : SegSrc σ} {F} {P : σ → Prop} {s : σ} {content : Bytes} {n : Nat} {segs out : List Seg} {tidy dry : Prop} (h : Shot S F P s content n segs tidy dry)
    {ops : MapOps α} {a a' : α} (hg : ops.grow a true n segs = (out, a')) (hcut : Sorted out ∨ ∀ x ∈ out, x.pos < n) (hstill : ∀ a, (ops.grow a true 0 []).1 = []) :
    Shot (segSrc S ops) F (fun t => P t.src) (new s a) content n out (tidy ∧ Sorted out) dry := by
  rcases h with ⟨e, h1, h2⟩ | ⟨s', h1, h2, h3, hst, h4⟩
  · exact Or.inl ⟨e, h1, by simp only [segSrc, new, h2]⟩
  right
  refine ⟨{ src := s', segments := out, aux := a', srcScanned := segs.length, maxConsume := n }, ?_, h2, rfl, hst, fun k hk => ?_⟩
  · simp only [segSrc, new, h1, h3]
    rw [if_neg (by omega)]
    simp only [List.take_length, List.drop_zero, hg, List.nil_append, if_true, Nat.min_self]
  · obtain ⟨k', c, s'', g1, g2, g3, g4, g5⟩ := h4 (min k n) (by
      rcases hk with hk | hk
      · exact Or.inl (by omega)
      · exact Or.inr hk.1)
    obtain ⟨d, rest, q1, q2⟩ := cutSegs_ok (k := k') (n := n) (segs := out) (by
      rcases hcut with hc | hc
      · exact Or.inl hc
      · rcases hk with hk | hk
        · exact Or.inr ⟨by have := g5 (by omega); omega, hc⟩
        · exact Or.inl hk.2)
    simp only [segSrc, g1, q1]
    rw [if_neg (by omega), if_neg (by omega)]
    obtain ⟨q3, q4⟩ := cutSegs_rest q1
    refine ⟨k', d, _, rfl, by omega, g3, q2, fun h => ?_⟩
    obtain ⟨r1, r2⟩ := g5 (by omega)
    refine ⟨r1, fun hd => ⟨?_, fun hall => q4 fun x hx => by rw [r1]; exact hall x hx⟩⟩
    rw [← q3]
    rcases (r2 hd).1 with ⟨e, d5, d6⟩ | ⟨m', s3, d5, d6, d7⟩
    · exact Or.inl ⟨e, d5, by simp only [d6]⟩
    · refine Or.inr ⟨min m' 0, { src := s3, segments := rest, aux := (ops.grow (ops.unwind a' k') true 0 []).2, srcScanned := segs.length - c, maxConsume := 0 }, ?_, rfl, d7⟩
      simp only [d5, d6]
      rw [if_neg (by omega)]
      rw [List.take_of_length_le (by omega), List.drop_eq_nil_of_le (by omega), hstill]
      simp only [List.append_nil, if_true]

theorem Bridge.shot {S : SegSrc σ} {F} {P : σ → Prop} {s : σ} {content : Bytes} {segs : List Seg} {tidy dry : Prop} (h : Shot S F P s content content.length segs tidy dry)
    (ms : List SegmentMapper) :
    Shot (MapStream.segSrc S (ops ms)) F (fun t => P t.src) (new s) content content.length (invert (ms.map SegmentMapper.toSpec) segs content.length)
      (tidy ∧ Sorted (invert (ms.map SegmentMapper.toSpec) segs content.length)) dry := by
  have hscan := scan_spec ms content.length content.length segs 0 fun _ _ _ _ => Or.inl rfl
  have hg : ∃ a', (ops ms).grow 0 true content.length segs = (invert (ms.map SegmentMapper.toSpec) segs content.length, a') := by
    simp only [ops, if_true, hscan, true_and, invert, gaps]
    by_cases hl : lastEnd 0 segs < (content.length : Int)
    · rw [if_pos hl, if_pos hl, mapAll_spec content.length content.length _ ms fun _ _ => Or.inl rfl]
      exact ⟨(content.length : Int), by simp⟩
    · rw [if_neg hl, if_neg hl, List.append_nil]
      exact ⟨_, rfl⟩
  obtain ⟨a', hg⟩ := hg
  refine MapStream.shot h hg (Or.inr fun x hx => ?_) fun a => ?_
  swap
  · simp only [ops, if_true, scan, true_and]
    split
    · simp only [List.nil_append, List.filterMap_eq_nil_iff, mapSegment]
      intro m _
      rw [if_neg (by omega)]
    · rfl
  obtain ⟨g, _, hx⟩ := List.mem_flatMap.1 hx
  obtain ⟨_, _, h1, h2, _⟩ := images_mem hx
  simp only [Seg.tail] at h2
  omega

theorem Extend.shot {S : SegSrc σ} {F} {P : σ → Prop} {s : σ} {content : Bytes} {segs out : List Seg} {tidy dry : Prop} (h : Shot S F P s content content.length segs tidy dry)
    (ms : List SegmentMapper) (hp : out.Perm (extend (ms.map SegmentMapper.toSpec) segs content.length)) (hs : out.Pairwise Seg.Le) :
    Shot (MapStream.segSrc S (ops ms)) F (fun t => P t.src) (new s) content content.length out tidy dry := by
  have he : (segs.flatMap fun x => ms.filterMap (mapSegment content.length ((x.pos : Int), (x.tail : Int)))) = extend (ms.map SegmentMapper.toSpec) segs content.length := by
    unfold extend
    congr 1
    funext x
    exact mapAll_spec content.length content.length _ ms fun _ _ => Or.inl rfl
  have hso : stableSort le (extend (ms.map SegmentMapper.toSpec) segs content.length) = out := by
    refine List.Perm.eq_of_pairwise (le := Seg.Le) ?_ ?_ hs ((stableSort_perm _ _).trans hp.symm)
    · intro a b _ _ h1 h2
      obtain ⟨p, l⟩ := a
      obtain ⟨q, m⟩ := b
      simp only [Seg.Le, Seg.tail] at h1 h2
      simp only [Seg.mk.injEq]
      omega
    · exact (stableSort_pairwise (fun a b c => by simp only [le_iff, Seg.Le]; omega) (fun a b => by simp only [Bool.or_eq_true, le_iff, Seg.Le]; omega) _).imp fun h => (le_iff _ _).1 h
  have hsort : Sorted out := hs.imp fun h => by unfold Seg.Le at h; omega
  exact (MapStream.shot (α := Unit) (a := ()) (a' := ()) h (by simp only [ops, if_true, he, hso]) (Or.inl hsort) (fun _ => rfl)).weaken (fun _ h => h) fun h => ⟨h, hsort⟩

theorem MergeStream.shot {S : SegSrc σ} {F} {P : σ → Prop} {s : σ} {content : Bytes} {n : Nat} {segs : List Seg} {tidy dry : Prop} (h : Shot S F P s content n segs tidy dry) (hso : Sorted segs)
    (hn : n ≤ usizeMax) (thresh : Nat) : Shot (segSrc S) F (fun t => P t.src) (new s thresh) content n (merge thresh segs) tidy dry := by
  rcases h with ⟨e, h1, h2⟩ | ⟨s', h1, h2, h3, hst, h4⟩
  · exact Or.inl ⟨e, h1, by simp only [segSrc, new, h2]⟩
  right
  obtain ⟨m', q1, q2, q3, q4, q5, q6, q7, q8⟩ := extend_spec { src := s', segments := [], acc := .new thresh, srcScanned := 0, maxConsume := 0 } segs segs true segs.length n thresh n
    (by simp) (Nat.le_refl _) (Nat.zero_le _) hso ⟨rfl, fun _ => ⟨hn, hn⟩, fun h => absurd h (by simp [Accumulator.new])⟩ (by simp) hn (Nat.le_refl _)
    (by simp) fun _ => rfl
  have hc : m'.acc.count = 0 := by
    rcases Nat.eq_zero_or_pos m'.acc.count with h0 | h0
    · exact h0
    · have := (q8 h0).1; cases this
  have hseg : m'.segments = merge thresh segs := by
    simpa [Accumulator.rest, Accumulator.new, hc, merge] using q4
  have hout : Sorted m'.segments := by rw [hseg]; exact (merge_apart thresh segs hso).sorted
  refine ⟨{ m' with maxConsume := n }, ?_, ?_, hseg, by simp only [q2]; exact hst, fun k hk => ?_⟩
  · simp only [segSrc, new, h1, h3, q1, updateMaxConsume, if_true, hseg]
  · simp only [segSrc, q2]; exact h2
  · obtain ⟨k', c, s'', g1, g2, g3, g4, g5⟩ := h4 (min k n) (hk.imp (fun h => by omega) id)
    obtain ⟨d, rest, p1, p2⟩ := cutSegs_ok (k := k') (n := n) (Or.inl hout)
    have hu : m'.acc.unwind k' = .ok { m'.acc with start := m'.acc.start - k', stop := m'.acc.stop - k' } := by
      have := q6.empty hc
      unfold Accumulator.unwind
      rw [if_neg (by omega)]
    simp only [segSrc, q2, g1, q3, p1, hu]
    rw [if_neg (by omega), if_neg (by omega)]
    obtain ⟨p3, p4⟩ := cutSegs_rest p1
    refine ⟨k', d, _, rfl, by omega, g3, by rw [← hseg]; exact p2, fun h => ?_⟩
    obtain ⟨r1, r2⟩ := g5 (by omega)
    refine ⟨r1, fun hd => ⟨?_, fun hall => by rw [← hseg] at hall ⊢; exact p4 fun x hx => by rw [r1]; exact hall x hx⟩⟩
    rw [← hseg, ← p3]
    rcases (r2 hd).1 with ⟨e, d5, d6⟩ | ⟨x', s3, d5, d6, d7⟩
    · exact Or.inl ⟨e, d5, by simp only [d6]⟩
    · refine Or.inr ⟨0, { src := s3, segments := rest, acc := { m'.acc with start := m'.acc.start - k', stop := m'.acc.stop - k' }, srcScanned := segs.length - c, maxConsume := 0 }, ?_, rfl, d7⟩
      simp only [d5, extendSegmentBuf, scan, Nat.lt_irrefl, if_false, Accumulator.suspend, hc, if_true, updateMaxConsume]

/-- The first fill lends all slices, and all that is lent can be given back. -/
def Fired (S : SegSrc σ) (F : Err → Prop) (s : σ) (content : Bytes) (segs : List Seg) : Prop :=
  (∃ e, F e ∧ S.fill s = .error e) ∨ ∃ b n s', S.fill s = .ok ((true, b, segs.length, n), s') ∧ (∃ m, (S.slices s').1 = content ++ m) ∧ (S.slices s').2 = segs ∧
    ∃ k c s'', S.consume s' n = .ok ((k, c), s'') ∧ c ≤ segs.length

theorem Shot.fired {S : SegSrc σ} {F} {P : σ → Prop} {s : σ} {content n segs tidy dry} (h : Shot S F P s content n segs tidy dry) : Fired S F s content segs := by
  rcases h with h | ⟨s', h1, h2, h3, _, h4⟩
  · exact Or.inl h
  · obtain ⟨k, c, s'', g1, _, _, g4, _⟩ := h4 n (Or.inl (Nat.le_refl _))
    exact Or.inr ⟨n, n, s', h1, h2, h3, k, c, s'', g1, g4⟩

theorem FilterStream.fired {S : SegSrc σ} {F} {P : σ → Prop} {s : σ} {content : Bytes} {n : Nat} {segs : List Seg} {tidy dry : Prop} (h : Shot S F P s content n segs tidy dry) (ht : tidy)
    (hst : segs.Pairwise Seg.Lt) {oc : Bool} {rs : List RangeMapper} {st : FilterStream σ} (hnew : new oc s rs = .ok st) :
    Fired (segSrc S) F st content (keep (coverAny segs.length rs) 0 segs) := by
  unfold FilterStream.new at hnew
  cases hc : Cutter.ofRanges oc rs with
  | error e => rw [hc] at hnew; cases hnew
  | ok c =>
    rw [hc] at hnew
    cases hnew
    obtain ⟨hI, hcov⟩ := Cutter.ofRanges_inv hc
    rcases h with ⟨e, h1, h2⟩ | ⟨s', h1, h2, h3, _, h4⟩
    · exact Or.inl ⟨e, h1, by simp only [segSrc, fill, h2]⟩
    obtain ⟨u, v, c', hr⟩ : ∃ u v c', c.accumulateLines 0 0 true segs.length segs [] = (u, v, c') := ⟨_, _, _, rfl⟩
    obtain ⟨_, _, _, _, _, q1, q2, _⟩ := Cutter.lines_spec (P := coverAny segs.length rs) (segs := segs) hI (by simp) (Nat.le_refl _) (fun _ => rfl) (Nat.zero_le _)
      (fun i _ _ => by rw [Nat.zero_add]; exact hcov _ _) (by simp [keep]) hst hr
    obtain ⟨q2, q3⟩ := q2 rfl
    subst q2
    rw [List.take_length] at q1
    rw [← q1]
    have hso : Sorted v := by
      rw [q1]
      exact (hst.sublist (keep_sublist _ _ _)).imp fun h => by unfold Seg.Lt at h; omega
    obtain ⟨k', d, s'', g1, g2, g3, g4, g5⟩ := h4 ((v.getLast?.map Seg.tail).getD 0) (Or.inr ht)
    obtain ⟨x, rest, p1, p2⟩ := cutSegs_ok (k := k') (n := n) (Or.inl hso)
    refine Or.inr ⟨(v.getLast?.map Seg.tail).getD 0, (v.getLast?.map Seg.tail).getD 0,
      { src := s', srcScanned := segs.length, srcConsumed := 0, maxConsume := (v.getLast?.map Seg.tail).getD 0, segments := v, cutter := c' }, ?_, h2, rfl, k', x,
      { src := s'', srcScanned := segs.length - d, srcConsumed := d, maxConsume := (v.getLast?.map Seg.tail).getD 0 - k', segments := rest, cutter := c' }, ?_, p2⟩
    · simp only [segSrc, fill, h1, h3, Nat.lt_irrefl, if_false, hr, q3, Bool.true_or, if_true]
    · simp only [segSrc, consume, Nat.min_self, g1, p1]
      rw [if_neg (by omega), if_neg (by omega), Nat.zero_add]

/-! ## Slicers -/

theorem ConstSlicer.shot {Src : ByteSrc σ} {F} {P : Bytes → σ → Prop} {s : σ} {content : Bytes} (h : Lends Src F P s content) {fuel pitch : Nat} {m : SegmentMapper} {p : ConstSlicerParams} (hp : 0 < pitch)
    (hraw : ConstSlicerParams.fromRaw fuel pitch m = .ok p) {start stop : Int} (hm : m.evaluate (0, pitch) (0, pitch) = (start, stop)) :
    ∃ st, new s p = .ok st ∧ Shot (segSrc Src) F (fun t => P [] t.src) st content content.length (Spec.strides content.length pitch start stop) (1 ≤ stop ∧ -(15 * pitch) < start) True := by
  obtain ⟨c1, c2, c3, c4, c5, c6, c7, c8, c9, c10, c11⟩ := ConstSlicerParams.fromRaw_comb hp hraw content.length start stop hm
  have hspan : 0 < p.span := by omega
  have hpitch : 0 < p.pitch := by omega
  rw [← c11]
  have hnew : ∃ segs, ConstSegments.new p = .ok segs ∧ segs.segments = [] ∧ segs.span = p.span ∧ segs.tailMargin = (p.tail + p.span).toNat ∧ segs.pitch = p.pitch ∧
      (segs.curr : Int) - segs.off = p.head := by
    unfold ConstSegments.new
    rw [if_pos ⟨c4, c5⟩]
    refine ⟨_, rfl, rfl, rfl, rfl, rfl, ?_⟩
    have hmod := Int.emod_nonneg p.head (show (p.pitch : Int) ≠ 0 by omega)
    simp only
    by_cases hh : p.head < 0
    · rw [if_pos hh, if_pos hh]; omega
    · rw [if_neg hh, if_neg hh]; omega
  obtain ⟨cs, n1, n2, n3, n4, n5, n6⟩ := hnew
  refine ⟨{ src := s, segs := cs }, by unfold new; rw [if_pos ⟨hpitch, hspan⟩, n1], ?_⟩
  rcases h cs.minFillLen with ⟨e, h1, h2⟩ | ⟨s', h1, h2, hP, h3⟩
  · exact Or.inl ⟨e, h1, by simp only [segSrc, h2]⟩
  right
  have hnt : ({ cs with isEof := true, minEscape := min content.length cs.minEscape, segments := [] } : ConstSegments).nextTail = .ok (p.head + p.span).toNat := by
    unfold ConstSegments.nextTail
    simp only [List.getLast?_nil, ckSub]
    rw [if_pos (by omega)]
    congr 1
    omega
  have hloop := ConstSegments.clipLoop_spec (s := { cs with isEof := true, minEscape := min content.length cs.minEscape, segments := [] }) (n := content.length) n3 n4 n5 hpitch
    (by omega) c4 (content.length + cs.span + 2) 0 (Nat.zero_le _) (by omega) (by simp only [Int.natCast_zero, Int.zero_mul]; omega)
  simp only [List.range_zero, List.map_nil, Int.natCast_zero, Int.zero_mul, Int.add_zero] at hloop
  have hfill : ∃ fs, cs.fill true content.length = .ok fs ∧ fs.segments = comb p.head p.pitch p.span (p.tail + p.span).toNat content.length ∧
      fs.lend = (content.length, (comb p.head p.pitch p.span (p.tail + p.span).toNat content.length).length) ∧ fs.isEof = true ∧ fs.minEscape ≤ content.length ∧ 0 < fs.tailMargin := by
    unfold ConstSegments.fill
    rw [if_pos rfl]
    simp only [hnt, hloop]
    exact ⟨_, rfl, rfl, rfl, rfl, Nat.min_le_left _ _, by rw [n4]; omega⟩
  obtain ⟨fs, f0, f1, f2, f3, f4, f5⟩ := hfill
  refine ⟨{ src := s', segs := fs }, by simp only [segSrc, h1, f0, f2], h2, by simp only [segSrc, f1, f2, List.take_length],
    fun h0 => by rw [List.length_eq_zero_iff.1 h0] at hP; exact hP, fun k hk => ?_⟩
  by_cases hle : content.length ≤ k
  · obtain ⟨s'', h4, h5⟩ := h3 content.length (Nat.le_refl _)
    have hcon : ∃ fs', fs.consume k = .ok ((content.length, (comb p.head p.pitch p.span (p.tail + p.span).toNat content.length).length), fs') ∧ fs'.off = 0 ∧
        0 < fs'.tailMargin := by
      unfold ConstSegments.consume
      rw [if_neg (by omega)]
      by_cases h0 : 0 < fs.minEscape
      · simp only [if_pos h0, f3, f2, hle, and_self, if_true]
        exact ⟨_, rfl, rfl, f5⟩
      · simp only [if_neg h0, f3, f2, hle, and_self, if_true]
        exact ⟨_, rfl, rfl, f5⟩
    obtain ⟨fs', hcon, o1, o2⟩ := hcon
    refine ⟨content.length, _, { src := s'', segs := fs' }, by simp only [segSrc, hcon, h4], hle, Nat.le_refl _, Nat.le_refl _, fun _ => ⟨rfl, fun _ => ⟨?_, fun _ => rfl⟩⟩⟩
    rw [Nat.sub_self]
    rw [Nat.sub_self, List.drop_length] at h5
    rcases h5 fs'.minFillLen with ⟨e, h6, h7⟩ | ⟨eof, m, s3, h6, h7, h8, h9⟩
    · exact Or.inl ⟨e, h6, by simp only [segSrc, h7]⟩
    obtain rfl : m = 0 := by omega
    have hdry : fs'.fill true 0 = .ok { fs' with isEof := true, minEscape := min 0 fs'.minEscape, segments := [], lend := (0, 0) } := by
      simp only [ConstSegments.fill, if_true, ConstSegments.nextTail, List.getLast?_nil, ckSub, o1, Nat.zero_le, Nat.sub_zero, ConstSegments.clipLoop]
      rw [if_neg (by omega)]
      rfl
    exact Or.inr ⟨0, { src := s3, segs := { fs' with isEof := true, minEscape := min 0 fs'.minEscape, segments := [], lend := (0, 0) } }, by simp only [segSrc, h6, h8 rfl, hdry], rfl, h9⟩
  · obtain ⟨t1, t2⟩ := hk.resolve_left hle
    obtain ⟨st, hst, base, e, hseg, hI, _⟩ := new_spec (Src := Src) (R := fun _ _ _ _ => True) (E := fun _ => False) (L := Manner.need .any p.pitch p.span (escape p)) .any p
      ⟨hpitch, hspan, c4, c7 t1, c5, c6, c8 t2⟩ s 0 content trivial (fun h => h) (Nat.le_refl _)
    have hst' : st = { src := s, segs := cs } := by
      unfold new at hst
      rw [if_pos ⟨hpitch, hspan⟩, n1] at hst
      cases hst; rfl
    subst hst'
    obtain ⟨s2, q1, q2, q3, q4, q5⟩ := hI.fill_eof
    rw [f0] at q1
    cases q1
    obtain ⟨k', c, s'', b', g1, g2, g3, g4, _⟩ := q4.consume _ _ k q3 (Nat.le_refl _) (Nat.le_refl _) (fun _ => ⟨rfl, rfl, f4⟩) (by simp)
    obtain ⟨s3, h4, _⟩ := h3 k' g3
    exact ⟨k', c, { src := s3, segs := s'' }, by simp only [segSrc, g1, h4], g2, g3, by rw [← f1, q2, comb_length]; exact g4, fun h => absurd h hle⟩

theorem ExactMatchSlicer.shot {Src : ByteSrc σ} {F} {P : Bytes → σ → Prop} {s : σ} {content : Bytes} (h : Lends Src F P s content) {p : Bytes} (hp : p ≠ []) (B : Nat) {segs : List Seg}
    (hs : segs = (findIter p 0 0 content).map fun i => { pos := i, len := p.length }) :
    Shot (segSrc Src B) F (fun t => P [] t.src) { src := s, segments := [], scanned := 0, pattern := p } content content.length segs True True := by
  subst hs
  rcases h B with ⟨e, h1, h2⟩ | ⟨s', h1, ⟨m, h2⟩, hP, h3⟩
  · exact Or.inl ⟨e, h1, by simp only [segSrc, fill, h2]⟩
  right
  have hso : Sorted ((findIter p 0 0 content).map fun i => ({ pos := i, len := p.length } : Seg)) := by
    unfold Sorted
    rw [List.pairwise_map]
    exact (findIter_sound p hp content 0 0).2.1.imp fun h => by simp only; omega
  refine ⟨{ src := s', segments := (findIter p 0 0 content).map fun i => { pos := i, len := p.length }, scanned := content.length, pattern := p }, ?_, ⟨m, h2⟩, rfl,
    fun h0 => by rw [List.length_eq_zero_iff.1 h0] at hP; exact hP, fun k _ => ?_⟩
  · have hpe : p.isEmpty = false := by simpa using hp
    simp only [segSrc, fill, h1, hpe, Bool.false_eq_true, if_false, h2]
    rw [if_neg (by simp)]
    simp only [List.take_left, List.drop_zero, Nat.zero_add, List.nil_append, if_true]
  · obtain ⟨s'', h4, h5⟩ := h3 (min k content.length) (Nat.min_le_right _ _)
    obtain ⟨d, rest, q1, q2⟩ := cutSegs_ok (k := min k content.length) (n := 0) (Or.inl hso)
    refine ⟨min k content.length, d, _, by simp only [segSrc, h4, q1]; rfl, Nat.min_le_left _ _, Nat.min_le_right _ _, q2, fun h => ?_⟩
    rw [Nat.min_eq_right h] at h5 q1 ⊢
    obtain ⟨q3, q4⟩ := cutSegs_rest q1
    rw [Nat.sub_self, List.drop_length] at h5
    refine ⟨rfl, fun _ => ⟨?_, q4⟩⟩
    rw [← q3]
    rcases h5 B with ⟨e, h6, h7⟩ | ⟨eof, m, s3, h6, h7, h8, h9⟩
    · exact Or.inl ⟨e, h6, by simp only [segSrc, fill, h7]⟩
    obtain rfl : m = 0 := by omega
    refine Or.inr ⟨0, { src := s3, segments := rest, scanned := 0, pattern := p }, ?_, rfl, h9⟩
    have hpe : p.isEmpty = false := by simpa using hp
    simp only [segSrc, fill, h6, h8 rfl, hpe, Bool.false_eq_true, if_false, Nat.sub_self, Nat.not_lt_zero, or_self, List.take_zero, List.drop_nil, findIter, List.map_nil, List.append_nil, if_true]

theorem RangeSlicer.fresh {E : σ → Prop} {oc : Bool} {ms : List SegmentMapper} {c : Cutter} (hc : Cutter.ofRanges oc (ms.map RangeMapper.ofMapper) = .ok c) (s : σ)
    {content : Bytes} (hmax : content.length < usizeMax) {segs : List Seg} (hs : IsSlices (ms.map SegmentMapper.toSpec) content.length segs) (hE : ¬ E s) :
    Common false E content.length { src := s, srcConsumed := 0, maxConsume := 0, segments := [], cutter := c } content segs := by
  have hmem : ∀ f, f ∈ c.filters ++ c.tailFilters ↔ ∃ m ∈ ms, RangeMapper.ofMapper m = f := by
    intro f
    unfold Cutter.ofRanges at hc
    simp only at hc
    split at hc
    · cases hc
    · rw [Except.ok.injEq] at hc
      subst hc
      simp only [Cutter.sortFilters, List.mem_append, (stableSort_perm _ _).mem_iff, List.mem_filter, List.mem_map]
      cases f.hasRightAnchor <;> simp
  refine ⟨⟨(Cutter.ofRanges_inv hc).1, by simp, hs.1, by simp, ?_, by simp, ?_⟩, by simp, hmax, fun h => absurd h hE, ?_, fun h => by cases h⟩
  · intro x
    rw [hs.2 x]
    simp only [List.not_mem_nil, false_or, hmem]
    constructor
    · rintro ⟨h1, r, hr, h2⟩
      obtain ⟨m, hm, rfl⟩ := List.mem_map.1 hr
      exact ⟨_, ⟨m, hm, rfl⟩, (seg_spec m _ x).2 ⟨h1, h2⟩⟩
    · rintro ⟨f, ⟨m, hm, rfl⟩, h1⟩
      obtain ⟨h1, h2⟩ := (seg_spec m _ x).1 h1
      exact ⟨h1, _, List.mem_map.2 ⟨m, hm, rfl⟩, h2⟩
  · intro x hx
    obtain ⟨h1, r, hr, _, h2⟩ := (hs.2 x).1 hx
    exact ⟨h1, by simp only; omega⟩
  · intro _ ht
    unfold Cutter.ofRanges at hc
    simp only at hc ht ⊢
    split at hc
    · cases hc
    · rename_i t htr
      rw [Except.ok.injEq] at hc
      subst hc
      simp only at ht ⊢
      rw [ht] at htr ⊢
      simp only [Cutter.minTrans, Except.ok.injEq] at htr
      exact ⟨rfl, htr.symm⟩

theorem Cutter.accumulateSegs_end (c : Cutter) (off : Nat) : ∃ c', c.accumulateSegs off true 0 [] = (0, [], c') := by
  have h : ∀ l, ∃ l', Cutter.collect off 0 usizeMax 0 l = ([], l', 0)
    | [] => ⟨[], rfl⟩
    | f :: fs => ⟨f :: fs, by simp [Cutter.collect]⟩
  unfold Cutter.accumulateSegs
  simp only [if_true]
  obtain ⟨l', h⟩ := h (if (true && !c.tailFilters.isEmpty) = true then
      { c with filters := Cutter.sortFilters (c.filters ++ c.tailFilters.map fun f => f.toLeftAnchored (off + 0)), tailFilters := [] } else c).filters
  rw [h]
  exact ⟨_, rfl⟩

theorem Cutter.accumulateSegs_empty {c : Cutter} (h : c.isEmpty = true) (off : Nat) (eof : Bool) (n : Nat) : ∃ m c', c.accumulateSegs off eof n [] = (m, [], c') ∧ c'.isEmpty = true := by
  simp only [Cutter.isEmpty, Bool.and_eq_true, List.isEmpty_iff] at h
  unfold Cutter.accumulateSegs
  simp only [h.1, h.2, List.isEmpty_nil, Bool.not_true, Bool.and_false, Bool.false_eq_true, if_false]
  cases eof <;> exact ⟨_, _, rfl, by simp [Cutter.isEmpty, Cutter.collect]⟩

theorem RangeSlicer.shot {Src : ByteSrc σ} {F} {P : Bytes → σ → Prop} {s : σ} {content : Bytes} (h : Lends Src F P s content) {oc : Bool} {ms : List SegmentMapper} {st : RangeSlicer σ} (B : Nat)
    (hst : new oc s (ms.map RangeMapper.ofMapper) = .ok st) (hmax : content.length < usizeMax) {segs : List Seg}
    (hs : IsSlices (ms.map SegmentMapper.toSpec) content.length segs) :
    ∃ n ≤ content.length, Shot (segSrc Src B) F (fun t => P (content.drop n) t.src) st content n segs True True ∧ ∀ x ∈ segs, x.pos < n := by
  unfold new at hst
  split at hst
  · cases hst
  rename_i c hc
  rw [Except.ok.injEq] at hst
  subst hst
  rcases h B with ⟨e, h1, h2⟩ | ⟨s', h1, h2, hP, h3⟩
  · exact ⟨content.length, Nat.le_refl _, Or.inl ⟨e, h1, by simp only [segSrc, fill, h2]⟩, fun x hx => by
      obtain ⟨h1, r, _, _, h2⟩ := (hs.2 x).1 hx
      simp only [Seg.tail] at h2
      omega⟩
  have hC := fresh (E := fun _ => False) hc s hmax hs fun h => h
  obtain ⟨mc, v, c', q1, q2, q3, q4, q5, q6, q7, q8, q9, _⟩ := accumulate_spec (st := { src := s, srcConsumed := 0, maxConsume := 0, segments := [], cutter := c }) hC true content.length
    (Nat.le_refl _) (fun _ => rfl) (fun h => h.elim) (by simp)
  have hv := q8 (Or.inl rfl)
  subst hv
  obtain ⟨rfl, _⟩ := q9 rfl
  have hso : Sorted v := q2.strict.imp fun h => by unfold Seg.Lt at h; omega
  simp only at q1 q6
  by_cases he : c'.isEmpty = true
  · have hb : (v.getLast?.map Seg.tail).getD 0 ≤ content.length := by
      cases hl : v.getLast? with
      | none => simp
      | some x => exact (q6 x (List.mem_of_getLast? hl)).2
    have hall : ∀ x ∈ v, x.pos < (v.getLast?.map Seg.tail).getD 0 := fun x hx => by
      cases hl : v.getLast? with
      | none => rw [List.getLast?_eq_none_iff.1 hl] at hx; cases hx
      | some y =>
        have hy := List.mem_of_getLast? hl
        have h1 := ((hs.2 y).1 hy).1
        have h2 : x.pos ≤ y.pos := by
          obtain ⟨l, rfl⟩ : ∃ l, v = l ++ [y] := ⟨_, (List.dropLast_append_getLast? y hl).symm⟩
          rcases List.mem_append.1 hx with hx | hx
          · exact (List.pairwise_append.1 hso).2.2 x hx y (by simp)
          · simp only [List.mem_singleton] at hx
            exact Nat.le_of_eq (by rw [hx])
        simp only [Option.map_some, Option.getD_some, Seg.tail]
        omega
    refine ⟨(v.getLast?.map Seg.tail).getD 0, hb, Or.inr ⟨{ src := s', srcConsumed := 0, maxConsume := (v.getLast?.map Seg.tail).getD 0, segments := v, cutter := c' }, ?_, h2, rfl,
      fun h0 => by rw [h0]; exact hP, fun k _ => ?_⟩, hall⟩
    · simp only [segSrc, fill, h1, q1, he, if_true, Nat.min_eq_left hb]
    · obtain ⟨s'', h4, h5⟩ := h3 (min k ((v.getLast?.map Seg.tail).getD 0)) (by omega)
      obtain ⟨d, rest, p1, p2⟩ := cutSegs_ok (k := min k ((v.getLast?.map Seg.tail).getD 0)) (n := 0) (Or.inl hso)
      refine ⟨_, d, _, by simp only [segSrc, h4, p1]; rfl, Nat.min_le_left _ _, Nat.min_le_right _ _, p2, fun h => ?_⟩
      rw [Nat.min_eq_right h] at h5 p1 ⊢
      obtain ⟨p3, p4⟩ := cutSegs_rest p1
      refine ⟨rfl, fun _ => ⟨?_, p4⟩⟩
      have hd := p4 hall
      rw [hd, Nat.sub_self] at p3
      rw [hd, Nat.sub_self v.length]
      obtain rfl := List.length_eq_zero_iff.1 p3
      rcases h5 B with ⟨e, h6, h7⟩ | ⟨eof, m, s3, h6, h7, h8, h9⟩
      · exact Or.inl ⟨e, h6, by simp only [segSrc, fill, h7]⟩
      obtain ⟨mm, c'', a1, a2⟩ := Cutter.accumulateSegs_empty he (0 + (v.getLast?.map Seg.tail).getD 0) eof m
      exact Or.inr ⟨min 0 mm, { src := s3, srcConsumed := 0 + (v.getLast?.map Seg.tail).getD 0, maxConsume := min 0 mm, segments := [], cutter := c'' },
        by simp only [segSrc, fill, h6, a1, a2, if_true, List.getLast?_nil, Option.map_none, Option.getD_none, Nat.sub_self, List.length_nil], rfl, h9⟩
  · have hall : ∀ x ∈ v, x.pos < content.length := fun x hx => by
      have h1 := ((hs.2 x).1 hx).1
      have h2 := (q6 x hx).2
      simp only [Seg.tail] at h2
      omega
    refine ⟨content.length, Nat.le_refl _, Or.inr ⟨{ src := s', srcConsumed := 0, maxConsume := content.length, segments := v, cutter := c' }, ?_, h2, rfl,
      fun h0 => by rw [h0]; exact hP, fun k _ => ?_⟩, hall⟩
    · simp only [segSrc, fill, h1, q1, he, Bool.false_eq_true, if_false]
    · obtain ⟨s'', h4, h5⟩ := h3 (min k content.length) (by omega)
      obtain ⟨d, rest, p1, p2⟩ := cutSegs_ok (k := min k content.length) (n := 0) (Or.inl hso)
      refine ⟨_, d, _, by simp only [segSrc, h4, p1]; rfl, Nat.min_le_left _ _, Nat.min_le_right _ _, p2, fun h => ?_⟩
      rw [Nat.min_eq_right h] at h5 p1 ⊢
      obtain ⟨p3, p4⟩ := cutSegs_rest p1
      refine ⟨rfl, fun _ => ⟨?_, p4⟩⟩
      have hd := p4 hall
      rw [hd, Nat.sub_self] at p3
      rw [hd, Nat.sub_self v.length]
      rw [Nat.sub_self] at h5
      obtain rfl := List.length_eq_zero_iff.1 p3
      rcases h5 B with ⟨e, h6, h7⟩ | ⟨eof, m, s3, h6, h7, h8, h9⟩
      · exact Or.inl ⟨e, h6, by simp only [segSrc, fill, h7]⟩
      obtain rfl : m = 0 := by omega
      obtain ⟨c'', a1⟩ := Cutter.accumulateSegs_end c' (0 + content.length)
      refine Or.inr ⟨0, { src := s3, srcConsumed := 0 + content.length, maxConsume := 0, segments := [], cutter := c'' }, ?_, rfl, h9⟩
      simp only [segSrc, fill, h6, h8 rfl, a1, List.getLast?_nil, Option.map_none, Option.getD_none, Nat.sub_self, List.length_nil, Nat.min_self]
      split <;> rfl

theorem WalkSlicer.shot {Src : ByteSrc σ} {F M R E} {P : Bytes → σ → Prop} {L w : Nat} {s : σ} {content : Bytes} (hR : Serves Src F M R) (hA : Ample Src R L E)
    (hs : R s (.idle 1) w content) (hP : ∀ s ph w rem, R s ph w rem → P rem s) (hM : ∀ m, M m → AnyMargin m) (hw : Whole Src F s)
    {H : Nat} {rpns : List (List Tok)} (hne : rpns ≠ []) {segs : List Seg} (hW : Walks (Lens H rpns) 0 content segs) (B fuel : Nat) (hfuel : content.length < fuel) :
    Shot (segSrc Src B fuel) (Abort F) (fun t => P [] t.src) { src := s, fetchers := rpns, segments := [], pos := 0 } content content.length segs True True := by
  obtain ⟨R, h1, h2, h3, h4, hback⟩ := hR.whole hA hs hw H
  have hC : Common H rpns { src := s, fetchers := rpns, segments := [], pos := 0 } content segs := ⟨rfl, Nat.zero_le _, ⟨List.Pairwise.nil, by simp⟩, segs, rfl, hW⟩
  have hI : Idle Src R H rpns { src := s, fetchers := rpns, segments := [], pos := 0 } w content segs := by
    refine ⟨hC, ⟨1, h4⟩, fun req n s' hfl => ?_⟩
    rcases hw req with ⟨_, _, h'⟩ | ⟨_, _, h'⟩
    · rw [hfl] at h'; cases h'
    · rw [hfl] at h'; cases h'
  rcases fill_spec h1 h2 h3 hM hne B fuel _ w content segs hI hfuel with ⟨e, he, heq⟩ | ⟨eof, n, w', s', heq, q1, ⟨m, q2, q3⟩, q4, q5, q6, q7, q8, q9, _, q10⟩
  · exact Or.inl ⟨e, he, heq⟩
  right
  have he : eof = true := by
    cases eof with
    | true => rfl
    | false =>
      obtain ⟨n0, s0, h0⟩ := q10 rfl
      rcases hw (max B (2 * 0)) with ⟨e, _, h'⟩ | ⟨_, _, h'⟩
      · simp only [h'] at h0; cases h0
      · simp only [h'] at h0; cases h0
  subst he
  obtain ⟨hp, hn⟩ := q7 rfl
  obtain ⟨rest, hall, hrest⟩ := q1.rest
  have hr : rest = [] := by
    rw [hp, hn, List.drop_eq_nil_of_le (Nat.le_refl _)] at hrest
    cases hrest with
    | nil => rfl
    | cut _ _ _ _ hc => exact absurd rfl hc
  rw [hr, List.append_nil] at hall
  subst hall hn
  rw [hp] at heq
  have hso : Sorted s'.segments := q1.kept.strict.imp fun h => Nat.le_of_lt h
  refine ⟨s', heq, ?_, rfl, fun h0 => ?_, fun k _ => ?_⟩
  · by_cases h0 : 0 < content.length
    · obtain ⟨_, _, m', g1, g2, g3, _⟩ := q4
      obtain ⟨mm, _, g4⟩ := g3 (by omega)
      have hmm : m' = content.length := by omega
      rw [hmm, List.take_length] at g4
      exact ⟨mm, g4⟩
    · have : content = [] := List.length_eq_zero_iff.1 (by omega)
      exact ⟨_, by rw [this]; rfl⟩
  · have := hP _ _ _ _ (hback _ _ _ _ q2)
    rw [List.length_eq_zero_iff.1 h0] at this
    exact this
  · obtain ⟨s2, w2, h5, h6, _⟩ := h1.consume _ _ _ _ (min k s'.pos) q2 (by omega)
    obtain ⟨d, rest, p1, p2⟩ := cutSegs_ok (k := min k s'.pos) (n := 0) (Or.inl hso)
    refine ⟨min k s'.pos, d, _, by simp only [segSrc, h5, p1]; rfl, Nat.min_le_left _ _, by omega, p2, fun h => ?_⟩
    have hk : min k s'.pos = content.length := by omega
    rw [hk] at h6 p1 ⊢
    obtain ⟨p3, p4⟩ := cutSegs_rest p1
    refine ⟨rfl, fun _ => ⟨?_, p4⟩⟩
    rw [← p3]
    rw [List.drop_length] at h6
    rcases h1.fill _ _ _ _ (max B (2 * (s'.pos - content.length))) h6 with ⟨e, h7, h8⟩ | ⟨eof, m, _, s3, h7, h10, h8, _, _, h9, _⟩
    · exact Or.inl ⟨e, Or.inl h7, by simp only [segSrc, fill, h8]⟩
    simp only [List.length_nil, Nat.le_zero] at h8
    subst h8
    have he : eof = true := by
      cases eof with
      | true => rfl
      | false => have := (h9 rfl).1; omega
    refine Or.inr ⟨0, { src := s3, fetchers := s'.fetchers, segments := rest, pos := s'.pos - content.length }, ?_, rfl, hP _ _ _ _ (hback _ _ _ _ h10)⟩
    simp only [segSrc, fill, h7, he, Nat.zero_le, decide_true, Bool.and_self, if_true, Nat.zero_min]

theorem GuidedSlicer.loop_all {P : RecSrc τ} {F : Err → Prop} {Q : τ → List Rec → Prop}
    (hQ : ∀ t recs, Q t recs → (∃ e, F e ∧ P.read t = .error e) ∨ (¬ (false = true ∧ recs = []) ∧ ∃ t', P.read t = .ok (recs.head?, t') ∧ Q t' recs.tail)) {n : Nat} (hn : n < 2 ^ 64) :
    ∀ (fuel : Nat) (st : GuidedSlicer σ τ) (recs : List Rec), Q st.guide recs → (∀ r ∈ recs, r.offset + r.span ≤ n) → recs.length < fuel → st.srcConsumed = 0 →
      (∃ e, F e ∧ loop P true n fuel st = .error e) ∨
      ∃ t, Q t [] ∧ loop P true n fuel st = .ok { st with guide := t, segments := st.segments ++ guided recs, guideConsumed := (st.segments ++ guided recs).length }
  | 0, _, _, _, _, hf, _ => by omega
  | fuel + 1, st, recs, hq, hin, hf, h0 => by
    simp only [loop]
    rcases hQ _ _ hq with ⟨e, hF, heq⟩ | ⟨_, t', heq, hQ'⟩
    · exact Or.inl ⟨e, hF, by rw [heq]⟩
    rw [heq]
    cases recs with
    | nil => exact Or.inr ⟨t', hQ', by simp [guided]⟩
    | cons r recs =>
      have hr := hin r List.mem_cons_self
      simp only [List.length_cons] at hf
      have hstop : (r.offset + r.span) % 2 ^ 64 = r.offset + r.span := Nat.mod_eq_of_lt (by omega)
      have hpos : wsub r.offset st.srcConsumed = r.offset := by rw [h0, wsub, if_pos (Nat.zero_le _)]; rfl
      have hlen : wsub (min (r.offset + r.span) n) r.offset = r.span := by
        rw [Nat.min_eq_left hr, wsub, if_pos (by omega)]
        omega
      simp only [List.head?_cons, hstop, hpos, if_true, hlen]
      rw [if_neg (by omega)]
      rcases loop_all hQ hn fuel { st with guide := t', segments := st.segments ++ [⟨r.offset, r.span⟩] } recs hQ' (fun x hx => hin x (List.mem_cons_of_mem _ hx)) (by omega) h0 with h | ⟨t, h', h⟩
      · exact Or.inl h
      · exact Or.inr ⟨t, h', by rw [h]; simp [guided]⟩

theorem GuidedSlicer.shot {P : RecSrc τ} {Src : ByteSrc σ} {F} {G : Bytes → σ → Prop} {s : σ} {content : Bytes} {t : τ} {recs : List Rec} (h : Lends Src F G s content)
    (hg : Yields P F false t recs) (hin : ∀ r ∈ recs, r.offset + r.span ≤ content.length) (hlen : content.length < 2 ^ 64) (hs : Sorted (guided recs))
    (B fuel : Nat) (hfuel : recs.length < fuel) :
    Shot (segSrc Src P B fuel) F (fun t => G [] t.src) (new s t) content content.length (guided recs) True True := by
  obtain ⟨Q, hq, hQ⟩ := hg
  rcases h (max B 0) with ⟨e, h1, h2⟩ | ⟨s', h1, h2, hG, h3⟩
  · exact Or.inl ⟨e, h1, by simp only [segSrc, fill, new, List.getLast?_nil, Option.map_none, Option.getD_none, h2]⟩
  rcases loop_all hQ hlen fuel { (new s t : GuidedSlicer σ τ) with src := s', maxConsume := content.length } recs hq hin hfuel rfl with ⟨e, h4, h5⟩ | ⟨t', hq', h4⟩
  · simp only [new] at h5
    exact Or.inl ⟨e, h4, by simp only [segSrc, fill, new, List.getLast?_nil, Option.map_none, Option.getD_none, h1, Nat.zero_add, h5]⟩
  right
  simp only [new, List.nil_append] at h4
  refine ⟨{ src := s', guide := t', segments := guided recs, guideConsumed := (guided recs).length, srcConsumed := 0, maxConsume := content.length },
    by simp only [segSrc, fill, new, List.getLast?_nil, Option.map_none, Option.getD_none, h1, Nat.zero_add, h4], h2, by simp only [segSrc, List.take_length],
    fun h0 => by rw [List.length_eq_zero_iff.1 h0] at hG; exact hG, fun k _ => ?_⟩
  obtain ⟨s'', h5, h6⟩ := h3 (min k content.length) (Nat.min_le_right _ _)
  obtain ⟨d, rest, p1, p2⟩ := cutSegs_ok (k := min k content.length) (n := 0) (Or.inl hs)
  refine ⟨min k content.length, d, _, by simp only [segSrc, h5, p1]; rfl, Nat.min_le_left _ _, Nat.min_le_right _ _, p2, fun h => ?_⟩
  rw [Nat.min_eq_right h] at h6 p1 ⊢
  obtain ⟨p3, p4⟩ := cutSegs_rest p1
  refine ⟨rfl, fun _ => ⟨?_, p4⟩⟩
  rw [← p3]
  rw [Nat.sub_self, List.drop_length] at h6
  rcases h6 (max B ((rest.getLast?.map Seg.tail).getD 0)) with ⟨e, h7, h8⟩ | ⟨eof, m, s3, h7, h8, h9, hG'⟩
  · exact Or.inl ⟨e, h7, by simp only [segSrc, fill, h8]⟩
  obtain rfl : m = 0 := by omega
  obtain ⟨fuel, rfl⟩ : ∃ f, fuel = f + 1 := ⟨fuel - 1, by omega⟩
  rcases hQ _ _ hq' with ⟨e, h10, h11⟩ | ⟨_, t'', h11, _⟩
  · exact Or.inl ⟨e, h10, by simp only [segSrc, fill, h7, loop, h11]⟩
  · refine Or.inr ⟨0, { src := s3, guide := t'', segments := rest, guideConsumed := rest.length, srcConsumed := 0 + content.length, maxConsume := 0 }, ?_,
      by simp only [segSrc, List.take_length], hG'⟩
    simp only [segSrc, fill, h7, h9 rfl, loop, h11, List.head?_nil]

/-! ## Printing -/

theorem Fired.prints {S : SegSrc σ} {F} {s : σ} {content : Bytes} {segs : List Seg} (h : Fired S F s content segs) (hin : ∀ x ∈ segs, x.tail ≤ content.length)
    (hlen : content.length < 2 ^ 64) (f : Formatting) {B fuel : Nat} (hB : 0 < B) (hf : 0 < fuel) :
    Delivers (ScatterDrain.byteSrc S f B fuel) F NlMargin (ScatterDrain.through B s) 0 ((slicesOf content segs).flatMap f.line) := by
  have hprod : Produces (ScatterDrain.feed S f) F (fun d _ _ p => d = ScatterDrain.new s ∧ p = (slicesOf content segs).flatMap f.line) (fun _ => True) := by
    rintro d w p req buf ⟨rfl, rfl⟩
    unfold ScatterDrain.feed
    rcases h with ⟨e, h1, h2⟩ | ⟨b, n, s', h1, ⟨m, h2⟩, h3, k, c, s'', h4, h5⟩
    · exact Or.inl ⟨e, h1, by simp only [ScatterDrain.new, h2]⟩
    right
    have hseg := Format.segments_line f 0 (content ++ m) segs fun x hx => by
      have := hin x hx
      simp only [Seg.tail] at this
      simp only [List.length_append]
      omega
    have habs : (segs.map fun x => (0 + x.pos, x.bytes (content ++ m))) = slicesOf content segs := by
      unfold slicesOf
      apply List.map_congr_left
      intro x hx
      have h2 := Seg.bytes_take x content m content.length (Nat.le_refl _) (hin x hx)
      rw [List.take_length] at h2
      rw [h2, Nat.zero_add]
    rw [habs] at hseg
    refine ⟨true, (slicesOf content segs).flatMap f.line, { src := s'', srcConsumed := segs.length - c, offset := k, lines := c }, [], ?_, by simp, fun _ => ⟨rfl, trivial⟩, by simp⟩
    simp only [ScatterDrain.new, h1, ScatterDrain.fresh, h3, Nat.zero_le, Nat.le_refl, and_self, if_true, List.take_length, List.drop_zero, h2, hseg, ScatterDrain.advance, h4, ckSub,
      Nat.zero_add, h5]
  exact buffered_delivers' hprod hB ⟨rfl, rfl⟩ hf

theorem Shot.writes {ν : Type} [DecidableEq ν] {S : SegSrc σ} {F} {P : σ → Prop} {s : σ} {content : Bytes} {n : Nat} {segs : List Seg} {tidy dry : Prop} (h : Shot S F P s content n segs tidy dry)
    (hd : dry) (h0 : n = 0 → segs = []) (hin : ∀ x ∈ segs, x.tail ≤ content.length) (hlen : content.length < 2 ^ 64) (f : Formatting) {fuel : Nat} (c : ScatterContext ν) (hf : 1 < fuel) :
    (∃ e, F e ∧ ScatterDrain.scatter S f fuel (ScatterDrain.new s) c = .error e) ∨
    ScatterDrain.scatter S f fuel (ScatterDrain.new s) c = ScatterDrain.dumpSlices f 0 (slicesOf content segs) c := by
  obtain ⟨fuel, rfl⟩ : ∃ k, fuel = k + 2 := ⟨fuel - 2, by omega⟩
  unfold ScatterDrain.scatter
  rcases h with ⟨e, h1, h2⟩ | ⟨s', h1, ⟨m, h2⟩, h3, _, h4⟩
  · exact Or.inl ⟨e, h1, by simp only [ScatterDrain.new, h2]⟩
  simp only [ScatterDrain.new, h1]
  by_cases hn : n = 0
  · right
    rw [if_pos ⟨trivial, hn⟩, h0 hn]
    rfl
  rw [if_neg (fun h => hn h.2)]
  have hall := ScatterDrain.dumpAll_eq f 0 0 (content ++ m) 0 segs c fun x hx => by
    have := hin x hx
    simp only [Seg.tail] at this
    simp only [List.length_append]
    omega
  have habs : (segs.map fun x => (0 + x.pos, x.bytes (content ++ m))) = slicesOf content segs := by
    unfold slicesOf
    apply List.map_congr_left
    intro x hx
    have h2 := Seg.bytes_take x content m content.length (Nat.le_refl _) (hin x hx)
    rw [List.take_length] at h2
    rw [h2, Nat.zero_add]
  rw [habs] at hall
  obtain ⟨k', k, s'', g1, _, _, g4, g5⟩ := h4 n (Or.inl (Nat.le_refl _))
  obtain ⟨_, g5⟩ := g5 (Nat.le_refl _)
  simp only [ScatterDrain.fresh, h3, Nat.zero_le, Nat.le_refl, and_self, if_true, List.take_length, List.drop_zero, h2, hall, ScatterDrain.advance, g1, ckSub, Nat.zero_add, g4]
  cases ScatterDrain.dumpSlices f 0 (slicesOf content segs) c with
  | error e => exact Or.inr rfl
  | ok c =>
    simp only
    rcases (g5 hd).1 with ⟨e, h5, h6⟩ | ⟨m', s3, h5, _⟩
    · exact Or.inl ⟨e, h5, by unfold ScatterDrain.scatter; simp only [h6]⟩
    · right
      unfold ScatterDrain.scatter
      simp only [h5, and_self, if_true]

end Nd
