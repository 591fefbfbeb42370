import Verif.Model.Scatter
import Verif.Proof.Segment
import Verif.Proof.Dump
/-!
# Proofs about `ScatterDrain`
-/
namespace Nd

/-- The line a slice (absolute position and bytes) is printed as. -/
def Formatting.line (f : Formatting) (x : Nat × Bytes) : Bytes :=
  match f.style with
  | .binary => x.2
  | .hhh => Format.lineHhh x.2 x.1 (max x.2.length f.minWidth)
  | .ddh => Format.lineDdh x.2 x.1 (max x.2.length f.minWidth)

namespace Format

theorem segment_line (f : Formatting) (offset : Nat) (stream : Bytes) (s : Seg) (h : s.pos + s.len ≤ stream.length)
    (h64 : offset + s.pos + s.len < 2 ^ 64) :
    segment f.style offset f.minWidth stream s = .ok (f.line (offset + s.pos, s.bytes stream)) := by
  have hlen := bytes_length h
  unfold segment Formatting.line
  rw [if_neg (by omega), hlen]
  have hw : (s.bytes stream).length ≤ max s.len f.minWidth := by rw [hlen]; exact Nat.le_max_left _ _
  cases f.style with
  | binary => rfl
  | hhh =>
    simp only
    rw [if_neg (by rw [Nat.max_comm f.minWidth]; have := lineHhh_fits (s.bytes stream) (offset + s.pos) _ hw; omega)]
  | ddh =>
    simp only
    rw [if_neg (by
      rw [Nat.max_comm f.minWidth]
      have := lineDdh_fits (s.bytes stream) (offset + s.pos) _ (by omega) (by omega) hw; omega)]

theorem segments_line (f : Formatting) (offset : Nat) (stream : Bytes) : ∀ segs : List Seg,
    (∀ s ∈ segs, s.pos + s.len ≤ stream.length ∧ offset + s.pos + s.len < 2 ^ 64) →
    segments f.style offset f.minWidth stream segs = .ok ((segs.map fun x => (offset + x.pos, x.bytes stream)).flatMap f.line)
  | [], _ => rfl
  | s :: rest, h => by
    obtain ⟨h1, h2⟩ := h s (by simp)
    have ih := segments_line f offset stream rest fun x hx => h x (List.mem_cons_of_mem _ hx)
    simp only [segments, segment_line f offset stream s h1 h2, ih, List.map_cons, List.flatMap_cons]

end Format

theorem SegLent.inside {rem segs slices bytes count} (h : SegLent rem segs slices bytes count) :
    ∀ x ∈ segs.take count, x.pos + x.len ≤ slices.1.length ∧ x.pos + x.len ≤ rem.length := by
  obtain ⟨avail, h1, h2, h3, h4⟩ := h.bytes_eq
  intro x hx
  have ht := h4 x hx
  simp only [Seg.tail] at ht
  refine ⟨?_, by omega⟩
  by_cases h0 : 0 < avail
  · obtain ⟨m, _, hm⟩ := h3 h0
    rw [hm]
    simp
    omega
  · omega

namespace ScatterDrain

/-- One round over a stream whose lent slices are all consumed. -/
theorem round {S : SegSrc σ} {K F R} (h : SegFaithful S K F R) (hK : K.exact = true) (d : ScatterDrain σ) (lb w : Nat) (rem : Bytes) (segs : List Seg)
    (hR : R d.src (.idle lb) w rem segs) (h0 : d.srcConsumed = 0) :
    (∃ e, F e ∧ S.fill d.src = .error e) ∨
    ∃ eof bytes count maxc src w' rem' segs' d', S.fill d.src = .ok ((eof, bytes, count, maxc), src) ∧
      SegLent rem segs (S.slices src) bytes count ∧
      ({ d with src := src } : ScatterDrain σ).fresh (S.slices src).2 count = .ok (segs.take count) ∧
      ({ d with src := src } : ScatterDrain σ).advance S count maxc = .ok d' ∧
      R d'.src (if eof = true then .done else .idle 0) w' rem' segs' ∧ d'.srcConsumed = 0 ∧ d'.lines = d.lines + count ∧
      d'.offset + rem'.length = d.offset + rem.length ∧
      absOf d.offset rem (segs.drop count) = absOf d'.offset rem' segs' ∧ w' ≤ w ∧ (eof = false → w' < w) ∧
      (eof = true → segs' = [] ∧ count = segs.length ∧ (bytes = 0 → segs = [])) := by
  rcases h.fill d.src lb w rem segs hR with ⟨e, hF, heq⟩ | ⟨eof, bytes, count, maxc, cap, w', src, heq, hR', hl, hcb, hdrop, hmax, heof, hex, hw, hw', _⟩
  · exact Or.inl ⟨e, hF, heq⟩
  right
  obtain ⟨k', c, w'', src', hc, hk1, hk2, hc1, hc2, hc3, hR'', hw2, hke, hce, _⟩ := h.consume src eof count cap w' rem segs maxc hR' (by
    rcases hmax with h | ⟨h1, _, _, h3⟩
    · exact Or.inr (Or.inl h)
    · exact Or.inl ⟨h1, h3⟩)
  have hcount : c = count := hce hK (by omega)
  have hkc : eof = true → k' = cap := fun he => by
    rcases hmax with hm | ⟨_, hm, _⟩
    · exact hke he hm
    · rw [he] at hm; cases hm
  subst hcount
  have hav := hl.bytes_eq
  have hkl : k' ≤ rem.length := by
    obtain ⟨a, h1, h2, _⟩ := hav
    omega
  refine ⟨eof, bytes, c, maxc, src, w'', rem.drop k', (segs.drop c).map (Seg.shift k'),
    { src := src', srcConsumed := 0, offset := d.offset + k', lines := d.lines + c }, heq, hl, ?_, ?_, ?_, rfl, rfl, ?_, ?_, by omega, fun he => by have := hw' he; omega, ?_⟩
  · unfold fresh
    have := hl.count_le
    rw [hl.segs_eq]
    simp only [h0]
    rw [if_pos ⟨by omega, by simp; omega⟩]
    simp [List.take_take]
  · unfold advance
    simp only [hc, h0, Nat.zero_add, ckSub, Nat.le_refl, if_true, Nat.sub_self]
  · rw [Nat.sub_self] at hR''
    have hif : (if eof = true ∧ k' = cap then SegPhase.done else .idle 0) = if eof = true then .done else .idle 0 := by
      by_cases he : eof = true
      · simp [he, hkc he]
      · simp [he]
    rw [← hif]
    exact hR''
  · simp
    omega
  · exact (absOf_shift d.offset rem (segs.drop c) k' hc3).symm
  · intro he
    obtain ⟨h1, h2, _⟩ := heof he
    refine ⟨by rw [h1]; simp, h1, fun hb => ?_⟩
    cases segs with
    | nil => rfl
    | cons x xs =>
      exfalso
      have := hc2 x (by rw [h1]; simp)
      omega

/-- What remains to be printed. -/
def Pending (R : σ → SegPhase → Nat → Bytes → List Seg → Prop) (f : Formatting) (d : ScatterDrain σ) (w : Nat) (p : Bytes) : Prop :=
  ∃ lb rem segs, R d.src (.idle lb) w rem segs ∧ d.srcConsumed = 0 ∧ d.offset + rem.length < 2 ^ 64 ∧ p = (absOf d.offset rem segs).flatMap f.line

theorem feed_produces {S : SegSrc σ} {K F R} (h : SegFaithful S K F R) (hK : K.exact = true) (f : Formatting) :
    Produces (feed S f) F (fun d _ w p => Pending R f d w p) (fun _ => True) := by
  rintro d w p req buf ⟨lb, rem, segs, hR, h0, h64, rfl⟩
  unfold feed
  rcases round h hK d lb w rem segs hR h0 with ⟨e, hF, heq⟩ | ⟨eof, bytes, count, maxc, src, w', rem', segs', d', heq, hl, hfr, had, hR', h0', hlines, hoff, habs, hw, hw', heof⟩
  · exact Or.inl ⟨e, hF, by simp only [heq]⟩
  right
  have hseg := Format.segments_line f d.offset (S.slices src).1 (segs.take count) fun x hx => by
    have := hl.inside x hx
    omega
  have habs' : ((segs.take count).map fun x => (d.offset + x.pos, x.bytes (S.slices src).1)) = absOf d.offset rem (segs.take count) := by
    have := hl.abs d.offset
    rw [hl.segs_eq, List.take_take, Nat.min_self] at this
    exact this
  rw [habs'] at hseg
  refine ⟨eof, (absOf d.offset rem (segs.take count)).flatMap f.line, d', (absOf d'.offset rem' segs').flatMap f.line, ?_, ?_, ?_, ?_⟩
  · simp only [heq, hfr, hseg, had]
  · rw [← habs, ← List.flatMap_append]
    simp only [absOf, ← List.map_append, List.take_append_drop]
  · intro he
    obtain ⟨h1, _⟩ := heof he
    rw [h1]
    exact ⟨rfl, trivial⟩
  · intro he
    subst he
    refine ⟨w', hw' rfl, 0, rem', segs', ?_, h0', by omega, rfl⟩
    simpa using hR'

/-- The drain prints one line per slice. -/
theorem delivers {S : SegSrc σ} {K F} (hK : K.exact = true) (f : Formatting) {B fuel : Nat} (hB : 0 < B) {s : σ} {w : Nat} {content : Bytes} {segs : List Seg}
    (h : SegDelivers S K F s w content segs) (hlen : content.length < 2 ^ 64) (hf : w < fuel) :
    Delivers (byteSrc S f B fuel) F NlMargin (through B s) w ((slicesOf content segs).flatMap f.line) := by
  obtain ⟨R, hR, hs⟩ := h
  exact buffered_delivers' (feed_produces hR hK f) hB ⟨0, content, segs, hs, rfl, by simpa [new] using hlen, by rw [← absOf_zero]; rfl⟩ hf

variable {ν : Type} [DecidableEq ν]

/-- Writing slices one by one, in terms of their absolute positions. -/
def dumpSlices (f : Formatting) : Nat → List (Nat × Bytes) → ScatterContext ν → Except Err (ScatterContext ν)
  | _, [], c => .ok c
  | i, x :: rest, c =>
    match c.dump (f.line x) x.1 i with
    | .error e => .error e
    | .ok c => dumpSlices f (i + 1) rest c

theorem dumpSlices_append (f : Formatting) : ∀ (i : Nat) (xs ys : List (Nat × Bytes)) (c : ScatterContext ν),
    dumpSlices f i (xs ++ ys) c = match dumpSlices f i xs c with
      | .error e => .error e
      | .ok c => dumpSlices f (i + xs.length) ys c
  | i, [], ys, c => rfl
  | i, x :: xs, ys, c => by
    simp only [List.cons_append, dumpSlices]
    cases c.dump (f.line x) x.1 i with
    | error e => rfl
    | ok c =>
      simp only [dumpSlices_append f (i + 1) xs ys c, List.length_cons]
      rw [show i + 1 + xs.length = i + (xs.length + 1) by omega]

theorem dumpAll_eq (f : Formatting) (offset lines : Nat) (stream : Bytes) : ∀ (i : Nat) (segs : List Seg) (c : ScatterContext ν),
    (∀ s ∈ segs, s.pos + s.len ≤ stream.length ∧ offset + s.pos + s.len < 2 ^ 64) →
    dumpAll f offset lines stream i segs c = dumpSlices f (lines + i) (segs.map fun x => (offset + x.pos, x.bytes stream)) c
  | i, [], c, _ => rfl
  | i, s :: rest, c, h => by
    have h1 := Format.segments_line f offset stream [s] (by
      intro x hx
      rw [List.mem_singleton] at hx
      subst hx
      exact h x (by simp))
    simp only [List.map_cons, List.map_nil, List.flatMap_cons, List.flatMap_nil, List.append_nil] at h1
    simp only [dumpAll, h1, List.map_cons, dumpSlices]
    cases c.dump (f.line (offset + s.pos, s.bytes stream)) (offset + s.pos) (lines + i) with
    | error e => rfl
    | ok c => exact dumpAll_eq f offset lines stream (i + 1) rest c fun x hx => h x (List.mem_cons_of_mem _ hx)

/-- Scattering writes every slice once, in order, with its position and index. -/
theorem scatter_eq {S : SegSrc σ} {K F R} (h : SegFaithful S K F R) (hK : K.exact = true) (f : Formatting) :
    ∀ (fuel : Nat) (d : ScatterDrain σ) (c : ScatterContext ν) (lb w : Nat) (rem : Bytes) (segs : List Seg),
      R d.src (.idle lb) w rem segs → d.srcConsumed = 0 → d.offset + rem.length < 2 ^ 64 → w + 1 < fuel →
      (∃ e, F e ∧ scatter S f fuel d c = .error e) ∨
      scatter S f fuel d c = dumpSlices f d.lines (absOf d.offset rem segs) c
  | 0, _, _, _, _, _, _, _, _, _, hf => by omega
  | fuel + 1, d, c, lb, w, rem, segs, hR, h0, h64, hf => by
    unfold scatter
    rcases round h hK d lb w rem segs hR h0 with ⟨e, hF, heq⟩ | ⟨eof, bytes, count, maxc, src, w', rem', segs', d', heq, hl, hfr, had, hR', h0', hlines, hoff, habs, hw, hw', heof⟩
    · exact Or.inl ⟨e, hF, by simp only [heq]⟩
    simp only [heq]
    by_cases hend : eof = true ∧ bytes = 0
    · right
      rw [if_pos hend]
      rw [(heof hend.1).2.2 hend.2]
      rfl
    · rw [if_neg hend]
      have hall := dumpAll_eq f d.offset d.lines (S.slices src).1 0 (segs.take count) c fun x hx => by
        have := hl.inside x hx
        omega
      have habs' : ((segs.take count).map fun x => (d.offset + x.pos, x.bytes (S.slices src).1)) = absOf d.offset rem (segs.take count) := by
        have := hl.abs d.offset
        rw [hl.segs_eq, List.take_take, Nat.min_self] at this
        exact this
      rw [habs', Nat.add_zero] at hall
      have hsplit : absOf d.offset rem segs = absOf d.offset rem (segs.take count) ++ absOf d'.offset rem' segs' := by
        rw [← habs]
        simp only [absOf, ← List.map_append, List.take_append_drop]
      have hcl : (absOf d.offset rem (segs.take count)).length = count := by
        have := hl.count_le
        simp [absOf]
        omega
      rw [hsplit, dumpSlices_append]
      simp only [hfr, hall, had]
      cases hd : dumpSlices f d.lines (absOf d.offset rem (segs.take count)) c with
      | error e => right; rfl
      | ok c' =>
        simp only
        rw [hcl, ← hlines]
        cases he : eof with
        | false =>
          subst he
          exact scatter_eq h hK f fuel d' c' 0 w' rem' segs' (by simpa using hR') h0' (by omega) (by have := hw' rfl; omega)
        | true =>
          subst he
          simp only [if_true] at hR'
          rw [(heof rfl).1] at hR' ⊢
          have hf0 : fuel = fuel - 1 + 1 := by omega
          rw [hf0]
          unfold scatter
          rcases h.rest d'.src w' rem' [] hR' with ⟨e, hF, heq⟩ | ⟨w2, s2, heq, _⟩
          · exact Or.inl ⟨e, hF, by simp only [heq]⟩
          · right
            simp only [heq, true_and, if_true]
            rfl

end ScatterDrain
end Nd
