import Verif.Props.Merge
import Verif.Props.PatchBack
/-!
# C46: `--merge` holds what it merges
-/
namespace Nd.Props
open Nd Spec

/-- The states between the rounds of a client that consumes all it may, as the drains do. -/
inductive Drained (S : SegSrc σ) (s₀ : σ) : σ → Prop where
  | start : Drained S s₀ s₀
  | round {s s₁ s₂ : σ} {eof : Bool} {bytes count cap : Nat} {r : Nat × Nat} : Drained S s₀ s → S.fill s = .ok ((eof, bytes, count, cap), s₁) → S.consume s₁ cap = .ok (r, s₂) → Drained S s₀ s₂

/-- A stream whose only slice is everything lends everything at once. -/
theorem lends_whole {S : SegSrc σ} {K F R} (h : SegFaithful S K F R) (hF : ∀ e, ¬ F e) (s₀ : σ) (content : Bytes) (hpos : 0 < content.length) :
    ∀ (w lb : Nat) (s : σ), Drained S s₀ s → R s (.idle lb) w content [⟨0, content.length⟩] → ∃ s₁ r s₂, Drained S s₀ s₁ ∧ S.fill s₁ = .ok (r, s₂) ∧ content.length ≤ (S.slices s₂).1.length := by
  intro w
  induction w using Nat.strongRecOn with
  | _ w ih =>
  intro lb s hd hR
  rcases h.fill _ _ _ _ _ hR with ⟨e, he, _⟩ | ⟨eof, bytes, count, maxc, cap, w', s', heq, hR', hl, hcb, hdrop, hmax, heof, _, hw, hw', _⟩
  · exact absurd he (hF e)
  cases count with
  | succ count =>
    obtain ⟨avail, _, ha, hsl, ht⟩ := hl.bytes_eq
    have := ht ⟨0, content.length⟩ (by simp)
    simp only [Seg.tail] at this
    obtain ⟨m, _, hm⟩ := hsl (by omega)
    refine ⟨s, _, s', hd, heq, ?_⟩
    rw [hm, List.length_append, List.length_take]
    omega
  | zero =>
    have hcap : cap = 0 := by
      have := hdrop ⟨0, content.length⟩ (by simp)
      simp only at this
      omega
    have he : eof = false := by
      cases eof
      · rfl
      · have := (heof rfl).1
        simp at this
    subst hcap he
    have hok : ((0 : Nat) = 0 ∧ K.strict = false) ∨ maxc = 0 ∨ (maxc ≤ 0 ∧ K.policy (List.take 0 [⟨0, content.length⟩]) maxc) := by
      rcases hmax with hmax | hmax
      · exact Or.inr (Or.inl hmax)
      · exact Or.inl ⟨rfl, hmax.2.2.2⟩
    obtain ⟨k', c', w2, s2, hc, _, hk, hc', _, _, hR2, hw2, _⟩ := h.consume _ _ _ _ _ _ _ maxc hR' hok
    obtain rfl : k' = 0 := by omega
    obtain rfl : c' = 0 := by omega
    rw [if_neg (by simp)] at hR2
    have hlt := hw' rfl
    exact ih w2 (by omega) _ s2 (hd.round heq hc) (by simpa [Seg.shift] using hR2)

/-- Slices without gaps become one. -/
theorem merge_tiles (n total : Nat) : ∀ (xs : List Seg) (a : Seg), Format.Tiles total a.tail xs → mergeFrom n a xs = [⟨a.pos, total - a.pos⟩]
  | [], a, h => by
    have h : a.tail = total := h
    simp only [mergeFrom, List.cons.injEq, and_true]
    cases a
    simp only [Seg.tail, Seg.mk.injEq, true_and] at *
    omega
  | x :: xs, a, h => by
    obtain ⟨h1, h2⟩ := h
    have hx : x.tail = a.tail + x.len := by simp only [Seg.tail] at *; omega
    rw [mergeFrom, if_pos (by omega)]
    refine merge_tiles n total xs ⟨a.pos, max a.tail x.tail - a.pos⟩ ?_
    have : Seg.tail ⟨a.pos, max a.tail x.tail - a.pos⟩ = a.tail + x.len := by
      simp only [Seg.tail] at *
      omega
    rw [this]
    exact h2

/-- **Counterexample** to C46: `--width N --merge M FILE`.  The slices of a file become a single one, which is only lent as a whole, so the file is in memory before anything is printed.  There is no bound. -/
theorem C46_merge_counterexample (B fuel fuel' : Nat) (content : Bytes) (hB : 0 < B) (hpos : 0 < content.length) (hf : content.length < fuel) (hlen : content.length < 2 ^ 64) (pitch : Nat) (m : SegmentMapper) (hp : 0 < pitch)
    (hm : m.evaluate (0, pitch) (0, pitch) = (0, (pitch : Int))) (hf' : 1 < fuel') (hL : 4 * pitch < (B - 1784) / 8) (n : Nat) :
    ∃ p st s₁ r s₂, ConstSlicerParams.fromRaw fuel' pitch m = .ok p ∧ ConstSlicer.new (RawStream.new B (Reader.open content fun _ => some B) 1 0) p = .ok st ∧
      Drained (MergeStream.segSrc (ConstSlicer.segSrc (RawStream.byteSrc B fuel))) (MergeStream.new st n) s₁ ∧
      (MergeStream.segSrc (ConstSlicer.segSrc (RawStream.byteSrc B fuel))).fill s₁ = .ok (r, s₂) ∧ content.length ≤ s₂.src.src.buf.buf.length := by
  obtain ⟨p, st, h1, h2, _, h3⟩ := width_delivers .polite (file_amply B fuel 0 content (fun _ => some B) hB hf) (fun _ => NlMargin.any) fuel' pitch m 0 pitch
    hp hm (by omega) (by omega) (by omega) hf' (by simp only [ConstSlicer.Manner.need]; omega)
  obtain ⟨⟨R, hR, hr⟩, _, _⟩ := C22_merge_fold h3 rfl rfl rfl (fun _ _ h => h) (strides_sorted _ _ _ _) hlen n
  have ht := strides_cover content.length pitch hp
  have hone : merge n (strides content.length pitch 0 pitch) = [⟨0, content.length⟩] := by
    cases hs : strides content.length pitch 0 pitch with
    | nil =>
      rw [hs] at ht
      have : 0 = content.length := ht
      omega
    | cons x xs =>
      rw [hs] at ht
      obtain ⟨g1, g2⟩ := ht
      rw [merge, merge_tiles n content.length xs x (by simp only [Seg.tail, g1]; exact g2), g1]
      simp
  rw [hone] at hr
  have hno : ∀ e, ¬ IoErr [fun _ => some B] e := by
    rintro e ⟨_, sched, hs, k, hk⟩
    simp only [List.mem_cons, List.not_mem_nil, or_false] at hs
    subst hs
    cases hk
  obtain ⟨s₁, r, s₂, g1, g2, g3⟩ := lends_whole hR hno (MergeStream.new st n) content hpos _ _ _ .start hr
  refine ⟨p, st, s₁, r, s₂, h1, h2, g1, g2, Nat.le_trans g3 ?_⟩
  show (s₂.src.src.buf.buf.drop s₂.src.src.buf.pos).length ≤ _
  rw [List.length_drop]
  omega

/-- A million bytes, in blocks of 2400, are held at once by `--width 16 --merge 0`. -/
example : ∃ content : Bytes, content.length = 1000000 ∧ ∃ p st s₁ r s₂, ConstSlicerParams.fromRaw 2 16 (fromStart 0 16) = .ok p ∧
      ConstSlicer.new (RawStream.new 2400 (Reader.open content fun _ => some 2400) 1 0) p = .ok st ∧
      Drained (MergeStream.segSrc (ConstSlicer.segSrc (RawStream.byteSrc 2400 1000001))) (MergeStream.new st 0) s₁ ∧
      (MergeStream.segSrc (ConstSlicer.segSrc (RawStream.byteSrc 2400 1000001))).fill s₁ = .ok (r, s₂) ∧ 1000000 ≤ s₂.src.src.buf.buf.length := by
  have hl : ∃ content : Bytes, content.length = 1000000 := ⟨List.replicate 1000000 65, List.length_replicate ..⟩
  obtain ⟨content, hl⟩ := hl
  have h := C46_merge_counterexample 2400 1000001 2 content (by decide) (by omega) (by omega) (by rw [hl]; decide) 16 (fromStart 0 16) (by decide) (by decide) (by decide) (by decide) 0
  rw [hl] at h
  exact ⟨content, hl, h⟩

end Nd.Props
