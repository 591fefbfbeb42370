import Verif.Proof.BoundedText
import Verif.Proof.FindAny
import Verif.Proof.Filter
/-!
# The sizes of the buffers between a stream and the occurrences printed by `--find`
-/
namespace Nd

/-- A slicer that keeps to `P` until the end and to `Q` afterwards lends at most `C` slices of at most `W` bytes to the drain, which consumes as much as it may. -/
def SegSrc.Spares (S : SegSrc σ) (P Q : σ → Prop) (C W : Nat) : Prop :=
  ∀ st st1 st2 eof bytes count cap r, P st → S.fill st = .ok ((eof, bytes, count, cap), st1) → S.consume st1 cap = .ok (r, st2) →
    Q st2 ∧ (eof = false → P st2) ∧ count ≤ C ∧ ∀ x ∈ (S.slices st1).2, x.len ≤ W

/-- The drain prints a bounded amount each time. -/
theorem SegSrc.Spares.adds {S : SegSrc σ} {P Q : σ → Prop} {C W : Nat} (h : S.Spares P Q C W) (f : Formatting) (R : Nat) :
    StreamBuf.Adds (ScatterDrain.feed S f) (fun d _ => P d.src) (fun d _ => Q d.src) (C * Format.reserve (max f.minWidth W)) R := by
  intro d req buf eof buf' d' hd _ hfeed
  unfold ScatterDrain.feed at hfeed
  split at hfeed
  · cases hfeed
  · rename_i isEof bytes count maxc src hf
    simp only at hfeed
    split at hfeed
    · cases hfeed
    · rename_i segs hfresh
      split at hfeed
      · cases hfeed
      · rename_i text htext
        split at hfeed
        · cases hfeed
        · rename_i d2 hadv
          cases hfeed
          unfold ScatterDrain.advance at hadv
          split at hadv
          · cases hadv
          · rename_i k c src2 hc
            split at hadv
            · cases hadv
            · cases hadv
              obtain ⟨g1, g2, g3, g4⟩ := h _ _ _ _ _ _ _ _ hd hf hc
              unfold ScatterDrain.fresh at hfresh
              split at hfresh
              · cases hfresh
                have hlen : (((S.slices src).2.take count).drop d.srcConsumed).length ≤ C := by
                  rw [List.length_drop, List.length_take]
                  omega
                have : text.length ≤ (((S.slices src).2.take count).drop d.srcConsumed).length * Format.reserve (max f.minWidth W) :=
                  Format.segments_length _ (fun x hx => g4 x (List.mem_of_mem_take (List.mem_of_mem_drop hx))) _ htext
                have := Nat.mul_le_mul_right (Format.reserve (max f.minWidth W)) hlen
                rw [List.length_append]
                refine ⟨by omega, by omega, ?_⟩
                cases eof
                · exact g2 rfl
                · exact g1
              · cases hfresh

/-- The same for a slicer that makes no difference between before and after the end. -/
def SegSrc.Sparing (S : SegSrc σ) (P : σ → Prop) (C W : Nat) : Prop :=
  ∀ st st1 st2 eof bytes count cap r, P st → S.fill st = .ok ((eof, bytes, count, cap), st1) → S.consume st1 cap = .ok (r, st2) → P st2 ∧ count ≤ C ∧ ∀ x ∈ (S.slices st1).2, x.len ≤ W

theorem SegSrc.Sparing.adds {S : SegSrc σ} {P : σ → Prop} {C W : Nat} (h : S.Sparing P C W) (f : Formatting) (R : Nat) :
    StreamBuf.Adds (ScatterDrain.feed S f) (fun d _ => P d.src) (fun d _ => P d.src) (C * Format.reserve (max f.minWidth W)) R :=
  SegSrc.Spares.adds (fun _ _ _ _ _ _ _ _ h0 hf hc => let ⟨h1, h2, h3⟩ := h _ _ _ _ _ _ _ _ h0 hf hc; ⟨h1, fun _ => h1, h2, h3⟩) f R

theorem findIter_length (p : Bytes) : ∀ (l : Bytes) (skip i : Nat), (findIter p skip i l).length ≤ l.length
  | [], skip, i => by simp [findIter]
  | b :: l, skip + 1, i => by
    have := findIter_length p l skip (i + 1)
    rw [findIter, List.length_cons]
    omega
  | b :: l, 0, i => by
    have h1 := findIter_length p l (p.length - 1) (i + 1)
    have h2 := findIter_length p l 0 (i + 1)
    rw [findIter]
    split <;> simp only [List.length_cons] <;> omega

namespace ExactMatchSlicer

/-- The slicer between two rounds: everything found has been passed on. -/
structure AtRest (S : ByteSrc σ) (B : Nat) (p : Bytes) (s₀ : σ) (st : ExactMatchSlicer σ) : Prop where
  src : Visited S B p.length s₀ st.src
  segments : st.segments = []
  scanned : st.scanned = 0
  pattern : st.pattern = p

theorem sparing {S : ByteSrc σ} {B N : Nat} {p : Bytes} {s₀ : σ} (hN : ∀ s n e, LentTo S B p.length s₀ s n e → n ≤ N) (hL : ∀ s n, LentTo S B p.length s₀ s n false → p.length ≤ n) :
    (segSrc S B).Sparing (AtRest S B p s₀) N p.length := by
  rintro st st1 st2 eof bytes count cap r ⟨h1, h2, h3, h4⟩ hf hc
  simp only [segSrc, fill, h2, h3, h4, List.nil_append, Nat.zero_add, List.drop_zero] at hf hc
  split at hf
  · cases hf
  · rename_i e n src hsf
    have hlent : LentTo S B p.length s₀ src n e := ⟨_, _, h1, Nat.le_refl _, hsf⟩
    have hn := hN _ _ _ hlent
    split at hf
    · cases hf
      simp only [Nat.min_self] at hc
      split at hc
      · cases hc
      · rename_i src2 hsc
        simp only [cutSegs, unwindAll, List.takeWhile_nil, List.drop_nil] at hc
        cases hc
        refine ⟨⟨hlent.consume (Nat.le_refl _) (fun _ => by omega) hsc, rfl, Nat.sub_self _, rfl⟩, Nat.zero_le _, ?_⟩
        intro x hx
        simp only [segSrc] at hx
        cases hx
    · rename_i hp
      have hp : p ≠ [] := fun h => hp (by rw [h]; rfl)
      have hp0 : 0 < p.length := List.length_pos_iff.2 hp
      split at hf
      · cases hf
      · rename_i hlen
        have hlt : ((S.slice src).take n).length = n := by
          rw [List.length_take]
          omega
        cases hf
        simp only [Nat.min_self] at hc
        have hscan : (if eof then bytes else holdBack bytes p.length) ≤ bytes ∧ bytes - (if eof then bytes else holdBack bytes p.length) ≤ p.length ∧
            bytes + 1 ≤ (if eof then bytes else holdBack bytes p.length) + p.length := by
          cases eof with
          | true => exact ⟨Nat.le_refl _, by simp, by simp; omega⟩
          | false =>
            have := hL _ _ hlent
            simp only [Bool.false_eq_true, if_false, holdBack, if_pos (show p.length ≤ bytes + 1 by omega)]
            omega
        generalize (if eof then bytes else holdBack bytes p.length) = sc at hc hscan
        split at hc
        · cases hc
        · rename_i src2 hsc
          have hcut := cutSegs_split sc ((findIter p 0 0 ((S.slice src).take bytes)).map fun pos => ({ pos := pos, len := p.length } : Seg)) [] (by
            intro x hx
            obtain ⟨j, hj, rfl⟩ := List.mem_map.1 hx
            have := ((findIter_sound p hp ((S.slice src).take bytes) 0 0).1 j hj).2.length_le
            rw [List.length_drop, hlt] at this
            simp only
            omega) (by simp)
          rw [List.append_nil] at hcut
          rw [hcut] at hc
          cases hc
          refine ⟨⟨hlent.consume hscan.1 (fun _ => hscan.2.1) hsc, rfl, Nat.sub_self _, rfl⟩, ?_, ?_⟩
          · rw [List.length_map]
            exact Nat.le_trans (findIter_length _ _ _ _) (by omega)
          · intro x hx
            simp only [segSrc] at hx
            obtain ⟨j, _, rfl⟩ := List.mem_map.1 hx
            exact Nat.le_refl _

end ExactMatchSlicer
end Nd
