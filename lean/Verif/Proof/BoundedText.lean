import Verif.Proof.Bounded
import Verif.Proof.Stride
import Verif.Proof.Ample
import Verif.Model.Scatter
/-!
# The sizes of the buffers between a stream and the printed slices
-/
namespace Nd

/-- The states a client leaves a stream in are among those that the contract of the stream describes. -/
theorem Visited.related {S : ByteSrc σ} {F : Err → Prop} {M : Bytes → Prop} {R : σ → Phase → Nat → Bytes → Prop} (h : Serves S F M R) {Q K w : Nat} {s₀ s : σ} {rem : Bytes} (h₀ : R s₀ (.idle 1) w rem)
    (hv : Visited S Q K s₀ s) : ∃ ph w rem, R s ph w rem := by
  have hfill : ∀ {s s' req eof n}, (∃ ph w rem, R s ph w rem) → S.fill s req = .ok ((eof, n), s') → ∃ w rem, R s' (.lent n) w rem := by
    intro s s' req eof n ⟨ph, w, rem, hR⟩ hf
    rcases h.fill _ _ _ _ req hR with ⟨_, _, he⟩ | ⟨eof', n', w', s'', he, hR', -⟩
    · rw [hf] at he
      cases he
    · rw [hf] at he
      cases he
      exact ⟨_, _, hR'⟩
  induction hv with
  | start => exact ⟨_, _, _, h₀⟩
  | idle _ _ hf _ ih =>
    obtain ⟨w, rem, hR⟩ := hfill ih hf
    exact ⟨_, _, _, hR⟩
  | round _ _ hf hk _ hc ih =>
    obtain ⟨w, rem, hR⟩ := hfill ih hf
    obtain ⟨s', w', g1, g2, _⟩ := h.consume _ _ _ _ _ hR hk
    rw [hc] at g1
    cases g1
    exact ⟨_, _, _, g2⟩

/-- Such a client is lent at least as much as the stream promises. -/
theorem LentTo.ample {S : ByteSrc σ} {F : Err → Prop} {M : Bytes → Prop} {L Q K w n : Nat} {s₀ s : σ} {rem : Bytes} (h : ServesAmply S F M L s₀ w rem) (hv : LentTo S Q K s₀ s n false) : L ≤ n := by
  obtain ⟨R, E, h1, h2, h3, _⟩ := h
  obtain ⟨s', req, g1, _, g2⟩ := hv
  obtain ⟨ph, w, rem, hR⟩ := g1.related h1 h3
  exact (h2.fill _ _ _ _ _ _ _ _ hR g2).1 rfl

namespace Format

/-- Each line fits into the region reserved for it. -/
theorem segment_length {style : Style} {offset minWidth W : Nat} {stream line : Bytes} {s : Seg} (hs : s.len ≤ W) (h : segment style offset minWidth stream s = .ok line) :
    line.length ≤ reserve (max minWidth W) := by
  have hmono : reserve (max minWidth s.len) ≤ reserve (max minWidth W) := by
    unfold reserve
    omega
  unfold segment at h
  split at h
  · cases h
  · split at h
    · cases h
      unfold Seg.bytes reserve
      rw [List.length_take]
      omega
    · simp only at h
      split at h
      · cases h
      · cases h
        omega
    · simp only at h
      split at h
      · cases h
      · cases h
        omega

theorem segments_length {style : Style} {offset minWidth W : Nat} {stream : Bytes} : ∀ (segs : List Seg), (∀ s ∈ segs, s.len ≤ W) → ∀ out, segments style offset minWidth stream segs = .ok out →
    out.length ≤ segs.length * reserve (max minWidth W)
  | [], _, out, h => by
    cases h
    simp
  | s :: rest, hs, out, h => by
    unfold segments at h
    split at h
    · cases h
    · rename_i line hl
      split at h
      · cases h
      · rename_i out' ho
        cases h
        have h1 := segment_length (hs s (by simp)) hl
        have h2 := segments_length rest (fun x hx => hs x (by simp [hx])) _ ho
        rw [List.length_append, List.length_cons, Nat.add_mul, Nat.one_mul]
        omega

end Format

namespace ConstSegments

theorem Inv.anyLength {s : ConstSegments} {base : Int} {P S M esc n : Nat} (h : s.Inv base P S M esc n false) (m : Nat) : s.Inv base P S M esc m false :=
  ⟨h.pitch, h.span, h.margin, h.res, h.P_pos, h.M_pos, h.M_le, h.base_eq, h.off, h.tail_pos, h.margin_ok, h.steps, fun hb => by simpa using h.head hb, h.headOff, h.esc_le, h.first, h.cached, h.eof_eq⟩

/-- Slices are added only if they fit. -/
theorem Inv.fill_segments {s s' : ConstSegments} {base : Int} {P S M esc n : Nat} (h : s.Inv base P S M esc n false) {len : Nat} (hgt : (len : Int) < base + s.segments.length * P + S + P)
    (hf : s.fill false len = .ok s') : s'.segments = s.segments := by
  unfold fill at hf
  rw [if_neg (by simp), h.nextTail (h.cached rfl)] at hf
  simp only at hf
  have htp := h.tail_pos
  have h0 : 0 ≤ (s.segments.length : Int) * P := Int.mul_nonneg (by omega) (by omega)
  rw [if_neg (by rw [h.res]; omega)] at hf
  split at hf
  · cases hf
    rfl
  · split at hf
    · cases hf
      rfl
    · cases hf

/-- The slices remembered after a fill. -/
theorem Inv.fill_few {s s' : ConstSegments} {base : Int} {P S M esc n : Nat} (h : s.Inv base P S M esc n false) {len N : Nat} (hL : base + S ≤ len + P) (hN : len ≤ N) (hs : s.segments.length ≤ N / P + 1)
    (hf : s.fill false len = .ok s') : s'.segments.length ≤ N / P + 1 := by
  obtain ⟨cnt, m, s1, e1, -, -, e4, -, -, -, -, -, e5⟩ := h.fill_more len hL
  rw [hf] at e1
  cases e1
  have htp := h.tail_pos
  by_cases hc : base + s.segments.length * P + S ≤ len
  · have := e5 hc
    have h3 : ((m * P : Nat) : Int) = (m : Int) * P := by rw [Int.natCast_mul]
    have : m ≤ N / P := (Nat.le_div_iff_mul_le h.P_pos).2 (by omega)
    rw [e4, List.length_map, List.length_range]
    omega
  · rw [h.fill_segments (by omega) hf]
    exact hs

/-- A consume adds no slices. -/
theorem consume_few {s s' : ConstSegments} {k : Nat} {r : Nat × Nat} (h : s.consume k = .ok (r, s')) : s'.segments.length ≤ s.segments.length := by
  unfold consume at h
  split at h
  · cases h
    exact Nat.le_refl _
  · have hc : (if 0 < s.minEscape then { s with minEscape := 0, segments := [] } else s).segments.length ≤ s.segments.length := by
      split
      · exact Nat.zero_le _
      · exact Nat.le_refl _
    revert h hc
    generalize (if 0 < s.minEscape then { s with minEscape := 0, segments := [] } else s) = t
    intro h hc
    simp only at h
    split at h
    · cases h
      exact hc
    · split at h
      · cases h
      · cases h
        simp only
        split
        · exact Nat.zero_le _
        · exact hc

end ConstSegments

namespace ConstSlicer
open ConstSegments

/-- The slicer has asked the stream for at most `W + esc + P + 1` bytes at once, has left at most `W + esc + 2 P` bytes, and remembers few slices. -/
structure Spent (S : ByteSrc σ) (s₀ : σ) (P W esc N : Nat) (st : ConstSlicer σ) : Prop where
  src : Visited S (W + esc + P + 1) (W + esc + 2 * P) s₀ st.src
  few : st.segs.segments.length ≤ N / P + 1

/-- The slicer between two rounds. -/
structure AtRest (S : ByteSrc σ) (s₀ : σ) (P W M esc N : Nat) (st : ConstSlicer σ) : Prop where
  spent : st.Spent S s₀ P W esc N
  segs : ∃ base, Inv st.segs base P W M esc 0 false

theorem AtRest.round {S : ByteSrc σ} {s₀ : σ} {P W M esc N : Nat} {st st1 st2 : ConstSlicer σ} (h : st.AtRest S s₀ P W M esc N)
    (hN : ∀ s n e, LentTo S (W + esc + P + 1) (W + esc + 2 * P) s₀ s n e → n ≤ N)
    (hL : ∀ s n, LentTo S (W + esc + P + 1) (W + esc + 2 * P) s₀ s n false → W + esc + P + 1 ≤ n) {eof : Bool} {bytes count cap k c : Nat}
    (hf : (segSrc S).fill st = .ok ((eof, bytes, count, cap), st1)) (hc : (segSrc S).consume st1 cap = .ok ((k, c), st2)) :
    st2.Spent S s₀ P W esc N ∧ (eof = false → st2.AtRest S s₀ P W M esc N) ∧ count ≤ N / P + 1 ∧
    ∀ x ∈ ((segSrc S).slices st1).2, x.len ≤ W := by
  obtain ⟨⟨h1, hfew⟩, base, hI⟩ := h
  have hP := hI.P_pos
  have htp := hI.tail_pos
  have hmo := hI.margin_ok
  have hreq : st.segs.minFillLen ≤ W + esc + P + 1 := by
    have := hI.esc_le.1
    unfold minFillLen
    rw [hI.span, hI.res]
    omega
  unfold segSrc at hf hc ⊢
  simp only at hf hc ⊢
  split at hf
  · cases hf
  · rename_i e len src hsf
    have hlent : LentTo S (W + esc + P + 1) (W + esc + 2 * P) s₀ src len e := ⟨_, _, h1, hreq, hsf⟩
    have hlen := hN _ _ _ hlent
    have hdiv : ∀ n, n * P < len + P → n ≤ N / P + 1 := by
      intro n hn
      have := (Nat.div_le_div_right hlen : len / P ≤ N / P)
      have : n ≤ (len + P) / P := (Nat.le_div_iff_mul_le hP).2 (by omega)
      rw [Nat.add_div_right _ hP] at this
      omega
    split at hf
    · cases hf
    · rename_i sg hsg
      cases hf
      simp only at hc ⊢
      split at hc
      · cases hc
      · rename_i k c sg2 hcs
        split at hc
        · cases hc
        · rename_i src2 hsc
          cases hc
          cases eof with
          | true =>
            have hI' : Inv st.segs base P W M esc bytes false := hI.anyLength bytes
            obtain ⟨s', e1, e2, e3, e4, e5⟩ := hI'.fill_eof
            rw [hsg] at e1
            cases e1
            rw [e3] at hcs ⊢
            simp only at hcs ⊢
            obtain ⟨k', c', s'', base', q1, q2, q3, -⟩ := e4.consume bytes _ bytes e3 (Nat.le_refl _) (Nat.le_refl _) (fun _ => ⟨rfl, rfl, e5⟩) (by simp)
            rw [hcs] at q1
            cases q1
            have hcount : ccount base P M bytes ≤ N / P + 1 := by
              apply hdiv
              by_cases h0 : ccount base P M bytes = 0
              · rw [h0]; omega
              · have := (lt_ccount (base := base) (M := M) (n := bytes) (j := ccount base P M bytes - 1) hP).1 (by omega)
                have h2 : ccount base P M bytes * P = (ccount base P M bytes - 1) * P + P := by
                  rw [← Nat.succ_mul]
                  congr 1
                  omega
                have h3 : (((ccount base P M bytes - 1) * P : Nat) : Int) = ((ccount base P M bytes - 1 : Nat) : Int) * P := by rw [Int.natCast_mul]
                omega
            refine ⟨⟨hlent.consume q2 (by simp) hsc, ?_⟩, by simp, hcount, ?_⟩
            · have := consume_few hcs
              rw [e2, comb_length] at this
              simp only
              omega
            · intro x hx
              have hx := List.mem_of_mem_take hx
              rw [e2] at hx
              obtain ⟨j, hj, rfl⟩ := comb_mem.1 hx
              have := (lt_ccount hP).1 hj
              have h0 : 0 ≤ (j : Int) * P := Int.mul_nonneg (by omega) (by omega)
              simp only [cseg]
              omega
          | false =>
            have hl := hL _ _ hlent
            have hcur := hI.first
            have hbe := hI.base_eq
            obtain ⟨cnt, m, s', e1, e2, e3, e4, e5, e6, e7, e8, -, -⟩ := hI.fill_more bytes (by omega)
            rw [hsg] at e1
            cases e1
            rw [e2] at hcs ⊢
            simp only at hcs ⊢
            have hcc : cnt ≤ ccount base P M bytes := by
              by_cases h0 : cnt = 0
              · omega
              · have h2 : (cnt : Int) * P = ((cnt - 1 : Nat) : Int) * P + P := by rw [← succ_mul_int]; congr 2; omega
                have := (lt_ccount (base := base) (M := M) (n := bytes) (j := cnt - 1) hP).2 (by have := hI.M_le; have := e5 (by omega); omega)
                omega
            have hme := hI.esc_le.1
            obtain ⟨k', c', s'', base', q1, q2, q3, q4, q5, q6, q7, q8, q9, q10, q11⟩ := (e8.anyLength bytes).consume _ _ _ e2 hcc (by omega) (by simp) (fun _ => ⟨by omega, by omega, Nat.le_refl _⟩)
            rw [hcs] at q1
            cases q1
            have hkeep : bytes - k ≤ W + esc + 2 * P := by
              rcases q11 rfl with ⟨p1, _⟩ | ⟨p1, p2, p3, p4, _⟩
              · omega
              · omega
            have hv := hlent.consume (by omega) (fun _ => hkeep) hsc
            have hsp : Spent S s₀ P W esc N { src := src2, segs := sg2 } := ⟨hv, Nat.le_trans (consume_few hcs) (hI.fill_few (by omega) hlen hfew hsg)⟩
            refine ⟨hsp, fun _ => ⟨hsp, base', q7.anyLength 0⟩, ?_, ?_⟩
            · apply hdiv
              by_cases h0 : cnt = 0
              · rw [h0]; omega
              · have := e5 (by omega)
                have h3 : ((cnt * P : Nat) : Int) = (cnt : Int) * P := by rw [Int.natCast_mul]
                omega
            · intro x hx
              have hx := List.mem_of_mem_take hx
              rw [e4] at hx
              obtain ⟨j, -, rfl⟩ := List.mem_map.1 hx
              have h0 : 0 ≤ (j : Int) * P := Int.mul_nonneg (by omega) (by omega)
              simp only [useg]
              omega

end ConstSlicer

namespace ScatterDrain

/-- The drain prints a bounded amount each time. -/
theorem feed_adds {S : ByteSrc σ} {s₀ : σ} {P W M esc N : Nat} (f : Formatting) (R : Nat)
    (hN : ∀ s n e, LentTo S (W + esc + P + 1) (W + esc + 2 * P) s₀ s n e → n ≤ N)
    (hL : ∀ s n, LentTo S (W + esc + P + 1) (W + esc + 2 * P) s₀ s n false → W + esc + P + 1 ≤ n) :
    StreamBuf.Adds (feed (ConstSlicer.segSrc S) f) (fun d _ => d.src.AtRest S s₀ P W M esc N) (fun d _ => d.src.Spent S s₀ P W esc N)
      ((N / P + 1) * Format.reserve (max f.minWidth W)) R := by
  intro d req buf eof buf' d' hd _ h
  unfold feed at h
  split at h
  · cases h
  · rename_i isEof bytes count maxc src hf
    simp only at h
    split at h
    · cases h
    · rename_i segs hfresh
      split at h
      · cases h
      · rename_i text htext
        split at h
        · cases h
        · rename_i d2 hadv
          cases h
          unfold advance at hadv
          split at hadv
          · cases hadv
          · rename_i k c src2 hc
            split at hadv
            · cases hadv
            · cases hadv
              obtain ⟨g1, g2, g3, g4⟩ := hd.round hN hL hf hc
              unfold fresh at hfresh
              split at hfresh
              · cases hfresh
                have hlen : ((((ConstSlicer.segSrc S).slices src).2.take count).drop d.srcConsumed).length ≤ N / P + 1 := by
                  rw [List.length_drop, List.length_take]
                  omega
                have : text.length ≤ ((((ConstSlicer.segSrc S).slices src).2.take count).drop d.srcConsumed).length * Format.reserve (max f.minWidth W) :=
                  Format.segments_length _ (fun x hx => g4 x (List.mem_of_mem_take (List.mem_of_mem_drop hx))) _ htext
                have := Nat.mul_le_mul_right (Format.reserve (max f.minWidth W)) hlen
                rw [List.length_append]
                refine ⟨by omega, by omega, ?_⟩
                cases eof
                · exact g2 rfl
                · exact g1
              · cases hfresh

theorem through_rests {S : ByteSrc σ} (B Q K C N : Nat) (p : ConstSlicerParams) (hp : ConstSlicer.ParamsOk p) (s₀ : σ) {st : ConstSlicer σ} (h : ConstSlicer.new s₀ p = .ok st) :
    (through B st).Rests B Q K C 1 (fun d => d.src.AtRest S s₀ p.pitch p.span (p.tail + p.span).toNat (ConstSlicer.escape p) N)
      fun d => d.src.Spent S s₀ p.pitch p.span (ConstSlicer.escape p) N := by
  obtain ⟨st', h1, h2, h3, h4, h5⟩ := ConstSlicer.new_inv p hp s₀ 0
  rw [h] at h1
  cases h1
  refine ⟨StreamBuf.Small.new _ _ _ _ _ _ (by decide), rfl, ?_⟩
  simp only [through, StreamBuf.new, StreamBuf.newWithAlign, Bool.false_eq_true, if_false, new]
  exact ⟨⟨by rw [h2]; exact .start, by rw [h3]; exact Nat.zero_le _⟩, _, h5⟩

end ScatterDrain
end Nd
