import Verif.Proof.Bounded
import Verif.Model.Record
/-!
# The sizes of the buffers of `--patch`

`PatchStream` takes everything it is lent, except when the end of a record lies within what it is lent next: then it leaves the rest once, and takes everything of the next time.
-/
namespace Nd

/-- From the states `W`, a client may ask for up to `Q` bytes: it is lent at most `C` bytes, and when it takes them all, it finds the stream in a state `I`.  The buffers, whose contents are counted by `H`, hold at most `L` bytes. -/
structure Tier (S : ByteSrc σ) (Q C L : Nat) (H : σ → Nat) (W I : σ → Prop) : Prop where
  sub : ∀ s, I s → W s
  fill : ∀ s s' req eof n, W s → req ≤ Q → S.fill s req = .ok ((eof, n), s') → n ≤ C ∧ n ≤ (S.slice s').length ∧ H s' ≤ L ∧ ∀ s'', S.consume s' n = .ok s'' → I s''

/-- A stream whose buffers stay small before a client that takes everything it is lent, or leaves something once and then takes everything of the next time. -/
structure Settles (S : ByteSrc σ) (Q₀ C₀ Q₁ C₁ L : Nat) (H : σ → Nat) (I J : σ → Prop) : Prop where
  rest : ∀ s, I s → H s ≤ L
  first : Tier S Q₀ C₀ L H I I
  all : Tier S Q₁ C₁ L H J I
  part : ∀ s s' s'' req eof n k, I s → req ≤ Q₀ → S.fill s req = .ok ((eof, n), s') → k ≤ n → S.consume s' k = .ok s'' → J s''
  idle : ∀ s s' req eof n, I s → req ≤ Q₀ → S.fill s req = .ok ((eof, n), s') → J s'

namespace StreamBuf

/-- After everything has been consumed, the buffer is as small as if nothing had ever been left. -/
theorem Small.settle {B Q C : Nat} {s : StreamBuf} (ha : 0 < s.align) (hm : s.buf.length = s.len + MARGIN) (hp : s.pos ≤ s.len) (he : s.isEof = false) : (s.consume B (s.len - s.pos)).Small B Q 0 C := by
  have hmin : min (s.pos + (s.len - s.pos)) s.buf.length = s.len := by omega
  unfold StreamBuf.consume
  simp only [hmin]
  rw [if_neg (by simp [he])]
  have hlog := nextPow2_le (s.len + (s.len + 1) / 2)
  have hlog' := nextPow2_le (s.len - s.len + (s.len - s.len + 1) / 2)
  by_cases hth : s.len ≥ min (7 * s.buf.length / 8) (8 * B)
  · rw [if_pos hth]
    by_cases h0 : s.len - s.pos = 0
    · rw [if_pos h0]
      refine ⟨ha, by simp only [List.length_drop]; omega, by simp only; omega, by simp only; omega, by simp only; omega, ?_⟩
      simp only [he, Bool.false_eq_true, if_false]
      omega
    · rw [if_neg h0]
      refine ⟨ha, by simp only [List.length_drop]; omega, by simp only; omega, by simp only; omega, by simp only; omega, ?_⟩
      simp only [he, Bool.false_eq_true, if_false]
      omega
  · rw [if_neg hth]
    by_cases h0 : s.len - s.pos = 0
    · rw [if_pos h0]
      refine ⟨ha, hm, by simp only; omega, by simp only; omega, by simp only; omega, ?_⟩
      simp only [he, Bool.false_eq_true, if_false]
      omega
    · rw [if_neg h0]
      refine ⟨ha, hm, by simp only; omega, by simp only; omega, by simp only; omega, ?_⟩
      simp only [he, Bool.false_eq_true, if_false]
      omega

theorem Small.more {B Q Q' K K' C : Nat} {s : StreamBuf} (h : s.Small B Q K C) (hQ : Q ≤ Q') (hK : K ≤ K') : s.Small B Q' K' C := by
  refine ⟨h.align, h.margin, h.pos, h.back, by have := h.target; omega, ?_⟩
  have := h.len
  split at this <;> rename_i he
  · rw [if_pos he]
    unfold limit at *
    omega
  · rw [if_neg he]
    omega

end StreamBuf

theorem Buffered.Rests.more {B Q Q' K K' C align : Nat} {P Z : τ → Prop} {s : Buffered τ} (h : s.Rests B Q K C align P Z) (hQ : Q ≤ Q') (hK : K ≤ K') : s.Rests B Q' K' C align P Z := ⟨h.small.more hQ hK, h.align, h.inner⟩

/-- The end has been reported and everything has been taken; the buffer is not larger than it was. -/
def Buffered.Done (L : Nat) (s : Buffered τ) : Prop := s.buf.isEof = true ∧ s.buf.len ≤ s.buf.pos ∧ s.buf.len ≤ s.buf.buf.length ∧ s.buf.buf.length ≤ L

theorem Buffered.Done.fill {B fuel L req n : Nat} {f : StreamBuf.Closure τ} {s s' : Buffered τ} {eof : Bool} (hd : s.Done L) (h : (bufferedSrc B fuel f).fill s req = .ok ((eof, n), s')) : n = 0 ∧ s' = s := by
  unfold bufferedSrc StreamBuf.fillBuf at h
  simp only [hd.1, if_true] at h
  cases h
  exact ⟨by have := hd.2.1; omega, rfl⟩

theorem Buffered.Done.consume {B fuel L : Nat} {f : StreamBuf.Closure τ} {s s' : Buffered τ} (hd : s.Done L) (h : (bufferedSrc B fuel f).consume s 0 = .ok s') : s'.Done L := by
  cases h
  obtain ⟨h1, h2, h3, h4⟩ := hd
  unfold StreamBuf.consume Buffered.Done
  simp only [h1, if_true]
  exact ⟨trivial, by omega, h3, h4⟩

theorem Buffered.tier {B fuel Q₀ Q K C R L align : Nat} {f : StreamBuf.Closure τ} {P Z : τ → Prop} (hf : StreamBuf.Adds f (fun t _ => P t) (fun t _ => Z t) C R) (hQ : Q₀ ≤ Q) (hR : StreamBuf.limit B Q K 0 0 < R)
    (hL : StreamBuf.limit B Q K C align + MARGIN ≤ L) :
    Tier (bufferedSrc B fuel f) Q (StreamBuf.limit B Q K C align) L (fun s => s.buf.buf.length) (fun s => s.Rests B Q K C align P Z ∨ s.Done L) (fun s => s.Rests B Q₀ 0 C align P Z ∨ s.Done L) := by
  refine ⟨fun s hs => hs.imp (fun h => h.more hQ (Nat.zero_le _)) id, ?_⟩
  intro s s' req eof n hd hreq h
  rcases hd with hd | hd
  · obtain ⟨g1, g2, g3, g4, g5⟩ := hd.fill hf hR hreq h
    refine ⟨g2, g3, by omega, fun s'' hc => ?_⟩
    obtain ⟨h1, h2, h3⟩ := hd
    unfold bufferedSrc at h hc
    simp only at h hc
    split at h
    · cases h
    · rename_i heq
      cases h
      obtain ⟨q1, q2, q3, q4, q5, q6, q7, q8, q9⟩ := h1.fill hf hR (by
        split at h3 <;> rename_i he
        · rw [if_pos he]; exact ⟨0, h3⟩
        · rw [if_neg he]; exact h3) hreq heq
      cases q2
      cases hc
      have hp := h1.pos
      have ha := h1.align
      rename_i sb t
      by_cases he : sb.isEof = true
      · right
        unfold Buffered.Done StreamBuf.consume
        simp only [he, if_true]
        exact ⟨trivial, show sb.len ≤ min (sb.pos + (sb.len - sb.pos)) sb.buf.length by omega, show sb.len ≤ sb.buf.length by omega, Nat.le_trans g1 hL⟩
      · have he : sb.isEof = false := by simpa using he
        left
        refine ⟨StreamBuf.Small.settle (s := sb) (by omega) q6 (by omega) he, ?_, ?_⟩
        · rw [(StreamBuf.consume_keeps _ _ _).1, q3, h2]
        · simp only [(StreamBuf.consume_keeps _ _ _).2, he, Bool.false_eq_true, if_false] at q1 ⊢
          exact q1
  · obtain ⟨rfl, rfl⟩ := hd.fill h
    exact ⟨Nat.zero_le _, Nat.zero_le _, hd.2.2.2, fun s'' hc => Or.inr (hd.consume hc)⟩

/-- What a buffered stream lends to such a client at most. -/
def settledLimit (B Q₀ Q₁ C align : Nat) : Nat := StreamBuf.limit B Q₁ (StreamBuf.limit B Q₀ 0 C align) C align

theorem Buffered.settles {B fuel Q₀ Q₁ C R align : Nat} {f : StreamBuf.Closure τ} {P Z : τ → Prop} (hf : StreamBuf.Adds f (fun t _ => P t) (fun t _ => Z t) C R) (hQ : Q₀ ≤ Q₁) (hR : settledLimit B Q₀ Q₁ C align < R) :
    Settles (bufferedSrc B fuel f) Q₀ (StreamBuf.limit B Q₀ 0 C align) Q₁ (settledLimit B Q₀ Q₁ C align) (settledLimit B Q₀ Q₁ C align + MARGIN) (fun s => s.buf.buf.length)
      (fun s => s.Rests B Q₀ 0 C align P Z ∨ s.Done (settledLimit B Q₀ Q₁ C align + MARGIN))
      (fun s => s.Rests B Q₁ (StreamBuf.limit B Q₀ 0 C align) C align P Z ∨ s.Done (settledLimit B Q₀ Q₁ C align + MARGIN)) := by
  have hR₁ : StreamBuf.limit B Q₁ (StreamBuf.limit B Q₀ 0 C align) 0 0 < R := by
    unfold settledLimit StreamBuf.limit at *
    omega
  have hR₀ : StreamBuf.limit B Q₀ 0 0 0 < R := by
    unfold settledLimit StreamBuf.limit at *
    omega
  have hlim : StreamBuf.limit B Q₀ 0 C align ≤ settledLimit B Q₀ Q₁ C align := by
    unfold settledLimit StreamBuf.limit
    omega
  constructor
  · rintro s (hs | hs)
    · have := hs.small.len
      have hm := hs.small.margin
      have ha := hs.align
      unfold settledLimit StreamBuf.limit
      split at this
      · unfold StreamBuf.limit at this
        omega
      · omega
    · exact hs.2.2.2
  · exact Buffered.tier hf (Nat.le_refl _) hR₀ (by omega)
  · exact Buffered.tier hf hQ hR₁ (Nat.le_refl _)
  · intro s s' s'' req eof n k hs hreq h hk hc
    rcases hs with hs | hs
    · obtain ⟨_, g2, _⟩ := hs.fill hf hR₀ hreq h
      obtain ⟨_, _, _, _, g5⟩ := (hs.more hQ (Nat.zero_le (StreamBuf.limit B Q₀ 0 C align))).fill hf hR₁ (Nat.le_trans hreq hQ) h
      exact Or.inl (g5 k s'' hk (fun _ => by omega) hc)
    · obtain ⟨rfl, rfl⟩ := hs.fill h
      obtain rfl : k = 0 := by omega
      exact Or.inr (hs.consume hc)
  · intro s s' req eof n hs hreq h
    rcases hs with hs | hs
    · obtain ⟨_, g2, _⟩ := hs.fill hf hR₀ hreq h
      obtain ⟨_, _, _, g4, _⟩ := (hs.more hQ (Nat.zero_le (StreamBuf.limit B Q₀ 0 C align))).fill hf hR₁ (Nat.le_trans hreq hQ) h
      exact Or.inl (g4 fun _ => g2)
    · obtain ⟨rfl, rfl⟩ := hs.fill h
      exact Or.inr hs

namespace PatchStream

/-- The records that can still be read replace something, by at most `D` bytes. -/
def Replacing (P : RecSrc τ) (D : Nat) (I : τ → Prop) : Prop := ∀ t o t', I t → P.read t = .ok (o, t') → I t' ∧ ∀ r, o = some r → 0 < r.span ∧ r.data.length ≤ D

/-- The record that has been read but not been used. -/
def Pending (D : Nat) (I : τ → Prop) (f : Feeder τ) : Prop := I f.src ∧ (0 < f.span ∨ f.buf = []) ∧ f.buf.length ≤ D

theorem fill_pending {P : RecSrc τ} {D : Nat} {I : τ → Prop} (hP : Replacing P D I) {f f' : Feeder τ} {eof : Bool} (hf : I f.src) (h : f.fill P = .ok (eof, f')) : Pending D I f' := by
  unfold Feeder.fill at h
  split at h
  · cases h
  · rename_i r t heq
    cases h
    have := (hP _ _ _ hf heq).2 r rfl
    exact ⟨(hP _ _ _ hf heq).1, Or.inl this.1, this.2⟩
  · rename_i heq
    cases h
    exact ⟨(hP _ _ _ hf heq).1, Or.inr rfl, Nat.zero_le _⟩

theorem mergeLoop_length {P : RecSrc τ} {D : Nat} {I : τ → Prop} (hP : Replacing P D I) : ∀ (fuel : Nat) (stream : Bytes) (f : Feeder τ) (offset skip : Nat), Pending D I f →
    ∀ eof out f' offset' skip', mergeLoop P fuel stream f offset skip = .ok (eof, out, f', offset', skip') → out.length ≤ stream.length * (D + 1) ∧ Pending D I f'
  | 0, _, _, _, _, _ => by
    intro eof out f' offset' skip' h
    cases h
  | fuel + 1, stream, f, offset, skip, hf => by
    intro eof out f' offset' skip' h
    unfold mergeLoop at h
    split at h
    · cases h
      exact ⟨Nat.zero_le _, hf⟩
    · simp only at h
      split at h
      · cases h
      · rename_i h0 h1
        generalize hF : min (offset + stream.length) f.offset - offset = F at h
        have hFle : F ≤ stream.length := by omega
        have hfwd : (stream.take F).length = F := by rw [List.length_take]; omega
        have hmul : F ≤ F * (D + 1) := Nat.le_mul_of_pos_right _ (Nat.succ_pos _)
        split at h
        · rename_i hs
          cases h
          rw [List.length_drop] at hs
          have : stream.length = F := by omega
          rw [hfwd, this]
          exact ⟨hmul, hf⟩
        · rename_i hs
          rw [List.length_drop] at hs
          split at h
          · cases h
          · rename_i span data f1 heq
            unfold feedPatch at heq
            split at heq
            · cases heq
            · rename_i f2 hfill
              split at heq
              · cases heq
              · cases heq
                have hp := fill_pending hP hf.1 hfill
                have hb := hf.2.2
                have hspan : 0 < f.span ∨ f.buf.length = 0 := hf.2.1.imp id fun h => by rw [h]; rfl
                have hrest : (stream.length - F) * (D + 1) + F * (D + 1) = stream.length * (D + 1) := by
                  rw [← Nat.add_mul]
                  congr 1
                  omega
                split at h
                · cases h
                  have : 1 * (D + 1) ≤ (stream.length - F) * (D + 1) := Nat.mul_le_mul_right _ (by omega)
                  rw [List.length_append, hfwd]
                  exact ⟨by omega, hp⟩
                · rename_i hlt
                  rw [List.length_drop] at hlt
                  split at h
                  · cases h
                  · rename_i eof1 out1 r1 hrec
                    cases h
                    obtain ⟨g1, g2⟩ := mergeLoop_length hP fuel _ _ _ _ hp _ _ _ _ _ hrec
                    rw [List.length_drop, List.length_drop] at g1
                    rw [List.length_append, List.length_append, hfwd]
                    refine ⟨?_, g2⟩
                    rcases hspan with hspan | hspan
                    · have : (stream.length - F - f.span) * (D + 1) + 1 * (D + 1) ≤ (stream.length - F) * (D + 1) := by
                        rw [← Nat.add_mul]
                        exact Nat.mul_le_mul_right _ (by omega)
                      omega
                    · have : (stream.length - F - f.span) * (D + 1) ≤ (stream.length - F) * (D + 1) := Nat.mul_le_mul_right _ (by omega)
                      omega

theorem skipLoop_settles {S : ByteSrc σ} {B C₀ C L : Nat} {H : σ → Nat} {I J : σ → Prop} (h : Settles S B C₀ B C L H I J) : ∀ (fuel : Nat) (s : σ) (skip : Nat), I s ∨ (J s ∧ skip = 0) → ∀ stop s' skip', skipLoop S B fuel s skip = .ok (stop, s', skip') →
    (stop = false → J s') ∧ (stop = true → H s' ≤ L)
  | 0, _, _, _ => by
    intro stop s' skip' hs
    cases hs
  | fuel + 1, s, skip, hI => by
    intro stop s' skip' hs
    unfold skipLoop at hs
    split at hs
    · rename_i hpos
      have hI : I s := by
        rcases hI with hI | ⟨_, h0⟩
        · exact hI
        · omega
      split at hs
      · cases hs
      · rename_i isEof len s1 hf
        split at hs
        · cases hs
          exact ⟨by simp, fun _ => (h.first.fill _ _ _ _ _ hI (Nat.le_refl _) hf).2.2.1⟩
        · simp only at hs
          split at hs
          · cases hs
          · rename_i s2 hc
            refine skipLoop_settles h fuel s2 _ ?_ _ _ _ hs
            by_cases hk : len ≤ skip
            · rw [Nat.min_eq_right hk] at hc
              exact Or.inl ((h.first.fill _ _ _ _ _ hI (Nat.le_refl _) hf).2.2.2 _ hc)
            · exact Or.inr ⟨h.part _ _ _ _ _ _ _ hI (Nat.le_refl _) hf (by omega) hc, by omega⟩
    · cases hs
      rcases hI with hI | hI
      · exact ⟨fun _ => h.all.sub _ hI, by simp⟩
      · exact ⟨fun _ => hI.1, by simp⟩

/-- What is appended to the patched stream at once. -/
theorem feed_adds {S : ByteSrc σ} {P : RecSrc τ} {B fuel C₀ C L D : Nat} {H : σ → Nat} {I J : σ → Prop} {A : τ → Prop} (h : Settles S B C₀ B C L H I J) (hP : Replacing P D A) (R : Nat) :
    StreamBuf.Adds (feed S P B fuel) (fun t _ => I t.src ∧ Pending D A t.patch) (fun t _ => H t.src ≤ L ∧ Pending D A t.patch) (C * (D + 1)) R := by
  intro t req buf eof buf' t' ht _ hf
  unfold feed at hf
  split at hf
  · cases hf
  · rename_i hs
    cases hf
    exact ⟨by omega, by omega, (skipLoop_settles h _ _ _ (Or.inl ht.1) _ _ _ hs).2 rfl, ht.2⟩
  · rename_i s skip hs
    have hs := (skipLoop_settles h _ _ _ (Or.inl ht.1) _ _ _ hs).1 rfl
    split at hf
    · cases hf
    · rename_i e len s1 hfill
      split at hf
      · cases hf
      · rename_i isEof out f offset skip1 hm
        split at hf
        · cases hf
        · rename_i s2 hc
          cases hf
          obtain ⟨g1, g2⟩ := mergeLoop_length hP _ _ _ _ _ ht.2 _ _ _ _ _ hm
          obtain ⟨g3, _, _, g4⟩ := h.all.fill _ _ _ _ _ hs (Nat.le_refl _) hfill
          have g4 := g4 s2
          have : ((S.slice s1).take len).length * (D + 1) ≤ C * (D + 1) := Nat.mul_le_mul_right _ (by rw [List.length_take]; omega)
          rw [List.length_append]
          refine ⟨by omega, by omega, ?_⟩
          split
          · exact ⟨h.rest _ (g4 hc), g2⟩
          · exact ⟨g4 hc, g2⟩

end PatchStream

end Nd
