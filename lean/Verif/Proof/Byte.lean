import Verif.Model.Byte
import Verif.Proof.StreamBuf
/-! Protocol proofs of `ZeroStream`, `CatStream`, `ZipStream`, `ClipStream` and `consume_stream`. -/
namespace Nd

/-! ## `consume_stream` -/

/-- The copy loop writes a prefix of the content, and all of it unless an error is reported. -/
theorem consumeStream_rel {S : ByteSrc σ} {F M R} (h : Faithful S F M R) (B : Nat) :
    ∀ (fuel : Nat) (s : σ) (lb w : Nat) (rem : Bytes), 1 ≤ lb → R s (.idle lb) w rem →
      w + (if rem = [] then 0 else 1) < fuel →
      (consumeStream S B fuel s).1 <+: rem ∧
      (((consumeStream S B fuel s).2 = none ∧ (consumeStream S B fuel s).1 = rem) ∨
        ∃ e, F e ∧ (consumeStream S B fuel s).2 = some e) := by
  intro fuel
  induction fuel with
  | zero => intro s lb w rem _ _ h; omega
  | succ fuel ih =>
    intro s lb w rem hlb hR hw
    unfold consumeStream
    rcases h.fill s _ w rem B hR with ⟨e, he, heq⟩ | ⟨eof, n, w', s', heq, hR', hn, hm, he, hne, hw1, hw2⟩
    · simp only [heq]; exact ⟨List.nil_prefix, Or.inr ⟨e, he, rfl⟩⟩
    · simp only [heq]
      by_cases hc : (eof && decide (n = 0)) = true
      · simp only [hc, if_true]
        simp only [Bool.and_eq_true, decide_eq_true_eq] at hc
        have : rem = [] := List.eq_nil_of_length_eq_zero (by rw [← he hc.1, hc.2])
        simp [this]
      · simp only [hc]
        obtain ⟨s'', w'', heq', hR'', hw''⟩ := h.consume _ _ _ _ n hR' (Nat.le_refl n)
        simp only [heq', slice_take hn hm]
        have hpre : ∀ {x}, x <+: rem.drop n → rem.take n ++ x <+: rem := by
          rintro x ⟨y, hy⟩; exact ⟨y, by rw [List.append_assoc, hy, List.take_append_drop]⟩
        have hn0 : n ≠ 0 := by
          intro h0
          cases eof with
          | true => simp [h0] at hc
          | false => have := (hne rfl).1; omega
        have hrem : rem ≠ [] := by intro h; rw [h] at hn; simp at hn; omega
        have hmeas : w'' + (if rem.drop n = [] then 0 else 1) < fuel := by
          rw [if_neg hrem] at hw
          cases eof with
          | true =>
            rw [if_pos (by simp; have := he rfl; omega)]; omega
          | false =>
            have := hw2 rfl trivial
            split <;> omega
        obtain ⟨h1, h2⟩ := ih s'' _ w'' (rem.drop n) (by split <;> omega) hR'' hmeas
        refine ⟨hpre h1, ?_⟩
        rcases h2 with ⟨h3, h4⟩ | h3
        · left; exact ⟨h3, by simp [h4]⟩
        · right; exact h3

/-! ## `ZeroStream` -/

namespace ZeroStream

def Rel (s : ZeroStream) (ph : Phase) (w : Nat) (rem : Bytes) : Prop :=
  rem = List.replicate (s.len - s.offset) s.filler ∧ s.nextLen ≤ s.len - s.offset ∧
  match ph with
  | .idle lb => (0 < s.len - s.offset → 1 ≤ s.nextLen ∧ lb ≤ max 1 s.nextLen) ∧
      (s.len - s.offset) * (s.len - s.offset + 1) - s.nextLen +
        (if s.nextLen < s.len - s.offset then 1 else 0) ≤ w
  | .lent n => n = s.nextLen ∧ (0 < n → s.bufLen = n + MARGIN) ∧ (0 < s.len - s.offset → 1 ≤ n) ∧
      (s.len - s.offset) * (s.len - s.offset + 1) - s.nextLen ≤ w

theorem faithful (B : Nat) (hB : 0 < B) : Faithful (byteSrc B) NoErr AnyMargin Rel where
  fill s ph w rem req hR := by
    right
    obtain ⟨hrem, hnl, hph⟩ := hR
    have hlen : rem.length = s.len - s.offset := by rw [hrem]; simp
    by_cases ho : s.offset ≥ s.len
    · have h0 : s.len - s.offset = 0 := by omega
      refine ⟨true, 0, w, { s with nextLen := 0 }, by simp only [byteSrc]; rw [if_pos ho], ⟨hrem, by simp, rfl, by simp, by simp only; omega, ?_⟩, by omega, by simp, by omega, by simp, Nat.le_refl _, by simp⟩
      simp only [h0]; omega
    · have hpos : 0 < s.len - s.offset := by omega
      have hslice : ∀ s' : ZeroStream, s'.bufLen = s.nextLen + MARGIN → s'.nextLen = s.nextLen → s'.filler = s.filler →
          ∃ m, AnyMargin m ∧ (byteSrc B).slice s' = rem.take s.nextLen ++ m := by
        intro s' h1 h2 h3
        refine ⟨List.replicate MARGIN s.filler, by simp [AnyMargin], ?_⟩
        rw [hrem, List.take_replicate, Nat.min_eq_left hnl]
        simp only [byteSrc, h1, h2, h3, List.replicate_append_replicate, List.take_replicate, Nat.min_self]
      cases ph with
      | idle lb =>
        obtain ⟨h1, h2⟩ := hph
        obtain ⟨h1, h3⟩ := h1 hpos
        by_cases hf : s.nextLen < s.len - s.offset
        · rw [if_pos hf] at h2
          refine ⟨_, s.nextLen, w - 1, { s with bufLen := s.nextLen + MARGIN }, by simp only [byteSrc]; rw [if_neg ho], ⟨hrem, hnl, rfl, fun _ => rfl, fun _ => h1, ?_⟩, by omega, fun _ => hslice _ rfl rfl rfl, ?_, ?_, by omega, ?_⟩
          · simp only; omega
          · simp; omega
          · intro _; simp only [Phase.lb]; omega
          · intro _ _; omega
        · rw [if_neg hf] at h2
          refine ⟨_, s.nextLen, w, { s with bufLen := s.nextLen + MARGIN }, by simp only [byteSrc]; rw [if_neg ho], ⟨hrem, hnl, rfl, fun _ => rfl, fun _ => h1, ?_⟩, by omega, fun _ => hslice _ rfl rfl rfl, ?_, ?_, by omega, ?_⟩
          · simp only; omega
          · simp; omega
          · simp; omega
          · simp; omega
      | lent n =>
        obtain ⟨h1, h2, h3, h4⟩ := hph
        refine ⟨_, s.nextLen, w, { s with bufLen := s.nextLen + MARGIN }, by simp only [byteSrc]; rw [if_neg ho], ⟨hrem, hnl, rfl, fun _ => rfl, fun h => h1 ▸ h3 h, h4⟩, by omega, fun _ => hslice _ rfl rfl rfl, ?_, ?_, by omega, by simp [Phase.isIdle]⟩
        · simp; omega
        · intro _; simp only [Phase.lb]; have := h3 hpos; omega
  consume s n w rem k hR hk := by
    obtain ⟨hrem, hnl, h1, h2, h3, h4⟩ := hR
    by_cases hk0 : k = 0
    · subst hk0
      refine ⟨_, w, by simp only [byteSrc]; rw [if_neg (by omega)]; simp; rfl, ⟨by simpa using hrem, by simp only; omega, ?_⟩, Nat.le_refl _⟩
      constructor
      · intro h; have := h3 h; rw [if_pos rfl]; simp only; omega
      · generalize hL : s.len - s.offset = L at *
        have : L ≤ L * (L + 1) := Nat.le_mul_of_pos_right _ (by omega)
        simp only
        split
        · have := h3 (by omega); omega
        · omega
    · refine ⟨_, w, by simp only [byteSrc]; rw [if_neg (by omega), if_neg hk0], ⟨?_, by simp only; omega, ?_⟩, Nat.le_refl _⟩
      · rw [hrem, List.drop_replicate]; simp only; congr 1; omega
      · constructor
        · intro h; rw [if_neg hk0]; simp only at h ⊢; omega
        · have e : s.len - (s.offset + k) = s.len - s.offset - k := by omega
          rw [e]
          generalize hL : s.len - s.offset = L at *
          have h5 : (L - k) * (L - k + 1) ≤ (L - 1) * L := Nat.mul_le_mul (by omega) (by omega)
          have h6 : L * (L + 1) = (L - 1) * L + 2 * L := by
            cases L with
            | zero => rfl
            | succ L => simp only [Nat.add_sub_cancel, Nat.succ_mul, Nat.mul_succ]; omega
          split
          · omega
          · omega
  nudge s lb w rem hR := by
    obtain ⟨hrem, hnl, h1, h2⟩ := hR
    refine ⟨{ s with nextLen := min (s.len - s.offset) (2 * s.nextLen) }, w, by simp only [byteSrc]; rw [if_neg (by omega)]; simp, ⟨hrem, by simp only; omega, ?_, ?_⟩, Nat.le_refl _⟩
    · intro h; simp only at h; have := h1 h; simp only; omega
    · simp only
      generalize hL : s.len - s.offset = L at *
      by_cases h0 : s.nextLen < L
      · rw [if_pos h0] at h2; split <;> omega
      · rw [if_neg h0] at h2; split <;> omega

/-- The number of non-final fills of a `ZeroStream`. -/
def fills (len : Nat) : Nat := len * (len + 1) + 1

theorem delivers (B : Nat) (hB : 0 < B) (len : Nat) (filler : Byte) :
    Delivers (byteSrc B) NoErr AnyMargin (new B len filler) (fills len) (List.replicate len filler) := by
  refine ⟨Rel, faithful B hB, by simp [new], by simp [new]; omega, ?_, ?_⟩
  · simp [new]; omega
  · show len * (len + 1) - min len B + (if min len B < len then 1 else 0) ≤ len * (len + 1) + 1
    split <;> omega

end ZeroStream

end Nd
