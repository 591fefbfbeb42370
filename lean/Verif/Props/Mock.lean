import Verif.Model.Mock
import Verif.Proof.Stream
/-!
# C01: the stream that the unit tests read from
-/
namespace Nd.Props
open Nd

/-- The stream, before clients that ask for at least one byte. -/
def asking (S : ByteSrc σ) : ByteSrc σ := { S with fill := fun s request => S.fill s (request + 1) }

/-- The invariant: `offset` bytes of the content have been consumed, and `chunkLen` more are lent. -/
def mockRel (content : Bytes) (s : MockSource) (ph : Phase) (w : Nat) (rem : Bytes) : Prop :=
  s.v = content ++ List.replicate MARGIN 10 ∧ s.len = content.length ∧ s.offset + s.chunkLen ≤ content.length ∧ rem = content.drop s.offset ∧ w = content.length - (s.offset + s.chunkLen) ∧
  match ph with
  | .idle lb => lb ≤ max 1 s.chunkLen
  | .lent n => n = s.chunkLen

theorem mock_faithful (B : Nat) (draw : Nat → Nat) (content : Bytes) : Faithful (asking (MockSource.byteSrc B draw)) NoErr AnyMargin (mockRel content) where
  fill s ph w rem req h := by
    obtain ⟨hv, hl, hle, rfl, rfl, hph⟩ := h
    have hslice : ∀ n, s.offset + n ≤ content.length → ∃ m, AnyMargin m ∧ (s.v.drop s.offset).take (n + MARGIN) = (content.drop s.offset).take n ++ m := by
      intro n hn
      refine ⟨((s.v.drop s.offset).drop n).take MARGIN, ?_, ?_⟩
      · simp [AnyMargin, hv]
        omega
      · rw [List.take_add, hv, List.drop_append_of_le_length (by omega), List.take_append_of_le_length (by simp; omega)]
    refine Or.inr ?_
    by_cases hend : s.len ≤ s.offset
    · refine ⟨true, 0, _, s, by simp [asking, MockSource.byteSrc, hend], ⟨hv, hl, hle, rfl, rfl, by simp only; omega⟩, by simp, by simp, ?_, by simp, Nat.le_refl _, by simp⟩
      intro _
      simp
      omega
    · have hfill : (asking (MockSource.byteSrc B draw)).fill s req = s.genLen B draw (req + 1) := by simp [asking, MockSource.byteSrc, hend]
      rw [hfill]
      unfold MockSource.genLen
      rw [if_neg (by omega), if_neg (by omega)]
      generalize draw s.draws % (max (req + 1) (2 * B) - (req + 1) + 1) = x
      have hc : s.offset + (s.chunkLen + min (req + 1 + x) (s.len - (s.offset + s.chunkLen))) ≤ content.length := by omega
      refine ⟨_, _, _, _, rfl, ⟨hv, hl, hc, rfl, rfl, rfl⟩, by simp; omega, fun _ => hslice _ hc, ?_, ?_, by simp only; omega, ?_⟩
      · intro he
        have := of_decide_eq_true he
        simp
        omega
      · intro he
        have := of_decide_eq_false he
        refine ⟨by omega, ?_⟩
        cases ph with
        | idle lb => simp only [Phase.lb] at *; omega
        | lent n => simp only [Phase.lb] at *; omega
      · intro he _
        have := of_decide_eq_false he
        simp only
        omega
  consume s n w rem k h hk := by
    obtain ⟨hv, hl, hle, rfl, rfl, hph⟩ := h
    simp only at hph
    subst hph
    refine ⟨_, _, if_pos hk, ⟨hv, hl, by simp only; omega, by simp [List.drop_drop], rfl, ?_⟩, by simp only; omega⟩
    simp only [Phase.afterConsume]
    split <;> omega
  nudge s lb w rem h := by
    obtain ⟨hv, hl, hle, rfl, rfl, hph⟩ := h
    exact ⟨s, _, by simp [asking, MockSource.byteSrc], ⟨hv, hl, hle, rfl, rfl, hph⟩, Nat.le_refl _⟩

/-- **C01** (the source of the unit tests): whatever numbers are drawn, it carries its pattern, and its assertions hold, before every client that asks for at least one byte. -/
theorem C01_mock (B : Nat) (draw : Nat → Nat) (pattern : Bytes) : Reads (asking (MockSource.byteSrc B draw)) NoErr (MockSource.new pattern) pattern :=
  Delivers.reads (M := AnyMargin) (w := pattern.length) ⟨mockRel pattern, mock_faithful B draw pattern, rfl, rfl, by simp [MockSource.new], rfl, by simp [MockSource.new], by simp [MockSource.new]⟩

/-- **C01** (the source of the unit tests as a file): while bytes are left, a read into a buffer that is not empty returns the next bytes, at least one of them. -/
theorem C01_mock_read (B : Nat) (draw : Nat → Nat) (content : Bytes) (room : Nat) (s : MockSource) (hv : s.v = content ++ List.replicate MARGIN 10) (hl : s.len = content.length) :
    ∃ k s', s.read B draw room = .ok ((content.drop s.offset).take k, s') ∧ k ≤ room ∧ s'.offset = s.offset + k ∧ s'.v = s.v ∧ s'.len = s.len ∧ (0 < room → s.offset < content.length → 0 < k) := by
  unfold MockSource.read
  by_cases hend : s.len ≤ s.offset
  · rw [if_pos hend]
    exact ⟨0, s, by simp, by omega, rfl, rfl, rfl, fun _ _ => by omega⟩
  · rw [if_neg hend]
    unfold MockSource.genLen
    simp only [Nat.add_zero]
    rw [if_neg (by omega), if_neg (by decide)]
    simp only
    have hsrc : (s.v.drop s.offset).take (s.len - s.offset) = content.drop s.offset := by
      rw [hv, List.drop_append_of_le_length (by omega), List.take_append_of_le_length (by simp; omega), List.take_of_length_le (by simp; omega)]
    rw [hsrc]
    refine ⟨_, _, rfl, by omega, rfl, rfl, rfl, fun h1 h2 => ?_⟩
    simp only [List.length_drop]
    omega

/-- Five bytes, lent in two steps. -/
example : ∃ s, (asking (MockSource.byteSrc 1 fun _ => 0)).fill (MockSource.new [1, 2, 3, 4, 5]) 1 = .ok ((false, 2), s) ∧ ((asking (MockSource.byteSrc 1 fun _ => 0)).slice s).take 2 = [1, 2] :=
  ⟨_, rfl, by decide +kernel⟩

/-- The same bytes, read into a buffer of three bytes after the first one. -/
example : ∃ s', ({ MockSource.new [1, 2, 3, 4, 5] with offset := 1 }.read 145 (fun _ => 99) 3) = .ok ([2, 3, 4], s') ∧ s'.offset = 4 := ⟨_, rfl, rfl⟩

/-- A client that asks for nothing fails an assertion of the source. -/
example : (match (MockSource.byteSrc 145 fun _ => 0).fill (MockSource.new [1]) 0 with | .error e => some e | .ok _ => none) = some .panic := by decide +kernel

end Nd.Props
