import Verif.Proof.Bounded
import Verif.Props.Record
/-!
# C46: text inputs whose records are short
-/
namespace Nd.Props
open Nd

/-- All records that can still be read have at most `D` bytes. -/
def ShortRecords (P : RecSrc τ) (D : Nat) (I : τ → Prop) : Prop := ∀ t o t', I t → P.read t = .ok (o, t') → I t' ∧ ∀ r, o = some r → r.data.length ≤ D

theorem gapless_adds {P : RecSrc τ} {D : Nat} {I : τ → Prop} (hP : ShortRecords P D I) (R : Nat) : StreamBuf.Adds (GaplessTextStream.feed P) (fun t _ => I t) (fun t _ => I t) D R := by
  intro t req buf eof buf' t' ht _ h
  unfold GaplessTextStream.feed at h
  split at h
  · cases h
  · rename_i heq
    cases h
    exact ⟨by omega, by omega, (hP _ _ _ ht heq).1⟩
  · rename_i r t1 heq
    cases h
    have := (hP _ _ _ ht heq).2 r rfl
    rw [List.length_append]
    exact ⟨by omega, by omega, (hP _ _ _ ht heq).1⟩

theorem yields_short {P : RecSrc τ} {F : Err → Prop} {bad : Bool} {t : τ} {recs : List Rec} {D : Nat} (h : Yields P F bad t recs) (hD : ∀ r ∈ recs, r.data.length ≤ D) : ∃ I, ShortRecords P D I ∧ I t := by
  obtain ⟨R, h1, h2⟩ := h
  refine ⟨fun t => ∃ rest, R t rest ∧ ∀ r ∈ rest, r.data.length ≤ D, ?_, recs, h1, hD⟩
  rintro t o t' ⟨rest, hr, hs⟩ hread
  rcases h2 t rest hr with ⟨e, _, he⟩ | ⟨_, t1, he, hr'⟩
  · rw [he] at hread
    cases hread
  · rw [he] at hread
    cases hread
    exact ⟨⟨_, hr', fun r hm => hs r (List.mem_of_mem_tail hm)⟩, fun r hm => hs r (List.mem_of_mem_head? hm)⟩

/-- **C46** (text inputs without positions): if the records of the text have at most `D` bytes, a client that asks for at most `Q` bytes at once and leaves at most `K` is lent a bounded number of bytes, and the buffer contains
only the margin besides. -/
theorem C46_gapless_partial (P : RecSrc τ) (B fuel Q K D align : Nat) (filler : Byte) (ha : 0 < align) {F : Err → Prop} {bad : Bool} {recs : List Rec} (src : τ) (hy : Yields P F bad src recs) (hD : ∀ r ∈ recs, r.data.length ≤ D) {s : Buffered τ} {n : Nat} {eof : Bool}
    (h : LentTo (GaplessTextStream.byteSrc P B fuel) Q K (GaplessTextStream.new B src align filler) s n eof) :
    n ≤ 24 * B + 3 * K + 6 + Q + D + align ∧ s.buf.buf.length ≤ 24 * B + 3 * K + 6 + Q + D + align + MARGIN := by
  obtain ⟨I, hP, hI⟩ := yields_short hy hD
  obtain ⟨h1, h2, _⟩ := LentTo.bounded (gapless_adds hP _) (Nat.lt_succ_self _) (⟨StreamBuf.Small.new _ _ _ _ _ _ ha, rfl, by split <;> exact hI⟩ : (GaplessTextStream.new B src align filler).Rests B Q K D align I I) h
  unfold StreamBuf.limit at h1 h2
  exact ⟨h2, h1⟩

/-- The record that has been read but not been passed on is short, too. -/
def ShortLine (D : Nat) (I : τ → Prop) (f : Feeder τ) : Prop := I f.src ∧ f.buf.length ≤ D

theorem feeder_short {P : RecSrc τ} {D : Nat} {I : τ → Prop} (hP : ShortRecords P D I) {f f' : Feeder τ} {eof : Bool} (hf : I f.src) (h : f.fill P = .ok (eof, f')) : ShortLine D I f' := by
  unfold Feeder.fill at h
  split at h
  · cases h
  · rename_i r t heq
    cases h
    exact ⟨(hP _ _ _ hf heq).1, (hP _ _ _ hf heq).2 r rfl⟩
  · rename_i heq
    cases h
    exact ⟨(hP _ _ _ hf heq).1, Nat.zero_le _⟩

theorem text_adds {P : RecSrc τ} {B D : Nat} {I : τ → Prop} (hP : ShortRecords P D I) (filler : Byte) (R : Nat) :
    StreamBuf.Adds (TextStream.feed P B filler) (fun t _ => ShortLine D I t.line) (fun t _ => ShortLine D I t.line) (B + D) R := by
  intro t req buf eof buf' t' ht _ h
  unfold TextStream.feed at h
  split at h
  · cases h
    exact ⟨by omega, by omega, ht⟩
  · simp only at h
    split at h
    · cases h
    · split at h
      · cases h
        rw [length_resize]
        exact ⟨by omega, by omega, ht⟩
      · split at h
        · cases h
        · rename_i isEof line heq
          split at h
          · cases h
          · cases h
            have h1 := feeder_short hP ht.1 heq
            have h2 := ht.2
            rw [List.length_append, length_resize]
            exact ⟨by omega, by omega, by split <;> exact h1⟩

/-- **C46** (text inputs with positions): the same, however long the gaps between the records, which are filled, and the line that is kept besides is short. -/
theorem C46_text_partial (P : RecSrc τ) (B fuel Q K D align : Nat) (filler : Byte) (ha : 0 < align) {F : Err → Prop} {bad : Bool} {recs : List Rec} (src : τ) (hy : Yields P F bad src recs) (hD : ∀ r ∈ recs, r.data.length ≤ D) {s₀ s : Buffered (TextState τ)} {n : Nat} {eof : Bool}
    (hnew : TextStream.new P B src align filler = .ok s₀) (h : LentTo (TextStream.byteSrc P B fuel filler) Q K s₀ s n eof) :
    n ≤ 25 * B + 3 * K + 6 + Q + D + align ∧ s.buf.buf.length + s.inner.line.buf.length ≤ 25 * B + 3 * K + 6 + Q + 2 * D + align + MARGIN := by
  obtain ⟨I, hP, hI⟩ := yields_short hy hD
  have h₀ : s₀.Rests B Q K (B + D) align (fun t => ShortLine D I t.line) fun t => ShortLine D I t.line := by
    unfold TextStream.new at hnew
    split at hnew
    · cases hnew
    · rename_i line heq
      cases hnew
      have : ShortLine D I line := feeder_short hP hI heq
      exact ⟨StreamBuf.Small.new _ _ _ _ _ _ ha, rfl, by split <;> exact this⟩
  obtain ⟨h1, h2, _⟩ := LentTo.bounded (text_adds hP filler _) (Nat.lt_succ_self _) h₀ h
  have h3 : s.inner.line.buf.length ≤ D := by
    obtain ⟨r, req, g1, g2, g3⟩ := h
    have : s.Rests B Q (max K n) (B + D) align (fun t => ShortLine D I t.line) fun t => ShortLine D I t.line := by
      have hv : Visited (TextStream.byteSrc P B fuel filler) Q (max K n) s₀ s :=
        (g1.mono (Nat.le_refl _) (Nat.le_max_left _ _)).idle g2 g3 fun _ => Nat.le_max_right _ _
      refine hv.rests (text_adds hP filler _) (Nat.lt_succ_self _) ?_
      exact ⟨by
        unfold TextStream.new at hnew
        split at hnew
        · cases hnew
        · cases hnew
          exact StreamBuf.Small.new _ _ _ _ _ _ ha, h₀.align, h₀.inner⟩
    have := this.inner
    split at this <;> exact this.2
  unfold StreamBuf.limit at h1 h2
  exact ⟨by omega, by omega⟩

/-- Two records of two bytes, a million bytes apart, with blocks of 4 bytes: the first fill lends 6 bytes, and never are there more than 113. -/
example : ∃ s₀, TextStream.new (listSrc false) 4 [⟨0, 2, [1, 2]⟩, ⟨1000000, 2, [3, 4]⟩] 1 0 = .ok s₀ ∧ (∃ s, LentTo (TextStream.byteSrc (listSrc false) 4 9 0) 4 0 s₀ s 6 false) ∧
    ∀ s n eof, LentTo (TextStream.byteSrc (listSrc false) 4 9 0) 4 0 s₀ s n eof → n ≤ 113 := by
  obtain ⟨s₀, h⟩ : ∃ s₀, TextStream.new (listSrc false) 4 [⟨0, 2, [1, 2]⟩, ⟨1000000, 2, [3, 4]⟩] 1 0 = .ok s₀ := ⟨_, rfl⟩
  refine ⟨s₀, h, ?_, fun s n eof hl =>
    (C46_text_partial (listSrc false) 4 9 4 0 2 1 0 (by decide) _ (listSrc_yields false _) (by decide) h hl).1⟩
  have hrun : (match TextStream.new (listSrc false) 4 [⟨0, 2, [1, 2]⟩, ⟨1000000, 2, [3, 4]⟩] 1 0 with
    | .error _ => (true, 0)
    | .ok s₀ => match (TextStream.byteSrc (listSrc false) 4 9 0).fill s₀ 4 with
      | .error _ => (true, 0)
      | .ok (r, _) => r) = (false, 6) := by decide +kernel
  rw [h] at hrun
  simp only at hrun
  split at hrun
  · cases hrun
  · rename_i r s hf
    rw [hrun] at hf
    exact ⟨s, s₀, 4, .start, Nat.le_refl _, hf⟩

/-- A thousand records of one byte without positions. -/
example : ∀ s n eof, LentTo (GaplessTextStream.byteSrc (listSrc false) 4 9) 4 0 (GaplessTextStream.new 4 (List.replicate 1000 ⟨0, 1, [7]⟩) 1 0) s n eof → n ≤ 108 := fun s n eof hl =>
  (C46_gapless_partial (listSrc false) 4 9 4 0 1 1 0 (by decide) _ (listSrc_yields false _) (fun r hr => by rw [List.eq_of_mem_replicate hr]; decide) hl).1

/-! ## `--patch` -/

/-- An insertion of one byte in front of the stream. -/
def insertion : Rec := ⟨0, 0, [7]⟩

theorem merge_inserts (stream : Bytes) (h0 : 0 < stream.length) (hu : stream.length ≤ usizeMax) : ∀ N fuel, N + 1 < fuel →
    PatchStream.mergeLoop (listSrc false) fuel stream { src := List.replicate N insertion, offset := 0, span := 0, buf := [7] } 0 0 =
      .ok (false, List.replicate (N + 1) 7 ++ stream, { src := [], offset := usizeMax, span := 0, buf := [] }, stream.length, 0)
  | 0, fuel + 2, _ => by
    have hs : stream ≠ [] := by intro h; simp [h] at h0
    simp [PatchStream.mergeLoop, PatchStream.feedPatch, Feeder.fill, listSrc, hs, Nat.min_eq_left hu]
  | N + 1, fuel + 1, hf => by
    have hs : stream ≠ [] := by intro h; simp [h] at h0
    have ih := merge_inserts stream h0 hu N fuel (by omega)
    unfold PatchStream.mergeLoop
    simp [PatchStream.feedPatch, Feeder.fill, listSrc, hs, List.replicate_succ, insertion] 
    simp [insertion, List.replicate_succ] at ih
    simp [listSrc] at ih
    simp [ih]

/-- **Counterexample**: `--patch` keeps all insertions in front of one byte in memory at once, however many there are. -/
theorem C46_patch_counterexample (N : Nat) (hN : 8 ≤ N) :
    ∃ s₀ s, PatchStream.new (listSrc false) 4 (RawStream.new 4 (Reader.open [66] fun _ => some 1) 1 0) (List.replicate (N + 1) insertion) = .ok s₀ ∧
      (PatchStream.byteSrc (RawStream.byteSrc 4 9) (listSrc false) 4 (N + 3)).fill s₀ 4 = .ok ((false, N + 2), s) := by
  have hsrc : ∃ s₁ s₂, (RawStream.byteSrc 4 9).fill (RawStream.new 4 (Reader.open [66] fun _ => some 1) 1 0) 4 = .ok ((true, 1), s₁) ∧ ((RawStream.byteSrc 4 9).slice s₁).take 1 = [66] ∧
      (RawStream.byteSrc 4 9).consume s₁ 1 = .ok s₂ := ⟨_, _, rfl, rfl, rfl⟩
  obtain ⟨s₁, s₂, h1, h2, h3⟩ := hsrc
  have hm := merge_inserts [66] (by decide) (by decide) N (N + 3) (by omega)
  have hfeed : ∀ req, PatchStream.feed (RawStream.byteSrc 4 9) (listSrc false) 4 (N + 3) ⟨RawStream.new 4 (Reader.open [66] fun _ => some 1) 1 0, ⟨List.replicate N insertion, 0, 0, [7]⟩, 0, 0⟩ req [] =
      .ok (false, List.replicate (N + 1) 7 ++ [66], ⟨s₂, ⟨[], usizeMax, 0, []⟩, 0, 1⟩) := by
    intro req
    unfold PatchStream.feed
    simp only [PatchStream.skipLoop, Nat.lt_irrefl, gt_iff_lt, if_false, h1, h2, hm, h3, List.nil_append, List.length_cons, List.length_nil]
  have hnew : PatchStream.new (listSrc false) 4 (RawStream.new 4 (Reader.open [66] fun _ => some 1) 1 0) (List.replicate (N + 1) insertion) =
      .ok { inner := ⟨RawStream.new 4 (Reader.open [66] fun _ => some 1) 1 0, ⟨List.replicate N insertion, 0, 0, [7]⟩, 0, 0⟩, buf := StreamBuf.new 4 } := by
    simp [PatchStream.new, Feeder.fill, Feeder.new, listSrc, insertion, List.replicate_succ]
  have hfill : ∃ s, (PatchStream.byteSrc (RawStream.byteSrc 4 9) (listSrc false) 4 (N + 3)).fill
      { inner := ⟨RawStream.new 4 (Reader.open [66] fun _ => some 1) 1 0, ⟨List.replicate N insertion, 0, 0, [7]⟩, 0, 0⟩, buf := StreamBuf.new 4 } 4 = .ok ((false, N + 2), s) := by
    have hle : (List.replicate (N + 1) (7 : Byte) ++ [66]).length = N + 2 := by simp
    have hloop : ∀ t, t.buf = [] → StreamBuf.fillLoop (PatchStream.feed (RawStream.byteSrc 4 9) (listSrc false) 4 (N + 3)) 4 (N + 3) t
        ⟨RawStream.new 4 (Reader.open [66] fun _ => some 1) 1 0, ⟨List.replicate N insertion, 0, 0, [7]⟩, 0, 0⟩ =
        .ok ({ t with buf := List.replicate (N + 1) 7 ++ [66] }, ⟨s₂, ⟨[], usizeMax, 0, []⟩, 0, 1⟩) := by
      intro t ht
      rw [StreamBuf.fillLoop, ht, hfeed]
      simp only [Bool.false_eq_true, if_false]
      rw [if_pos (by rw [hle]; omega)]
    unfold PatchStream.byteSrc bufferedSrc
    simp only [StreamBuf.fillBuf]
    rw [if_neg (by simp [StreamBuf.new, StreamBuf.newWithAlign]), show max (StreamBuf.new 4).targetLen 4 = 4 from rfl, hloop _ rfl]
    simp only [hle]
    exact ⟨_, rfl⟩
  obtain ⟨s, hs⟩ := hfill
  exact ⟨_, s, hnew, hs⟩

/-- A million insertions. -/
example : ∃ s₀ s, PatchStream.new (listSrc false) 4 (RawStream.new 4 (Reader.open [66] fun _ => some 1) 1 0) (List.replicate 1000000 insertion) = .ok s₀ ∧
    (PatchStream.byteSrc (RawStream.byteSrc 4 9) (listSrc false) 4 1000002).fill s₀ 4 = .ok ((false, 1000001), s) := C46_patch_counterexample 999999 (by decide)

end Nd.Props
