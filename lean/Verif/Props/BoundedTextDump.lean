import Verif.Props.BoundedRecords
import Verif.Props.BoundedDump
/-!
# C46: the dump of text inputs
-/
namespace Nd.Props
open Nd Spec

/-- What a text input lends at most, with records of at most `D` bytes. -/
def textLimit (B Q K D align : Nat) : Nat := 25 * B + 3 * K + 6 + Q + D + align

/-- The bytes in the buffer and in the record that has been read. -/
def textHeld (s : Buffered (TextState τ)) : Nat := s.buf.buf.length + s.inner.line.buf.length

theorem text_visited (P : RecSrc τ) (B fuel Q K D align : Nat) (filler : Byte) (ha : 0 < align) {F : Err → Prop} {bad : Bool} {recs : List Rec} (src : τ) (hy : Yields P F bad src recs) (hD : ∀ r ∈ recs, r.data.length ≤ D)
    {s₀ s : Buffered (TextState τ)} (hnew : TextStream.new P B src align filler = .ok s₀) (h : Visited (TextStream.byteSrc P B fuel filler) Q K s₀ s) : textHeld s ≤ textLimit B Q K D align + MARGIN + D := by
  obtain ⟨I, hP, hI⟩ := yields_short hy hD
  have h₀ : s₀.Rests B Q K (B + D) align (fun t => ShortLine D I t.line) fun t => ShortLine D I t.line := by
    unfold TextStream.new at hnew
    split at hnew
    · cases hnew
    · rename_i line heq
      cases hnew
      have : ShortLine D I line := feeder_short hP hI heq
      exact ⟨StreamBuf.Small.new _ _ _ _ _ _ ha, rfl, by split <;> exact this⟩
  have hv := h.rests (text_adds hP filler _) (Nat.lt_succ_self _) h₀
  have h1 := small_length hv.small
  rw [hv.align] at h1
  have h2 : s.inner.line.buf.length ≤ D := by
    have := hv.inner
    split at this <;> exact this.2
  unfold StreamBuf.limit at h1
  unfold textHeld textLimit
  omega

/-- The bound for the slices of a text input. -/
def textDumpLimit (B pitch span stop cols D align : Nat) : Nat :=
  dumpLimit B pitch span cols (textLimit B (span + stop + pitch + 1) (span + stop + 2 * pitch) D align) (textLimit B (span + stop + pitch + 1) (span + stop + 2 * pitch) D align + MARGIN + D)

/-- **C46** (`--in-format x --width N,S..E`): a text whose records have at most `D` bytes is converted in bounded memory, however many the records and however long the gaps between them, which are filled. -/
theorem C46_text_dump_partial (P : RecSrc τ) (B fuel fuel' pitch D align : Nat) (filler : Byte) (f : Formatting) (m : SegmentMapper) (start stop : Int) (hB : 0 < B) (ha : 0 < align) (hp : 0 < pitch)
    {F : Err → Prop} {recs : List Rec} (src : τ) (hy : Yields P F false src recs) (hD : ∀ r ∈ recs, r.data.length ≤ D) (ho : Ordered 0 recs) (hu : ∀ r ∈ recs, r.offset < usizeMax) (hf : TextStream.steps 0 recs < fuel)
    (hm : m.evaluate (0, pitch) (0, pitch) = (start, stop)) (hlt : start < stop) (hstop : 1 ≤ stop) (hstart : -(15 * pitch) < start) (hL : (stop - start).toNat + stop.toNat + pitch + 1 ≤ (B - 1784) / 8)
    {s₀ : Buffered (TextState τ)} (hs : TextStream.new P B src align filler = .ok s₀)
    {p : ConstSlicerParams} (hpar : ConstSlicerParams.fromRaw fuel' pitch m = .ok p) {st : ConstSlicer (Buffered (TextState τ))} (hnew : ConstSlicer.new s₀ p = .ok st)
    {d : Buffered (ScatterDrain (ConstSlicer (Buffered (TextState τ))))}
    (h : Copying (ScatterDrain.byteSrc (ConstSlicer.segSrc (TextStream.byteSrc P B fuel filler)) f B fuel) B (ScatterDrain.through B st) d) :
    heldOver textHeld d ≤ textDumpLimit B pitch (stop - start).toNat stop.toNat f.minWidth D align ∧
    ∀ eof n d', (ScatterDrain.byteSrc (ConstSlicer.segSrc (TextStream.byteSrc P B fuel filler)) f B fuel).fill d B = .ok ((eof, n), d') →
      heldOver textHeld d' ≤ textDumpLimit B pitch (stop - start).toNat stop.toNat f.minWidth D align := by
  have hd := TextStream.delivers hB ha hy ho hu hs hf
  have hA : ServesAmply (TextStream.byteSrc P B fuel filler) F NlMargin ((B - 1784) / 8) s₀ (TextStream.steps 0 recs)
      (place filler 0 recs ++ List.replicate (padLen align (place filler 0 recs).length) filler) := by
    unfold TextStream.new at hs
    split at hs
    · cases hs
    · cases hs
      exact Delivers.amply hB hd
  exact C46_width_partial textHeld B fuel fuel' pitch _ _ f m start stop hp hm hlt hstop hstart (hA.mono (fun _ h => h) (fun _ h => h) hL)
    (fun s n e hl => (C46_text_partial P B fuel _ _ D align filler ha src hy hD hs hl).1) (fun s hv => text_visited P B fuel _ _ D align filler ha src hy hD hs hv) hpar hnew h

/-- Two records, 36 bytes apart. -/
def sampleTextDump : ByteSrc (Buffered (ScatterDrain (ConstSlicer (Buffered (TextState (List Rec)))))) :=
  ScatterDrain.byteSrc (ConstSlicer.segSrc (TextStream.byteSrc (listSrc false) 2200 200 0)) { style := .hhh, minWidth := 16 } 2200 200

def sampleTextRecords : List Rec := [⟨2, 3, [1, 2, 3]⟩, ⟨41, 2, [4, 5]⟩]

/-- The hypotheses are met by a run that has printed the 43 bytes in three lines. -/
example : ∃ s₀ st d, TextStream.new (listSrc false) 2200 sampleTextRecords 1 0 = .ok s₀ ∧ ConstSlicer.new s₀ { head := 0, tail := -15, pitch := 16, span := 16 } = .ok st ∧
    Copying sampleTextDump 2200 (ScatterDrain.through 2200 st) d ∧ d.inner.lines = 3 ∧ heldOver textHeld d ≤ textDumpLimit 2200 16 16 16 16 3 1 := by
  obtain ⟨s₀, hs⟩ : ∃ s₀, TextStream.new (listSrc false) 2200 sampleTextRecords 1 0 = .ok s₀ := ⟨_, rfl⟩
  obtain ⟨st, hst⟩ : ∃ st, ConstSlicer.new s₀ { head := 0, tail := -15, pitch := 16, span := 16 } = .ok st := ⟨_, rfl⟩
  have hrun : (match TextStream.new (listSrc false) 2200 sampleTextRecords 1 0 with
    | .error _ => 0
    | .ok s₀ => match ConstSlicer.new s₀ { head := 0, tail := -15, pitch := 16, span := 16 } with
      | .error _ => 0
      | .ok st => match sampleTextDump.fill (ScatterDrain.through 2200 st) 2200 with
        | .error _ => 0
        | .ok (r, d) => match sampleTextDump.consume d r.2 with
          | .error _ => 0
          | .ok d => d.inner.lines) = 3 := by decide +kernel
  rw [hs] at hrun
  simp only [hst] at hrun
  split at hrun
  · cases hrun
  · rename_i r d hfill
    split at hrun
    · cases hrun
    · rename_i d' hcons
      obtain ⟨eof, n⟩ := r
      have hcp : Copying sampleTextDump 2200 (ScatterDrain.through 2200 st) d' := Copying.start.next hfill hcons
      exact ⟨s₀, st, d', hs, hst, hcp, hrun, (C46_text_dump_partial (listSrc false) 2200 200 2 16 3 1 0 { style := .hhh, minWidth := 16 } .whole 0 16 (by decide) (by decide) (by decide) _
        (listSrc_yields false sampleTextRecords) (by decide) (by decide) (by decide) (by decide) (by decide) (by decide) (by decide) (by decide) (by decide) hs
        (p := { head := 0, tail := -15, pitch := 16, span := 16 }) (by decide) hst hcp).1⟩

/-! ## Texts without positions -/

theorem le_textLimit (B Q K D align : Nat) : 24 * B + 3 * K + 6 + Q + D + align ≤ textLimit B Q K D align := by
  unfold textLimit
  omega

theorem gapless_visited (P : RecSrc τ) (B fuel Q K D align : Nat) (filler : Byte) (ha : 0 < align) {F : Err → Prop} {bad : Bool} {recs : List Rec} (src : τ) (hy : Yields P F bad src recs) (hD : ∀ r ∈ recs, r.data.length ≤ D)
    {s : Buffered τ} (h : Visited (GaplessTextStream.byteSrc P B fuel) Q K (GaplessTextStream.new B src align filler) s) : s.buf.buf.length ≤ textLimit B Q K D align + MARGIN := by
  obtain ⟨I, hP, hI⟩ := yields_short hy hD
  have h₀ : (GaplessTextStream.new B src align filler).Rests B Q K D align I I := ⟨StreamBuf.Small.new _ _ _ _ _ _ ha, rfl, by split <;> exact hI⟩
  have hv := h.rests (gapless_adds hP _) (Nat.lt_succ_self _) h₀
  have h1 := small_length hv.small
  rw [hv.align] at h1
  unfold StreamBuf.limit at h1
  unfold textLimit
  omega

/-- The bound for the slices of a text input without positions. -/
def gaplessDumpLimit (B pitch span stop cols D align : Nat) : Nat :=
  dumpLimit B pitch span cols (textLimit B (span + stop + pitch + 1) (span + stop + 2 * pitch) D align) (textLimit B (span + stop + pitch + 1) (span + stop + 2 * pitch) D align + MARGIN)

/-- **C46** (`--in-format nnx --width N,S..E`): so is a text without positions. -/
theorem C46_gapless_dump_partial (P : RecSrc τ) (B fuel fuel' pitch D align : Nat) (filler : Byte) (f : Formatting) (m : SegmentMapper) (start stop : Int) (hB : 0 < B) (ha : 0 < align) (hp : 0 < pitch)
    {F : Err → Prop} {recs : List Rec} (src : τ) (hy : Yields P F false src recs) (hD : ∀ r ∈ recs, r.data.length ≤ D) (hf : recs.length < fuel)
    (hm : m.evaluate (0, pitch) (0, pitch) = (start, stop)) (hlt : start < stop) (hstop : 1 ≤ stop) (hstart : -(15 * pitch) < start) (hL : (stop - start).toNat + stop.toNat + pitch + 1 ≤ (B - 1784) / 8)
    {p : ConstSlicerParams} (hpar : ConstSlicerParams.fromRaw fuel' pitch m = .ok p) {st : ConstSlicer (Buffered τ)} (hnew : ConstSlicer.new (GaplessTextStream.new B src align filler) p = .ok st)
    {d : Buffered (ScatterDrain (ConstSlicer (Buffered τ)))}
    (h : Copying (ScatterDrain.byteSrc (ConstSlicer.segSrc (GaplessTextStream.byteSrc P B fuel)) f B fuel) B (ScatterDrain.through B st) d) :
    heldOver (fun s => s.buf.buf.length) d ≤ gaplessDumpLimit B pitch (stop - start).toNat stop.toNat f.minWidth D align ∧
    ∀ eof n d', (ScatterDrain.byteSrc (ConstSlicer.segSrc (GaplessTextStream.byteSrc P B fuel)) f B fuel).fill d B = .ok ((eof, n), d') →
      heldOver (fun s => s.buf.buf.length) d' ≤ gaplessDumpLimit B pitch (stop - start).toNat stop.toNat f.minWidth D align := by
  have hd := GaplessTextStream.delivers (filler := filler) hB ha hy hf
  have hA : ServesAmply (GaplessTextStream.byteSrc P B fuel) F NlMargin ((B - 1784) / 8) (GaplessTextStream.new B src align filler) recs.length
      ((recs.map Rec.data).flatten ++ List.replicate (padLen align (recs.map Rec.data).flatten.length) filler) := Delivers.amply hB hd
  exact C46_width_partial (fun s => s.buf.buf.length) B fuel fuel' pitch _ _ f m start stop hp hm hlt hstop hstart (hA.mono (fun _ h => h) (fun _ h => h) hL)
    (fun s n e hl => Nat.le_trans (C46_gapless_partial P B fuel _ _ D align filler ha src hy hD hl).1 (le_textLimit ..)) (fun s hv => gapless_visited P B fuel _ _ D align filler ha src hy hD hv) hpar hnew h

def sampleGaplessDump : ByteSrc (Buffered (ScatterDrain (ConstSlicer (Buffered (List Rec))))) :=
  ScatterDrain.byteSrc (ConstSlicer.segSrc (GaplessTextStream.byteSrc (listSrc false) 2200 200)) { style := .hhh, minWidth := 16 } 2200 200

/-- The hypotheses are met by a run that has printed the forty bytes of twenty lines in three lines. -/
example : ∃ st d, ConstSlicer.new (GaplessTextStream.new 2200 (List.replicate 20 ⟨0, 0, [1, 2]⟩) 1 0) { head := 0, tail := -15, pitch := 16, span := 16 } = .ok st ∧
    Copying sampleGaplessDump 2200 (ScatterDrain.through 2200 st) d ∧ d.inner.lines = 3 ∧ heldOver (fun s => s.buf.buf.length) d ≤ gaplessDumpLimit 2200 16 16 16 16 2 1 := by
  obtain ⟨st, hst⟩ : ∃ st, ConstSlicer.new (GaplessTextStream.new 2200 (List.replicate 20 (⟨0, 0, [1, 2]⟩ : Rec)) 1 0) { head := 0, tail := -15, pitch := 16, span := 16 } = .ok st := ⟨_, rfl⟩
  have hrun : (match ConstSlicer.new (GaplessTextStream.new 2200 (List.replicate 20 (⟨0, 0, [1, 2]⟩ : Rec)) 1 0) { head := 0, tail := -15, pitch := 16, span := 16 } with
    | .error _ => 0
    | .ok st => match sampleGaplessDump.fill (ScatterDrain.through 2200 st) 2200 with
      | .error _ => 0
      | .ok (r, d) => match sampleGaplessDump.consume d r.2 with
        | .error _ => 0
        | .ok d => d.inner.lines) = 3 := by decide +kernel
  simp only [hst] at hrun
  split at hrun
  · cases hrun
  · rename_i r d hfill
    split at hrun
    · cases hrun
    · rename_i d' hcons
      obtain ⟨eof, n⟩ := r
      have hcp : Copying sampleGaplessDump 2200 (ScatterDrain.through 2200 st) d' := Copying.start.next hfill hcons
      exact ⟨st, d', hst, hcp, hrun, (C46_gapless_dump_partial (listSrc false) 2200 200 2 16 2 1 0 { style := .hhh, minWidth := 16 } .whole 0 16 (by decide) (by decide) (by decide) _
        (listSrc_yields false (List.replicate 20 ⟨0, 0, [1, 2]⟩)) (by decide) (by decide) (by decide) (by decide) (by decide) (by decide) (by decide)
        (p := { head := 0, tail := -15, pitch := 16, span := 16 }) (by decide) hst hcp).1⟩

end Nd.Props
