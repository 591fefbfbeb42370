import Verif.Proof.SettledCat
import Verif.Props.Guide
import Verif.Props.BoundedDump
/-!
# C46: `--patch` with records that replace something
-/
namespace Nd.Props
open Nd Spec

theorem yields_replacing {P : RecSrc τ} {F : Err → Prop} {bad : Bool} {t : τ} {recs : List Rec} {D : Nat} (h : Yields P F bad t recs) (hD : ∀ r ∈ recs, 0 < r.span ∧ r.data.length ≤ D) : ∃ I, PatchStream.Replacing P D I ∧ I t := by
  obtain ⟨R, h1, h2⟩ := h
  refine ⟨fun t => ∃ rest, R t rest ∧ ∀ r ∈ rest, 0 < r.span ∧ r.data.length ≤ D, ?_, recs, h1, hD⟩
  rintro t o t' ⟨rest, hr, hs⟩ hread
  rcases h2 t rest hr with ⟨e, _, he⟩ | ⟨_, t1, he, hr'⟩
  · rw [he] at hread
    cases hread
  · rw [he] at hread
    cases hread
    exact ⟨⟨_, hr', fun r hm => hs r (List.mem_of_mem_tail hm)⟩, fun r hm => hs r (List.mem_of_mem_head? hm)⟩

/-- What `--patch` lends at most, with records of at most `D` bytes, if it is lent at most `C` bytes. -/
def patchLimit (B Q K C D : Nat) : Nat := 24 * B + 3 * K + 7 + Q + C * (D + 1)

/-- The bytes in the buffer of the patched stream, the record that has been read, and the bytes in the buffers of the stream, which are counted by `H`. -/
def patchHeld (H : σ → Nat) (s : Buffered (PatchState σ τ)) : Nat := s.buf.buf.length + s.inner.patch.buf.length + H s.inner.src

/-- `--patch` of any stream that settles. -/
theorem patch_bounded {S : ByteSrc σ} {P : RecSrc τ} {B fuel Q K C₀ C L D : Nat} {H : σ → Nat} {I J : σ → Prop} (hS : Settles S B C₀ B C L H I J) {F : Err → Prop} {bad : Bool} {recs : List Rec} {src : σ} {patch : τ} (hI : I src)
    (hy : Yields P F bad patch recs) (hD : ∀ r ∈ recs, 0 < r.span ∧ r.data.length ≤ D) {s₀ s : Buffered (PatchState σ τ)} (hnew : PatchStream.new P B src patch = .ok s₀) :
    (∀ n eof, LentTo (PatchStream.byteSrc S P B fuel) Q K s₀ s n eof → n ≤ patchLimit B Q K C D ∧ patchHeld H s ≤ patchLimit B Q K C D + MARGIN + D + L) ∧
    (Visited (PatchStream.byteSrc S P B fuel) Q K s₀ s → patchHeld H s ≤ patchLimit B Q K C D + MARGIN + D + L) := by
  obtain ⟨A, hP, hA⟩ := yields_replacing hy hD
  have hlim : ∀ K, StreamBuf.limit B Q K (C * (D + 1)) 1 = patchLimit B Q K C D := by
    intro K
    unfold StreamBuf.limit patchLimit
    omega
  have hadds := fun R => PatchStream.feed_adds (fuel := fuel) hS hP R
  have h₀ : ∀ K, s₀.Rests B Q K (C * (D + 1)) 1 (fun t => I t.src ∧ PatchStream.Pending D A t.patch) fun t => H t.src ≤ L ∧ PatchStream.Pending D A t.patch := by
    intro K
    unfold PatchStream.new at hnew
    split at hnew
    · cases hnew
    · rename_i f heq
      cases hnew
      have hp : PatchStream.Pending D A f := PatchStream.fill_pending hP hA heq
      refine ⟨StreamBuf.Small.new _ _ _ _ _ _ (by decide), rfl, ?_⟩
      split
      · exact ⟨hS.rest _ hI, hp⟩
      · exact ⟨hI, hp⟩
  have hinner : ∀ K, Visited (PatchStream.byteSrc S P B fuel) Q K s₀ s → H s.inner.src ≤ L ∧ s.inner.patch.buf.length ≤ D := by
    intro K hv
    have := (hv.rests (hadds _) (Nat.lt_succ_self _) (h₀ _)).inner
    split at this
    · exact ⟨this.1, this.2.2.2⟩
    · exact ⟨hS.rest _ this.1, this.2.2.2⟩
  unfold patchHeld
  refine ⟨fun n eof h => ?_, fun h => ?_⟩
  · obtain ⟨h1, h2, _⟩ := LentTo.bounded (hadds _) (Nat.lt_succ_self _) (h₀ K) h
    rw [hlim] at h1 h2
    obtain ⟨r, req, g1, g2, g3⟩ := h
    have hv : Visited (PatchStream.byteSrc S P B fuel) Q (max K n) s₀ s :=
      (g1.mono (Nat.le_refl _) (Nat.le_max_left _ _)).idle g2 g3 fun _ => Nat.le_max_right _ _
    have := hinner _ hv
    omega
  · have hv := h.rests (hadds _) (Nat.lt_succ_self _) (h₀ K)
    have h1 := small_length hv.small
    rw [hv.align, hlim] at h1
    have := hinner _ h
    omega

/-! ## Concatenated files -/

/-- What a file is asked for at most while `--patch` takes everything, -/
def patchAsk (B : Nat) : Nat := 25 * B + 8

/-- what `--cat` lends then, -/
def patchFirst (B : Nat) : Nat := CatStream.firstLimit B B (StreamBuf.limit B (patchAsk B) 0 B 1)

/-- what a file is asked for at most after `--patch` has left something, -/
def patchAskMore (B : Nat) : Nat := 25 * B + 3 * patchFirst B + 8

/-- and what `--cat` lends then. -/
def patchThen (B : Nat) : Nat := CatStream.thenLimit B B (StreamBuf.limit B (patchAsk B) 0 B 1) (settledLimit B (patchAsk B) (patchAskMore B) B 1)

/-- What the cache of `--cat` and the buffers of `n` files hold at most. -/
def patchFiles (B n : Nat) : Nat := patchThen B + MARGIN + n * (settledLimit B (patchAsk B) (patchAskMore B) B 1 + MARGIN)

theorem catHeld_eq (c : CatStream (Buffered Reader)) : catHeld c = CatStream.contents (fun s => s.buf.buf.length) c := rfl

/-- Concatenated files settle before `--patch`. -/
theorem cat_settles (B fuel : Nat) (filler : Byte) (files : Files) (hne : files ≠ []) :
    ∃ I J, Settles (CatStream.byteSrc (RawStream.byteSrc B fuel) B fuel) B (patchFirst B) B (patchThen B) (patchFiles B files.length) catHeld I J ∧ I (CatStream.new B (rawStreams B 1 filler files)) := by
  have hask : patchAsk B ≤ patchAskMore B := by
    unfold patchAsk patchAskMore
    omega
  have hraw := Buffered.settles (fuel := fuel) (B := B) (align := 1) (RawStream.adds B _) hask (Nat.lt_succ_self _)
  refine ⟨_, _, CatStream.settles (N := files.length) (fuel := fuel) hraw ?_ ?_ ?_, Or.inl ?_⟩
  · unfold settledLimit StreamBuf.limit
    omega
  · unfold StreamBuf.limit patchAsk
    omega
  · unfold patchAskMore patchFirst
    unfold StreamBuf.limit
    omega
  · have hlen : (rawStreams B 1 filler files).length = files.length := by simp [rawStreams]
    have hall : ∀ x ∈ rawStreams B 1 filler files, x.Rests B (patchAsk B) 0 B 1 (fun _ => True) fun _ => True := by
      intro x hx
      obtain ⟨f, _, rfl⟩ := List.mem_map.1 hx
      exact RawStream.new_rests B _ 0 1 (by decide) filler _
    have hs : (StreamBuf.new B).Small B 0 0 0 := StreamBuf.Small.new _ _ _ _ _ _ (by decide)
    cases hr : rawStreams B 1 filler files with
    | nil => exact absurd (by simpa [rawStreams] using hr) hne
    | cons s rest =>
      rw [hr] at hall hlen
      exact ⟨rfl, rfl, hs.margin, hs.pos, Nat.zero_le _, Nat.zero_le _, hs.target, fun _ => hs.target,
        ⟨s, rest, rfl, Or.inl (hall s (by simp)), fun x hx => Or.inl (hall x (by simp [hx])), by omega⟩, Nat.zero_le _⟩

/-- **C46** (`--patch`): if every record replaces at least one byte, by at most `D` bytes, then however long the files and however many the records, a client that asks for at most `Q` bytes at once and leaves at most `K` is lent
a bounded number of bytes, and the buffers of the files, of `--cat`, of the record that has been read and of the patched stream are bounded, too.  That every record replaces something is necessary (`C46_patch_counterexample`). -/
theorem C46_patch_partial (P : RecSrc τ) (B fuel fuel' Q K D : Nat) (filler : Byte) (files : Files) (hne : files ≠ []) {F : Err → Prop} {bad : Bool} {recs : List Rec} (patch : τ) (hy : Yields P F bad patch recs)
    (hD : ∀ r ∈ recs, 0 < r.span ∧ r.data.length ≤ D) {s₀ s : Buffered (PatchState (CatStream (Buffered Reader)) τ)} (hnew : PatchStream.new P B (CatStream.new B (rawStreams B 1 filler files)) patch = .ok s₀) :
    (∀ n eof, LentTo (PatchStream.byteSrc (CatStream.byteSrc (RawStream.byteSrc B fuel) B fuel) P B fuel') Q K s₀ s n eof →
      n ≤ patchLimit B Q K (patchThen B) D ∧ patchHeld catHeld s ≤ patchLimit B Q K (patchThen B) D + MARGIN + D + patchFiles B files.length) ∧
    (Visited (PatchStream.byteSrc (CatStream.byteSrc (RawStream.byteSrc B fuel) B fuel) P B fuel') Q K s₀ s → patchHeld catHeld s ≤ patchLimit B Q K (patchThen B) D + MARGIN + D + patchFiles B files.length) := by
  obtain ⟨I, J, hS, hI⟩ := cat_settles B fuel filler files hne
  exact patch_bounded hS hI hy hD hnew

/-- A million records that replace one byte by two, in two files of a million bytes each, with blocks of 4 bytes: never are more than 29450 bytes lent. -/
example : ∀ s₀ s n eof, PatchStream.new (listSrc false) 4 (CatStream.new 4 (rawStreams 4 1 0 [(List.replicate 1000000 65, fun _ => some 3), (List.replicate 1000000 66, fun _ => some 2)])) (List.ofFn fun i : Fin 1000000 => ⟨2 * i, 1, [1, 2]⟩) = .ok s₀ →
    LentTo (PatchStream.byteSrc (CatStream.byteSrc (RawStream.byteSrc 4 9) 4 9) (listSrc false) 4 99) 4 0 s₀ s n eof → n ≤ 29450 := fun s₀ s n eof hnew hl =>
  Nat.le_trans ((C46_patch_partial (listSrc false) 4 9 99 4 0 2 0 _ (List.cons_ne_nil _ _) _ (listSrc_yields false _) (fun r hr => by
    obtain ⟨i, rfl⟩ := (List.mem_ofFn.1 hr)
    exact ⟨Nat.succ_pos _, Nat.le_refl _⟩) hnew).1 n eof hl).1 (by decide)

/-- The first bytes of such files: the records at 0 and 4 replace one byte each by two. -/
example : ∃ s₀ s n, PatchStream.new (listSrc false) 4 (CatStream.new 4 (rawStreams 4 1 0 [(List.replicate 20 65, fun _ => some 3), (List.replicate 20 66, fun _ => some 2)])) [⟨0, 1, [1, 2]⟩, ⟨4, 1, [3, 4]⟩] = .ok s₀ ∧
    LentTo (PatchStream.byteSrc (CatStream.byteSrc (RawStream.byteSrc 4 9) 4 9) (listSrc false) 4 99) 4 0 s₀ s n false ∧ 8 ≤ n ∧ n ≤ patchLimit 4 4 0 (patchThen 4) 2 := by
  obtain ⟨s₀, h⟩ : ∃ s₀, PatchStream.new (listSrc false) 4 (CatStream.new 4 (rawStreams 4 1 0 [(List.replicate 20 65, fun _ => some 3), (List.replicate 20 66, fun _ => some 2)])) [⟨0, 1, [1, 2]⟩, ⟨4, 1, [3, 4]⟩] = .ok s₀ := ⟨_, rfl⟩
  have hrun : (match PatchStream.new (listSrc false) 4 (CatStream.new 4 (rawStreams 4 1 0 [(List.replicate 20 65, fun _ => some 3), (List.replicate 20 66, fun _ => some 2)])) [⟨0, 1, [1, 2]⟩, ⟨4, 1, [3, 4]⟩] with
    | .error _ => (true, 0)
    | .ok s₀ => match (PatchStream.byteSrc (CatStream.byteSrc (RawStream.byteSrc 4 9) 4 9) (listSrc false) 4 99).fill s₀ 4 with
      | .error _ => (true, 0)
      | .ok (r, _) => r) = (false, 8) := by decide +kernel
  rw [h] at hrun
  simp only at hrun
  split at hrun
  · cases hrun
  · rename_i r s hf
    rw [hrun] at hf
    have hl : LentTo (PatchStream.byteSrc (CatStream.byteSrc (RawStream.byteSrc 4 9) 4 9) (listSrc false) 4 99) 4 0 s₀ s 8 false := ⟨s₀, 4, .start, Nat.le_refl _, hf⟩
    exact ⟨s₀, s, 8, h, hl, Nat.le_refl _, ((C46_patch_partial (listSrc false) 4 9 99 4 0 2 0 _ (List.cons_ne_nil _ _) _ (listSrc_yields false _) (by decide) h).1 _ _ hl).1⟩

/-! ## The dump of patched files -/

/-- The bound for the slices of patched files. -/
def patchDumpLimit (B pitch span stop cols D files : Nat) : Nat :=
  dumpLimit B pitch span cols (patchLimit B (span + stop + pitch + 1) (span + stop + 2 * pitch) (patchThen B) D)
    (patchLimit B (span + stop + pitch + 1) (span + stop + 2 * pitch) (patchThen B) D + MARGIN + D + patchFiles B files)

/-- **C46** (`--patch RECORDS --width N,S..E FILE...`): if every record replaces at least one byte, by at most `D` bytes, the whole program holds a bounded number of bytes, however long the files and however many the records are. -/
theorem C46_patch_dump_partial (P : RecSrc τ) (B fuel fuel' pitch D : Nat) (filler : Byte) (files : Files) (f : Formatting) (m : SegmentMapper) (start stop : Int) (hB : 0 < B) (hne : files ≠ [])
    (hfit : (files.map fun f => f.1.length).sum ≤ usizeMax) (hp : 0 < pitch) {F : Err → Prop} {bad : Bool} {recs : List Rec} (patch : τ)
    (hy : Yields P F bad patch recs) (hD : ∀ r ∈ recs, 0 < r.span ∧ r.data.length ≤ D) (hok : PatchOk (files.map fun f => f.1.length).sum bad 0 recs) (hu : ∀ r ∈ recs, r.offset + r.span < usizeMax)
    (hf : recs.length + enough 1 files + 4 ≤ fuel)
    (hm : m.evaluate (0, pitch) (0, pitch) = (start, stop)) (hlt : start < stop) (hstop : 1 ≤ stop) (hstart : -(15 * pitch) < start) (hL : (stop - start).toNat + stop.toNat + pitch + 1 ≤ (B - 1784) / 8)
    {s₀ : Buffered (PatchState (CatStream (Buffered Reader)) τ)} (hs : PatchStream.new P B (CatStream.new B (rawStreams B 1 filler files)) patch = .ok s₀)
    {p : ConstSlicerParams} (hpar : ConstSlicerParams.fromRaw fuel' pitch m = .ok p) {st : ConstSlicer (Buffered (PatchState (CatStream (Buffered Reader)) τ))} (hnew : ConstSlicer.new s₀ p = .ok st)
    {d : Buffered (ScatterDrain (ConstSlicer (Buffered (PatchState (CatStream (Buffered Reader)) τ))))}
    (h : Copying (ScatterDrain.byteSrc (ConstSlicer.segSrc (PatchStream.byteSrc (CatStream.byteSrc (RawStream.byteSrc B fuel) B fuel) P B fuel)) f B fuel) B (ScatterDrain.through B st) d) :
    heldOver (patchHeld catHeld) d ≤ patchDumpLimit B pitch (stop - start).toNat stop.toNat f.minWidth D files.length ∧
    ∀ eof n d', (ScatterDrain.byteSrc (ConstSlicer.segSrc (PatchStream.byteSrc (CatStream.byteSrc (RawStream.byteSrc B fuel) B fuel) P B fuel)) f B fuel).fill d B = .ok ((eof, n), d') →
      heldOver (patchHeld catHeld) d' ≤ patchDumpLimit B pitch (stop - start).toNat stop.toNat f.minWidth D files.length := by
  have hlen := cat_length filler files
  have hcat := cat_delivers B fuel 1 filler files hB (by decide) (by omega : enough 1 files < fuel)
  have hd := PatchStream.delivers (F := fun e => IoErr (files.map Prod.snd) e ∨ F e) hB (hcat.mono (fun _ h => Or.inl h) (fun _ h => h)) (by omega) (Yields.mono hy fun _ h => Or.inr h) (by rw [hlen]; exact hok) hu hs hf
  have hA : ServesAmply (PatchStream.byteSrc (CatStream.byteSrc (RawStream.byteSrc B fuel) B fuel) P B fuel) (fun e => IoErr (files.map Prod.snd) e ∨ F e) NlMargin ((B - 1784) / 8) s₀ (enough 1 files + 1)
      (splice 0 (Spec.cat (files.map fun f => Spec.alignTo 1 filler f.1)) recs) := by
    unfold PatchStream.new at hs
    split at hs
    · cases hs
    · cases hs
      exact Delivers.amply hB hd
  exact C46_width_partial (patchHeld catHeld) B fuel fuel' pitch _ _ f m start stop hp hm hlt hstop hstart (hA.mono (fun _ h => h) (fun _ h => h) hL)
    (fun s n e hl => ((C46_patch_partial P B fuel fuel _ _ D filler files hne patch hy hD hs).1 n e hl).1)
    (fun s hv => (C46_patch_partial P B fuel fuel _ _ D filler files hne patch hy hD hs).2 hv) hpar hnew h

/-- `nd --patch` of 40 bytes read by nines and 3 more by twos, with a block of 2200 bytes; three bytes are replaced by four. -/
def samplePatchDump : ByteSrc (Buffered (ScatterDrain (ConstSlicer (Buffered (PatchState (CatStream (Buffered Reader)) (List Rec)))))) :=
  ScatterDrain.byteSrc (ConstSlicer.segSrc (PatchStream.byteSrc (CatStream.byteSrc (RawStream.byteSrc 2200 200) 2200 200) (listSrc false) 2200 200)) { style := .hhh, minWidth := 16 } 2200 200

def sampleRecords : List Rec := [⟨2, 3, [1, 2, 3, 4]⟩, ⟨30, 1, []⟩]

/-- The hypotheses are met by a run that has printed the 43 bytes in three lines. -/
example : ∃ s₀ st d, PatchStream.new (listSrc false) 2200 (CatStream.new 2200 (rawStreams 2200 1 0 sampleFiles)) sampleRecords = .ok s₀ ∧
    ConstSlicer.new s₀ { head := 0, tail := -15, pitch := 16, span := 16 } = .ok st ∧ Copying samplePatchDump 2200 (ScatterDrain.through 2200 st) d ∧ d.inner.lines = 3 ∧
    heldOver (patchHeld catHeld) d ≤ patchDumpLimit 2200 16 16 16 16 4 2 := by
  obtain ⟨s₀, hs⟩ : ∃ s₀, PatchStream.new (listSrc false) 2200 (CatStream.new 2200 (rawStreams 2200 1 0 sampleFiles)) sampleRecords = .ok s₀ := ⟨_, rfl⟩
  obtain ⟨st, hst⟩ : ∃ st, ConstSlicer.new s₀ { head := 0, tail := -15, pitch := 16, span := 16 } = .ok st := ⟨_, rfl⟩
  have hrun : (match PatchStream.new (listSrc false) 2200 (CatStream.new 2200 (rawStreams 2200 1 0 sampleFiles)) sampleRecords with
    | .error _ => 0
    | .ok s₀ => match ConstSlicer.new s₀ { head := 0, tail := -15, pitch := 16, span := 16 } with
      | .error _ => 0
      | .ok st => match samplePatchDump.fill (ScatterDrain.through 2200 st) 2200 with
        | .error _ => 0
        | .ok (r, d) => match samplePatchDump.consume d r.2 with
          | .error _ => 0
          | .ok d => d.inner.lines) = 3 := by decide +kernel
  rw [hs] at hrun
  simp only [hst] at hrun
  split at hrun
  · cases hrun
  · rename_i r d hfill
    split at hrun
    · cases hrun
    · rename_i d' hcons
      obtain ⟨eof, n⟩ := r
      have hcp : Copying samplePatchDump 2200 (ScatterDrain.through 2200 st) d' := Copying.start.next hfill hcons
      exact ⟨s₀, st, d', hs, hst, hcp, hrun, (C46_patch_dump_partial (listSrc false) 2200 200 2 16 4 0 sampleFiles { style := .hhh, minWidth := 16 } .whole 0 16 (by decide) (by decide)
        (by decide) (by decide) _ (listSrc_yields false sampleRecords) (by decide) ⟨by decide, fun _ => ⟨by decide, fun _ => rfl⟩⟩ (by decide) (by decide) (by decide) (by decide) (by decide) (by decide) (by decide) hs
        (p := { head := 0, tail := -15, pitch := 16, span := 16 }) (by decide) hst hcp).1⟩

end Nd.Props
