import Verif.Props.Bounded
/-!
# C46: the slices of any stream that is held in bounded memory
-/
namespace Nd.Props
open Nd

/-- What the program holds while it prints slices: the text to be written, the slices, and what the stream behind them holds, which `H` counts. -/
def heldOver (H : σ → Nat) (d : Buffered (ScatterDrain (ConstSlicer σ))) : Nat := d.buf.buf.length + 16 * d.inner.src.segs.segments.length + H d.inner.src.src

/-- The bound, if the stream lends at most `lent` bytes and holds at most `rest`. -/
def dumpLimit (B pitch span cols lent rest : Nat) : Nat :=
  25 * B + 7 + (lent / pitch + 1) * Format.reserve (max cols span) + MARGIN + 16 * (lent / pitch + 1) + rest

/-- **C46** (`--width N,S..E` of any stream): a stream that lends at most `N` bytes to clients which ask for at most `span + stop + pitch + 1` bytes and leave at most `span + stop + 2 * pitch`, and holds
at most `L` bytes before such clients, is printed in bounded memory. -/
theorem C46_width_partial {S : ByteSrc σ} {F M} {s₀ : σ} {w : Nat} {content : Bytes} (H : σ → Nat) (B fuel fuel' pitch N L : Nat) (f : Formatting) (m : SegmentMapper) (start stop : Int) (hp : 0 < pitch)
    (hm : m.evaluate (0, pitch) (0, pitch) = (start, stop)) (hlt : start < stop) (hstop : 1 ≤ stop) (hstart : -(15 * pitch) < start)
    (hA : ServesAmply S F M ((stop - start).toNat + stop.toNat + pitch + 1) s₀ w content)
    (hN : ∀ s n e, LentTo S ((stop - start).toNat + stop.toNat + pitch + 1) ((stop - start).toNat + stop.toNat + 2 * pitch) s₀ s n e → n ≤ N)
    (hH : ∀ s, Visited S ((stop - start).toNat + stop.toNat + pitch + 1) ((stop - start).toNat + stop.toNat + 2 * pitch) s₀ s → H s ≤ L)
    {p : ConstSlicerParams} (hpar : ConstSlicerParams.fromRaw fuel' pitch m = .ok p) {st : ConstSlicer σ} (hnew : ConstSlicer.new s₀ p = .ok st) {d : Buffered (ScatterDrain (ConstSlicer σ))}
    (h : Copying (ScatterDrain.byteSrc (ConstSlicer.segSrc S) f B fuel) B (ScatterDrain.through B st) d) :
    heldOver H d ≤ dumpLimit B pitch (stop - start).toNat f.minWidth N L ∧
    ∀ eof n d', (ScatterDrain.byteSrc (ConstSlicer.segSrc S) f B fuel).fill d B = .ok ((eof, n), d') → heldOver H d' ≤ dumpLimit B pitch (stop - start).toNat f.minWidth N L := by
  obtain ⟨h1, h2, h3, h4, h5, h6, h7, h8, h9, h10, h11⟩ := ConstSlicerParams.fromRaw_comb hp hpar 0 start stop hm
  have hhead := h10 hstop
  have ok : ConstSlicer.ParamsOk p := ⟨by omega, by omega, h4, h7 hstop, h5, h6, h8 hstart⟩
  have hesc : ConstSlicer.escape p ≤ stop.toNat := by
    unfold ConstSlicer.escape
    split <;> omega
  have hspan : (stop - start).toNat = p.span := by omega
  rw [hspan] at hA hN hH ⊢
  rw [← h2] at hA hN hH ⊢
  have hadds := ScatterDrain.feed_adds (S := S) (s₀ := s₀) (P := p.pitch) (W := p.span) (M := (p.tail + p.span).toNat) (esc := ConstSlicer.escape p) (N := N) f
    (StreamBuf.limit B B 0 0 0 + 1) (fun s n e hl => hN s n e (hl.mono (by omega) (by omega)))
    (fun s n hl => by
      have := hl.ample hA
      omega)
  have hrests := ScatterDrain.through_rests (S := S) B B 0 ((N / p.pitch + 1) * Format.reserve (max f.minWidth p.span)) N p ok _ hnew
  have hv := h.visited
  have key : ∀ d d', Visited (ScatterDrain.byteSrc (ConstSlicer.segSrc S) f B fuel) B 0 (ScatterDrain.through B st) d → d.inner = d'.inner →
      d'.buf.buf.length ≤ StreamBuf.limit B B 0 ((N / p.pitch + 1) * Format.reserve (max f.minWidth p.span)) 1 + MARGIN →
      heldOver H d' ≤ dumpLimit B p.pitch p.span f.minWidth N L := by
    intro d d' hv hin htext
    have hr := hv.rests hadds (Nat.lt_succ_self _) hrests
    have hsp : d'.inner.src.Spent S s₀ p.pitch p.span (ConstSlicer.escape p) N := by
      rw [← hin]
      have := hr.inner
      split at this
      · exact this
      · exact this.spent
    have hrest := hH _ (hsp.src.mono (by omega) (by omega))
    have hfew := hsp.few
    unfold heldOver dumpLimit
    unfold StreamBuf.limit at htext
    omega
  refine ⟨key d d hv rfl ?_, fun eof n d' hfill => ?_⟩
  · have hr := hv.rests hadds (Nat.lt_succ_self _) hrests
    have htext := small_length hr.small
    rw [hr.align] at htext
    exact htext
  · have hl := (LentTo.bounded hadds (Nat.lt_succ_self _) hrests ⟨d, B, hv, Nat.le_refl _, hfill⟩).1
    exact key _ d' (hv.round (Nat.le_refl _) hfill (Nat.le_refl n) (fun _ => by omega) rfl) rfl hl

/-! ## `--cut` of concatenated files -/

/-- `--cut` of any stream: what it lends and holds, if the stream lends at most `C` bytes to `--cut` and holds at most `L` before it. -/
theorem cut_bounded {S : ByteSrc σ} {F M} {s₀ : σ} {w : Nat} {content : Bytes} (H : σ → Nat) (B fuel Q K D C L : Nat) (hd : Delivers S F M s₀ w content) (hfit : content.length ≤ usizeMax)
    (hC : ∀ s n eof, LentTo S (cutRequest B Q K D) D s₀ s n eof → n ≤ C) (hH : ∀ s, Visited S (cutRequest B Q K D) D s₀ s → H s ≤ L) (oc : Bool) (ms : List SegmentMapper)
    (hms : ∀ m ∈ ms, m.start.anchor = 0 ∧ m.stop.anchor = 0 ∨ m.start.anchor ≠ 0 ∧ m.stop.anchor ≠ 0 ∧ -(D : Int) ≤ m.start.offset ∧ -(D : Int) ≤ m.stop.offset) {c₀ c : Buffered (CutState σ)}
    (hc : CutStream.new B oc s₀ (ms.map RangeMapper.ofMapper) = .ok c₀) :
    (∀ n eof, LentTo (CutStream.byteSrc S B fuel) Q K c₀ c n eof → n ≤ 24 * B + 3 * K + 7 + Q + C) ∧
    (Visited (CutStream.byteSrc S B fuel) Q K c₀ c → c.buf.buf.length ≤ 24 * B + 3 * K + 7 + Q + C + MARGIN ∧ H c.inner.src ≤ L) := by
  have hloc : ∀ r ∈ ms.map RangeMapper.ofMapper, CutStream.Local r := by
    intro r hr
    obtain ⟨m, hm, rfl⟩ := List.mem_map.1 hr
    rcases hms m hm with ⟨h1, h2⟩ | ⟨h1, h2, _⟩ <;> simp [CutStream.Local, RangeMapper.ofMapper, RangeMapper.anchorOf, h1, h2]
  have hreach : CutStream.reach (ms.map RangeMapper.ofMapper) ≤ D := by
    apply CutStream.foldr_max_le
    intro x hx
    obtain ⟨r, hr, rfl⟩ := List.mem_map.1 hx
    obtain ⟨m, hm, rfl⟩ := List.mem_map.1 (List.mem_filter.1 hr).1
    rcases hms m hm with ⟨h1, h2⟩ | ⟨h1, h2, h3, h4⟩ <;> simp only [RangeMapper.tailMargin, RangeMapper.ofMapper, RangeMapper.anchorOf, h1, h2, if_true, if_false]
    · exact Nat.zero_le _
    · omega
  obtain ⟨R, hR, hr⟩ := hd
  generalize hE : CutStream.reach (ms.map RangeMapper.ofMapper) = E at hreach
  have hQ : 24 * B + 3 * K + 7 + Q + E + 1 ≤ cutRequest B Q K D := by
    unfold cutRequest
    omega
  have hadds := CutStream.feed_adds (Q := 24 * B + 3 * K + 7 + Q) (K := E) (C := C) (s₀ := s₀) hR.serves hfit (fun s n eof h => hC s n eof (h.mono hQ hreach))
  have hrest := CutStream.new_rests (S := S) (Q := Q) (K := K) (C := C) (Q' := 24 * B + 3 * K + 7 + Q + E + 1) hr hloc hc
  rw [hE] at hrest
  have hl : StreamBuf.limit B Q K C 1 = 24 * B + 3 * K + 7 + Q + C := by
    unfold StreamBuf.limit
    omega
  have hlt : StreamBuf.limit B Q K 0 0 < 24 * B + 3 * K + 7 + Q := by unfold StreamBuf.limit; omega
  refine ⟨fun n eof h => ?_, fun h => ?_⟩
  · rw [← hl]
    exact (LentTo.bounded hadds hlt hrest h).2.1
  · have hv := h.rests hadds hlt hrest
    have h1 := small_length hv.small
    rw [hv.align, hl] at h1
    refine ⟨h1, hH _ ?_⟩
    have := hv.inner
    split at this
    · exact this.mono hQ hreach
    · exact this.1.mono hQ hreach

theorem cat_length (filler : Byte) (files : Files) : (Spec.cat (files.map fun f => Spec.alignTo 1 filler f.1)).length = (files.map fun f => f.1.length).sum := by
  simp only [alignTo_one, Spec.cat, List.length_flatten, List.map_map]
  rfl

/-- What `--cut` of concatenated files lends at most. -/
def cutCatLimit (B Q K D : Nat) : Nat := 24 * B + 3 * K + 7 + Q + catLimit B (cutRequest B Q K D) D 1

/-- The bytes in the buffers of `--cut`, of `--cat` and of the files. -/
def cutCatHeld (c : Buffered (CutState (CatStream (Buffered Reader)))) : Nat := c.buf.buf.length + catHeld c.inner.src

/-- What they hold at most, with `n` files. -/
def cutCatHold (B Q K D n : Nat) : Nat :=
  cutCatLimit B Q K D + MARGIN + (catLimit B (cutRequest B Q K D) D 1 + fileLimit B (catRequest B (cutRequest B Q K D) D) D 1 + (n + 2) * MARGIN)

/-- **C46** (`--cut RANGES FILE...`): the same as `C46_cut_partial` for any number of concatenated files. -/
theorem C46_cut_files_partial (B fuel Q K D : Nat) (hB : 0 < B) (oc : Bool) (filler : Byte) (files : Files) (hne : files ≠ []) (hf : enough 1 files < fuel) (hfit : (files.map fun f => f.1.length).sum ≤ usizeMax) (ms : List SegmentMapper)
    (hms : ∀ m ∈ ms, m.start.anchor = 0 ∧ m.stop.anchor = 0 ∨ m.start.anchor ≠ 0 ∧ m.stop.anchor ≠ 0 ∧ -(D : Int) ≤ m.start.offset ∧ -(D : Int) ≤ m.stop.offset)
    {c₀ c : Buffered (CutState (CatStream (Buffered Reader)))} (hc : CutStream.new B oc (CatStream.new B (rawStreams B 1 filler files)) (ms.map RangeMapper.ofMapper) = .ok c₀) :
    (∀ n eof, LentTo (CutStream.byteSrc (CatStream.byteSrc (RawStream.byteSrc B fuel) B fuel) B fuel) Q K c₀ c n eof → n ≤ cutCatLimit B Q K D) ∧
    (Visited (CutStream.byteSrc (CatStream.byteSrc (RawStream.byteSrc B fuel) B fuel) B fuel) Q K c₀ c → cutCatHeld c ≤ cutCatHold B Q K D files.length) := by
  have hd := cat_delivers B fuel 1 filler files hB (by decide) hf
  have hlen := cat_length filler files
  have := cut_bounded (c := c) catHeld B fuel Q K D (catLimit B (cutRequest B Q K D) D 1)
    (catLimit B (cutRequest B Q K D) D 1 + fileLimit B (catRequest B (cutRequest B Q K D) D) D 1 + (files.length + 2) * MARGIN) hd (by omega)
    (fun s n eof h => (C46_cat B fuel _ _ 1 filler (by decide) files hne).1 n eof h) (fun s h => (C46_cat B fuel _ _ 1 filler (by decide) files hne).2 h) oc ms hms hc
  refine ⟨this.1, fun h => ?_⟩
  obtain ⟨h1, h2⟩ := this.2 h
  unfold cutCatHeld cutCatHold cutCatLimit
  omega

/-- The bound for the slices of `--cut`. -/
def cutDumpLimit (B pitch span stop cols D files : Nat) : Nat :=
  dumpLimit B pitch span cols (cutCatLimit B (span + stop + pitch + 1) (span + stop + 2 * pitch) D) (cutCatHold B (span + stop + pitch + 1) (span + stop + 2 * pitch) D files)

/-- **C46** (`--cut RANGES --width N,S..E FILE...`): with ranges as in `C46_cut_partial` the whole program holds a bounded number of bytes, however long the files are. -/
theorem C46_cut_dump_partial (B fuel fuel' pitch D : Nat) (oc : Bool) (filler : Byte) (files : Files) (ms : List SegmentMapper) (f : Formatting) (m : SegmentMapper) (start stop : Int) (hB : 0 < B)
    (hne : files ≠ []) (hf : enough 1 files < fuel) (hfit : (files.map fun f => f.1.length).sum ≤ usizeMax) (hp : 0 < pitch)
    (hms : ∀ m ∈ ms, m.start.anchor = 0 ∧ m.stop.anchor = 0 ∨ m.start.anchor ≠ 0 ∧ m.stop.anchor ≠ 0 ∧ -(D : Int) ≤ m.start.offset ∧ -(D : Int) ≤ m.stop.offset)
    (hm : m.evaluate (0, pitch) (0, pitch) = (start, stop)) (hlt : start < stop) (hstop : 1 ≤ stop) (hstart : -(15 * pitch) < start) (hL : (stop - start).toNat + stop.toNat + pitch + 1 ≤ (B - 1784) / 8)
    {c₀ : Buffered (CutState (CatStream (Buffered Reader)))} (hc : CutStream.new B oc (CatStream.new B (rawStreams B 1 filler files)) (ms.map RangeMapper.ofMapper) = .ok c₀)
    {p : ConstSlicerParams} (hpar : ConstSlicerParams.fromRaw fuel' pitch m = .ok p) {st : ConstSlicer (Buffered (CutState (CatStream (Buffered Reader))))} (hnew : ConstSlicer.new c₀ p = .ok st)
    {d : Buffered (ScatterDrain (ConstSlicer (Buffered (CutState (CatStream (Buffered Reader))))))}
    (h : Copying (ScatterDrain.byteSrc (ConstSlicer.segSrc (CutStream.byteSrc (CatStream.byteSrc (RawStream.byteSrc B fuel) B fuel) B fuel)) f B fuel) B (ScatterDrain.through B st) d) :
    heldOver cutCatHeld d ≤ cutDumpLimit B pitch (stop - start).toNat stop.toNat f.minWidth D files.length ∧
    ∀ eof n d', (ScatterDrain.byteSrc (ConstSlicer.segSrc (CutStream.byteSrc (CatStream.byteSrc (RawStream.byteSrc B fuel) B fuel) B fuel)) f B fuel).fill d B = .ok ((eof, n), d') →
      heldOver cutCatHeld d' ≤ cutDumpLimit B pitch (stop - start).toNat stop.toNat f.minWidth D files.length := by
  have hcd := CutStream.delivers hB (cat_delivers B fuel 1 filler files hB (by decide) hf) hc hf
  have hA : ServesAmply (CutStream.byteSrc (CatStream.byteSrc (RawStream.byteSrc B fuel) B fuel) B fuel) (IoErr (files.map Prod.snd)) NlMargin ((B - 1784) / 8) c₀ (enough 1 files)
      (Spec.keep (coverAny (Spec.cat (files.map fun f => Spec.alignTo 1 filler f.1)).length (ms.map RangeMapper.ofMapper)) 0 (Spec.cat (files.map fun f => Spec.alignTo 1 filler f.1))) := by
    cases ho : Cutter.ofRanges oc (ms.map RangeMapper.ofMapper) with
    | error e => simp [CutStream.new, ho] at hc
    | ok cutter =>
      simp only [CutStream.new, ho] at hc
      cases hc
      exact Delivers.amply hB hcd
  exact C46_width_partial cutCatHeld B fuel fuel' pitch _ _ f m start stop hp hm hlt hstop hstart (hA.mono (fun _ h => h) (fun _ h => h) hL)
    (fun s n e hl => (C46_cut_files_partial B fuel _ _ D hB oc filler files hne hf hfit ms hms hc).1 n e hl)
    (fun s hv => (C46_cut_files_partial B fuel _ _ D hB oc filler files hne hf hfit ms hms hc).2 hv) hpar hnew h

/-- `nd --cut 2..30,e-5..` of 40 bytes read by nines and 3 more by twos, with a block of 2200 bytes. -/
def sampleCutDump : ByteSrc (Buffered (ScatterDrain (ConstSlicer (Buffered (CutState (CatStream (Buffered Reader))))))) :=
  ScatterDrain.byteSrc (ConstSlicer.segSrc (CutStream.byteSrc (CatStream.byteSrc (RawStream.byteSrc 2200 200) 2200 200) 2200 200)) { style := .hhh, minWidth := 16 } 2200 200

def sampleCutRanges : List SegmentMapper := [⟨⟨0, 2⟩, ⟨0, 30⟩⟩, ⟨⟨1, -5⟩, ⟨1, 0⟩⟩]

/-- The hypotheses are met by a run that has printed the 33 bytes in three lines. -/
example : ∃ c₀ st d, CutStream.new 2200 false (CatStream.new 2200 (rawStreams 2200 1 0 sampleFiles)) (sampleCutRanges.map RangeMapper.ofMapper) = .ok c₀ ∧
    ConstSlicer.new c₀ { head := 0, tail := -15, pitch := 16, span := 16 } = .ok st ∧ Copying sampleCutDump 2200 (ScatterDrain.through 2200 st) d ∧ d.inner.lines = 3 ∧
    heldOver cutCatHeld d ≤ cutDumpLimit 2200 16 16 16 16 5 2 := by
  obtain ⟨c₀, hc⟩ := C05_new_ok 2200 (CatStream.new 2200 (rawStreams 2200 1 0 sampleFiles)) (sampleCutRanges.map RangeMapper.ofMapper)
  obtain ⟨st, hst⟩ : ∃ st, ConstSlicer.new c₀ { head := 0, tail := -15, pitch := 16, span := 16 } = .ok st := ⟨_, rfl⟩
  have hrun : (match CutStream.new 2200 false (CatStream.new 2200 (rawStreams 2200 1 0 sampleFiles)) (sampleCutRanges.map RangeMapper.ofMapper) with
    | .error _ => 0
    | .ok c₀ => match ConstSlicer.new c₀ { head := 0, tail := -15, pitch := 16, span := 16 } with
      | .error _ => 0
      | .ok st => match sampleCutDump.fill (ScatterDrain.through 2200 st) 2200 with
        | .error _ => 0
        | .ok (r, d) => match sampleCutDump.consume d r.2 with
          | .error _ => 0
          | .ok d => d.inner.lines) = 3 := by decide +kernel
  rw [hc] at hrun
  simp only [hst] at hrun
  split at hrun
  · cases hrun
  · rename_i r d hfill
    split at hrun
    · cases hrun
    · rename_i d' hcons
      obtain ⟨eof, n⟩ := r
      have hcp : Copying sampleCutDump 2200 (ScatterDrain.through 2200 st) d' := Copying.start.next hfill hcons
      exact ⟨c₀, st, d', hc, hst, hcp, hrun, (C46_cut_dump_partial 2200 200 2 16 5 false 0 sampleFiles sampleCutRanges { style := .hhh, minWidth := 16 } .whole 0 16 (by decide) (by decide)
        (by decide) (by decide) (by decide) (by decide) (by decide) (by decide) (by decide) (by decide) (by decide) hc (p := { head := 0, tail := -15, pitch := 16, span := 16 }) (by decide) hst hcp).1⟩

end Nd.Props
