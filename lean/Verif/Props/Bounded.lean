import Verif.Proof.BoundedCat
import Verif.Proof.BoundedClip
import Verif.Proof.BoundedCut
import Verif.Proof.BoundedText
import Verif.Props.Cut
import Verif.Props.Drain
/-!
# C46: inputs of any length are processed in bounded memory

What is counted are the bytes in the buffers (the lengths of the `Vec`s; their capacities, which the model does not have, are at most twice as large unless the code reserves more) and 16 bytes per
remembered slice.
-/
namespace Nd.Props
open Nd

/-- What a file stream holds at most, for clients that ask for at most `Q` bytes at once and leave at most `K` bytes.  The length of the file does not occur. -/
def fileLimit (B Q K align : Nat) : Nat := 25 * B + 3 * K + 6 + Q + align

/-- The requests that `--cat` passes on. -/
def catRequest (B Q K : Nat) : Nat := 24 * B + 3 * K + 8 + Q

/-- What `--cat` holds in its cache at most. -/
def catLimit (B Q K align : Nat) : Nat := 24 * B + 3 * K + 7 + Q + 2 * fileLimit B (catRequest B Q K) K align

/-- **C46** (a file): however long the file and however `read()` cuts it, a client that asks for at most `Q` bytes at once and leaves at most `K` bytes for the next time (except at the end) is lent at
most `fileLimit` bytes, and the buffer contains only the margin besides. -/
theorem C46_file (B fuel Q K align : Nat) (filler : Byte) (ha : 0 < align) (content : Bytes) (sched : Nat → Option Nat) {s : Buffered Reader} {n : Nat} {eof : Bool}
    (h : LentTo (RawStream.byteSrc B fuel) Q K (RawStream.new B (Reader.open content sched) align filler) s n eof) :
    n ≤ fileLimit B Q K align ∧ s.buf.buf.length ≤ fileLimit B Q K align + MARGIN := by
  obtain ⟨h1, h2, _⟩ := LentTo.bounded (RawStream.adds B _) (Nat.lt_succ_self _) (RawStream.new_rests B Q K align ha filler _) h
  unfold StreamBuf.limit at h1 h2
  unfold fileLimit
  omega

/-- A file of 1000 bytes, with blocks of 4 bytes: a client that takes everything has never more than 111 bytes before it, although it is lent bytes. -/
example : ∃ s n, LentTo (RawStream.byteSrc 4 9) 4 0 (RawStream.new 4 (Reader.open (List.replicate 1000 65) fun _ => some 3) 1 0) s n false ∧ 0 < n ∧ n ≤ 111 := by
  have hrun : (match (RawStream.byteSrc 4 9).fill (RawStream.new 4 (Reader.open (List.replicate 1000 65) fun _ => some 3) 1 0) 4 with
    | .error _ => (true, 0)
    | .ok (r, _) => r) = (false, 6) := by decide +kernel
  split at hrun
  · cases hrun
  · rename_i r s hf
    rw [hrun] at hf
    have hl : LentTo (RawStream.byteSrc 4 9) 4 0 (RawStream.new 4 (Reader.open (List.replicate 1000 65) fun _ => some 3) 1 0) s 6 false := ⟨_, _, .start, Nat.le_refl _, hf⟩
    exact ⟨s, 6, hl, by decide, (C46_file 4 9 4 0 1 0 (by decide) _ _ hl).1⟩

theorem small_length {B Q K C : Nat} {s : StreamBuf} (h : s.Small B Q K C) : s.buf.length ≤ StreamBuf.limit B Q K C s.align + MARGIN := by
  have := h.len
  rw [h.margin]
  split at this
  · omega
  · unfold StreamBuf.limit
    omega

theorem file_visited (B fuel Q K align : Nat) (filler : Byte) (ha : 0 < align) (src : Reader) {s : Buffered Reader}
    (h : Visited (RawStream.byteSrc B fuel) Q K (RawStream.new B src align filler) s) : s.buf.buf.length ≤ fileLimit B Q K align + MARGIN := by
  have hr := h.rests (RawStream.adds B _) (Nat.lt_succ_self _) (RawStream.new_rests B Q K align ha filler _)
  have := small_length hr.small
  rw [hr.align] at this
  unfold StreamBuf.limit at this
  unfold fileLimit
  omega

theorem files_modest (B fuel Q K align : Nat) (filler : Byte) (ha : 0 < align) (files : Files) :
    CatStream.Modest (RawStream.byteSrc B fuel) Q K (fileLimit B Q K align) (rawStreams B align filler files) := by
  intro s₀ hs s n eof h
  obtain ⟨f, _, rfl⟩ := List.mem_map.1 hs
  refine ⟨(C46_file B fuel Q K align filler ha _ _ h).1, ?_⟩
  exact (LentTo.bounded (RawStream.adds B _) (Nat.lt_succ_self _) (RawStream.new_rests B Q K align ha filler _) h).2.2

/-- The bytes held by `--cat`: its cache and the buffers of the files. -/
def catHeld (c : CatStream (Buffered Reader)) : Nat := c.cache.buf.length + (c.srcs.map fun s => s.buf.buf.length).sum

theorem unopened (B align : Nat) (filler : Byte) : ∀ {srcs : List (Buffered Reader)} {files : Files}, srcs <:+ rawStreams B align filler files → (srcs.map fun s => s.buf.buf.length).sum ≤ files.length * MARGIN
  | srcs, files, h => by
    have hall : ∀ s ∈ srcs, s.buf.buf.length = MARGIN := by
      intro s hs
      obtain ⟨f, _, rfl⟩ := List.mem_map.1 (h.subset hs)
      simp only [RawStream.new, StreamBuf.newWithAlign, List.length_replicate]
    have hlen : srcs.length ≤ files.length := by
      have := h.length_le
      simpa [rawStreams] using this
    have : (srcs.map fun s => s.buf.buf.length).sum = srcs.length * MARGIN := by
      clear h hlen
      induction srcs with
      | nil => simp
      | cons s rest ih =>
        rw [List.map_cons, List.sum_cons, hall s (by simp), ih fun x hx => hall x (by simp [hx]), List.length_cons, Nat.add_mul, Nat.one_mul, Nat.add_comm]
    rw [this]
    exact Nat.mul_le_mul_right _ hlen

theorem cat_visited (B fuel Q K align : Nat) (filler : Byte) (ha : 0 < align) (files : Files) (hne : files ≠ []) {c : CatStream (Buffered Reader)}
    (h : Visited (CatStream.byteSrc (RawStream.byteSrc B fuel) B fuel) Q K (CatStream.new B (rawStreams B align filler files)) c) :
    catHeld c ≤ catLimit B Q K align + fileLimit B (catRequest B Q K) K align + (files.length + 2) * MARGIN := by
  have hr := CatStream.rests_of_visited (files_modest B fuel (catRequest B Q K) K align filler ha files) (by unfold StreamBuf.limit catRequest; omega) (by simpa [rawStreams] using hne) h
  have hcache := small_length hr.small
  rw [hr.align] at hcache
  have hl : StreamBuf.limit B Q K (2 * fileLimit B (catRequest B Q K) K align) 1 = catLimit B Q K align := by
    unfold StreamBuf.limit catLimit
    omega
  rw [hl] at hcache
  have hm : (files.length + 2) * MARGIN = files.length * MARGIN + 2 * MARGIN := Nat.add_mul _ _ _
  have hs := hr.srcs
  unfold catHeld
  split at hs
  · rw [hs]
    simp only [List.map_nil, List.sum_nil]
    omega
  · obtain ⟨s₀, s, rest, h1, h2, h3⟩ := hs
    rw [h2, List.map_cons, List.sum_cons]
    have h4 := unopened B align filler ((List.suffix_cons _ _).trans h1)
    obtain ⟨f, _, hf⟩ := List.mem_map.1 (h1.subset (List.mem_cons_self))
    rw [← hf] at h3
    have h5 := file_visited B fuel _ K align filler ha _ h3
    omega

/-- **C46** (`--cat`): the same for any number of concatenated files of any lengths: what is lent, and all that is held between two rounds. -/
theorem C46_cat (B fuel Q K align : Nat) (filler : Byte) (ha : 0 < align) (files : Files) (hne : files ≠ []) {c : CatStream (Buffered Reader)} :
    (∀ n eof, LentTo (CatStream.byteSrc (RawStream.byteSrc B fuel) B fuel) Q K (CatStream.new B (rawStreams B align filler files)) c n eof → n ≤ catLimit B Q K align) ∧
    (Visited (CatStream.byteSrc (RawStream.byteSrc B fuel) B fuel) Q K (CatStream.new B (rawStreams B align filler files)) c →
      catHeld c ≤ catLimit B Q K align + fileLimit B (catRequest B Q K) K align + (files.length + 2) * MARGIN) := by
  refine ⟨fun n eof h => ?_, cat_visited B fuel Q K align filler ha files hne⟩
  obtain ⟨r, req, h1, h2, h3⟩ := h
  have hm := files_modest B fuel (catRequest B Q K) K align filler ha files
  have hQ : StreamBuf.limit B Q K 1 0 < catRequest B Q K := by
    unfold StreamBuf.limit catRequest
    omega
  have hr := CatStream.rests_of_visited hm hQ (by simpa [rawStreams] using hne) h1
  obtain ⟨g, _⟩ := (hr.fill hm hQ h2 h3).lent (fuel := fuel) hm
  unfold StreamBuf.limit at g
  unfold catLimit
  omega

/-- Two files, the second one of 1000 bytes. -/
example : ∃ c n, LentTo (CatStream.byteSrc (RawStream.byteSrc 4 9) 4 9) 4 0 (CatStream.new 4 (rawStreams 4 1 0 [([1, 2], fun _ => some 3), (List.replicate 1000 65, fun _ => some 3)])) c n false ∧
    0 < n ∧ n ≤ catLimit 4 4 0 1 ∧ catLimit 4 4 0 1 < 600 := by
  have hrun : (match (CatStream.byteSrc (RawStream.byteSrc 4 9) 4 9).fill (CatStream.new 4 (rawStreams 4 1 0 [([1, 2], fun _ => some 3), (List.replicate 1000 65, fun _ => some 3)])) 4 with
    | .error _ => (true, 0)
    | .ok (r, _) => r) = (false, 8) := by decide +kernel
  split at hrun
  · cases hrun
  · rename_i r c hf
    rw [hrun] at hf
    have hl : LentTo (CatStream.byteSrc (RawStream.byteSrc 4 9) 4 9) 4 0 (CatStream.new 4 (rawStreams 4 1 0 [([1, 2], fun _ => some 3), (List.replicate 1000 65, fun _ => some 3)])) c 8 false :=
      ⟨_, _, .start, Nat.le_refl _, hf⟩
    exact ⟨c, 8, hl, by decide, (C46_cat 4 9 4 0 1 0 (by decide) _ (by decide)).1 _ _ hl, by decide⟩

/-- The states in which the final loop of the program, `consume_stream` (`src/main.rs` 219-236), finds its stream. -/
inductive Copying (S : ByteSrc σ) (B : Nat) (s₀ : σ) : σ → Prop
  | start : Copying S B s₀ s₀
  | next {s s' s'' : σ} {n : Nat} {eof : Bool} : Copying S B s₀ s → S.fill s B = .ok ((eof, n), s') → S.consume s' n = .ok s'' → Copying S B s₀ s''

theorem Copying.visited {S : ByteSrc σ} {B : Nat} {s₀ s : σ} (h : Copying S B s₀ s) : Visited S B 0 s₀ s := by
  induction h with
  | start => exact .start
  | next _ hf hc ih => exact ih.round (Nat.le_refl _) hf (Nat.le_refl _) (fun _ => by omega) hc

/-- What the program holds while it prints slices of concatenated files: the text to be written, the slices, the cache of `--cat` and the buffers of the files. -/
def held (d : Buffered (ScatterDrain (ConstSlicer (CatStream (Buffered Reader))))) : Nat :=
  d.buf.buf.length + 16 * d.inner.src.segs.segments.length + catHeld d.inner.src.src

/-- The bound: `pitch`, `span` and `stop` of the slices, the number of columns and the number of files.  The lengths of the files do not occur. -/
def heldLimit (B pitch span stop cols files : Nat) : Nat :=
  let lent := catLimit B (span + stop + pitch + 1) (span + stop + 2 * pitch) 1
  25 * B + 7 + (lent / pitch + 1) * Format.reserve (max cols span) + MARGIN + 16 * (lent / pitch + 1) +
    (lent + fileLimit B (catRequest B (span + stop + pitch + 1) (span + stop + 2 * pitch)) (span + stop + 2 * pitch) 1 + (files + 2) * MARGIN)

/-- **C46** (`nd FILE...`, `--width N,S..E`): however long the concatenated files are and however `read()` cuts them, the program holds at most `heldLimit` bytes whenever the final loop asks for text and whenever it has been lent some. -/
theorem C46_dump_partial (B fuel fuel' pitch : Nat) (filler : Byte) (files : Files) (f : Formatting) (m : SegmentMapper) (start stop : Int) (hB : 0 < B) (hne : files ≠ []) (hf : enough 1 files < fuel) (hp : 0 < pitch)
    (hm : m.evaluate (0, pitch) (0, pitch) = (start, stop)) (hlt : start < stop) (hstop : 1 ≤ stop) (hstart : -(15 * pitch) < start) (hL : (stop - start).toNat + stop.toNat + pitch + 1 ≤ (B - 1784) / 8)
    {p : ConstSlicerParams} (hpar : ConstSlicerParams.fromRaw fuel' pitch m = .ok p) {st : ConstSlicer (CatStream (Buffered Reader))}
    (hnew : ConstSlicer.new (CatStream.new B (rawStreams B 1 filler files)) p = .ok st) {d : Buffered (ScatterDrain (ConstSlicer (CatStream (Buffered Reader))))}
    (h : Copying (ScatterDrain.byteSrc (ConstSlicer.segSrc (CatStream.byteSrc (RawStream.byteSrc B fuel) B fuel)) f B fuel) B (ScatterDrain.through B st) d) :
    held d ≤ heldLimit B pitch (stop - start).toNat stop.toNat f.minWidth files.length ∧
    ∀ eof n d', (ScatterDrain.byteSrc (ConstSlicer.segSrc (CatStream.byteSrc (RawStream.byteSrc B fuel) B fuel)) f B fuel).fill d B = .ok ((eof, n), d') →
      held d' ≤ heldLimit B pitch (stop - start).toNat stop.toNat f.minWidth files.length := by
  obtain ⟨h1, h2, h3, h4, h5, h6, h7, h8, h9, h10, h11⟩ := ConstSlicerParams.fromRaw_comb hp hpar 0 start stop hm
  have hhead := h10 hstop
  have ok : ConstSlicer.ParamsOk p := ⟨by omega, by omega, h4, h7 hstop, h5, h6, h8 hstart⟩
  have hesc : ConstSlicer.escape p ≤ stop.toNat := by
    unfold ConstSlicer.escape
    split <;> omega
  have hspan : (stop - start).toNat = p.span := by omega
  have hst : heldLimit B pitch (stop - start).toNat stop.toNat f.minWidth files.length = heldLimit B p.pitch p.span stop.toNat f.minWidth files.length := by rw [hspan, h2]
  rw [hst]
  have hcat := cat_amply B fuel 1 filler files hB (by decide) hne hf
  have hadds := ScatterDrain.feed_adds (S := CatStream.byteSrc (RawStream.byteSrc B fuel) B fuel) (s₀ := CatStream.new B (rawStreams B 1 filler files)) (P := p.pitch) (W := p.span)
    (M := (p.tail + p.span).toNat) (esc := ConstSlicer.escape p) (N := catLimit B (p.span + stop.toNat + p.pitch + 1) (p.span + stop.toNat + 2 * p.pitch) 1) f
    (StreamBuf.limit B B 0 0 0 + 1) (fun s n e hl => (C46_cat B fuel _ _ 1 filler (by decide) files hne).1 n e (hl.mono (by omega) (by omega)))
    (fun s n hl => by
      have := hl.ample hcat
      omega)
  have hrests := ScatterDrain.through_rests (S := CatStream.byteSrc (RawStream.byteSrc B fuel) B fuel) B B 0
    ((catLimit B (p.span + stop.toNat + p.pitch + 1) (p.span + stop.toNat + 2 * p.pitch) 1 / p.pitch + 1) * Format.reserve (max f.minWidth p.span))
    (catLimit B (p.span + stop.toNat + p.pitch + 1) (p.span + stop.toNat + 2 * p.pitch) 1) p ok _ hnew
  have hv := h.visited
  have key : ∀ d d', Visited (ScatterDrain.byteSrc (ConstSlicer.segSrc (CatStream.byteSrc (RawStream.byteSrc B fuel) B fuel)) f B fuel) B 0 (ScatterDrain.through B st) d →
      d.inner = d'.inner →
      d'.buf.buf.length ≤ StreamBuf.limit B B 0 ((catLimit B (p.span + stop.toNat + p.pitch + 1) (p.span + stop.toNat + 2 * p.pitch) 1 / p.pitch + 1) * Format.reserve (max f.minWidth p.span)) 1 + MARGIN →
      held d' ≤ heldLimit B p.pitch p.span stop.toNat f.minWidth files.length := by
    intro d d' hv hin htext
    have hr := hv.rests hadds (Nat.lt_succ_self _) hrests
    have hsp : d'.inner.src.Spent (CatStream.byteSrc (RawStream.byteSrc B fuel) B fuel) (CatStream.new B (rawStreams B 1 filler files)) p.pitch p.span (ConstSlicer.escape p)
        (catLimit B (p.span + stop.toNat + p.pitch + 1) (p.span + stop.toNat + 2 * p.pitch) 1) := by
      rw [← hin]
      have := hr.inner
      split at this
      · exact this
      · exact this.spent
    have hcv := cat_visited B fuel (p.span + stop.toNat + p.pitch + 1) (p.span + stop.toNat + 2 * p.pitch) 1 filler (by decide) files hne (hsp.src.mono (by omega) (by omega))
    have hfew := hsp.few
    unfold held heldLimit
    unfold StreamBuf.limit at htext
    simp only
    omega
  refine ⟨key d d hv rfl ?_, fun eof n d' hfill => ?_⟩
  · have hr := hv.rests hadds (Nat.lt_succ_self _) hrests
    have htext := small_length hr.small
    rw [hr.align] at htext
    exact htext
  · have hl := (LentTo.bounded hadds (Nat.lt_succ_self _) hrests ⟨d, B, hv, Nat.le_refl _, hfill⟩).1
    exact key _ d' (hv.round (Nat.le_refl _) hfill (Nat.le_refl n) (fun _ => by omega) rfl) rfl hl

/-- What `nd` does with 40 bytes read by nines and 3 more by twos, with a block of 2200 bytes. -/
def sampleDump : ByteSrc (Buffered (ScatterDrain (ConstSlicer (CatStream (Buffered Reader))))) :=
  ScatterDrain.byteSrc (ConstSlicer.segSrc (CatStream.byteSrc (RawStream.byteSrc 2200 200) 2200 200)) { style := .hhh, minWidth := 16 } 2200 200

def sampleFiles : Files := [(List.replicate 40 65, fun _ => some 9), ([66, 67, 68], fun _ => some 2)]

/-- The hypotheses are met by a run that has printed three lines: the text, the slices and the bytes held are within the bound. -/
example : ∃ st d, ConstSlicer.new (CatStream.new 2200 (rawStreams 2200 1 0 sampleFiles)) { head := 0, tail := -15, pitch := 16, span := 16 } = .ok st ∧
    Copying sampleDump 2200 (ScatterDrain.through 2200 st) d ∧ d.inner.lines = 3 ∧ held d ≤ heldLimit 2200 16 16 16 16 2 := by
  obtain ⟨st, hst⟩ : ∃ st, ConstSlicer.new (CatStream.new 2200 (rawStreams 2200 1 0 sampleFiles)) { head := 0, tail := -15, pitch := 16, span := 16 } = .ok st := ⟨_, rfl⟩
  have hrun : (match ConstSlicer.new (CatStream.new 2200 (rawStreams 2200 1 0 sampleFiles)) { head := 0, tail := -15, pitch := 16, span := 16 } with
    | .error _ => 0
    | .ok st => match sampleDump.fill (ScatterDrain.through 2200 st) 2200 with
      | .error _ => 0
      | .ok (r, d) => match sampleDump.consume d r.2 with
        | .error _ => 0
        | .ok d => d.inner.lines) = 3 := by decide +kernel
  rw [hst] at hrun
  simp only at hrun
  split at hrun
  · cases hrun
  · rename_i r d hfill
    split at hrun
    · cases hrun
    · rename_i d' hcons
      obtain ⟨eof, n⟩ := r
      have hc : Copying sampleDump 2200 (ScatterDrain.through 2200 st) d' := Copying.start.next hfill hcons
      exact ⟨st, d', hst, hc, hrun, (C46_dump_partial 2200 200 2 16 0 sampleFiles { style := .hhh, minWidth := 16 } .whole 0 16 (by decide) (by decide) (by decide) (by decide) (by decide) (by decide) (by decide)
        (by decide) (by decide) (p := { head := 0, tail := -15, pitch := 16, span := 16 }) (by decide) hst hc).1⟩

/-! ## `--zip` -/

/-- The second source has been read but nothing of it has been consumed. -/
def Stuck (R₁ R₂ : σ → Phase → Nat → Bytes → Prop) (content : Bytes) (z : Zipper σ) : Prop :=
  z.wordSize = 1 ∧ ∃ s₁ s₂ ph₁ ph₂ w₁ w₂, z.srcs = [s₁, s₂] ∧ R₁ s₁ ph₁ w₁ [] ∧ R₂ s₂ ph₂ w₂ content

theorem zip_stuck {S : ByteSrc σ} {F₁ F₂ : Err → Prop} {M₁ M₂ : Bytes → Prop} {R₁ R₂ : σ → Phase → Nat → Bytes → Prop} (h₁ : Serves S F₁ M₁ R₁) (h₂ : Serves S F₂ M₂ R₂) (B R : Nat)
    (content : Bytes) (hkeep : ∀ s s', S.consume s 0 = .ok s' → (S.slice s').length = (S.slice s).length) :
    StreamBuf.Adds (Zipper.feed S B) (fun z _ => Stuck R₁ R₂ content z) (fun z _ => ∃ s₁ s₂, z.srcs = [s₁, s₂] ∧ (0 < content.length → content.length ≤ (S.slice s₂).length)) 0 R := by
  intro z req buf eof buf' z' ⟨hw, s₁, s₂, ph₁, ph₂, w₁, w₂, hz, hr₁, hr₂⟩ _ h
  unfold Zipper.feed at h
  simp only [hz, hw, Zipper.fillAll] at h
  rcases h₁.fill _ _ _ _ ((B + 2 - 1) / 2) hr₁ with ⟨e, _, he⟩ | ⟨eof₁, n₁, w₁', s₁', he₁, hr₁', hn₁, -, -, -⟩
  · simp only [List.length_cons, List.length_nil, he] at h
    cases h
  · have hn₁ : n₁ = 0 := by simpa using hn₁
    subst hn₁
    rcases h₂.fill _ _ _ _ ((B + 2 - 1) / 2) hr₂ with ⟨e, _, he⟩ | ⟨eof₂, n₂, w₂', s₂', he₂, hr₂', hn₂, hm₂, hend, -⟩
    · simp only [List.length_cons, List.length_nil, he₁, he] at h
      cases h
    · obtain ⟨t₁, v₁, c₁, d₁, -⟩ := h₁.consume _ _ _ _ 0 hr₁' (Nat.le_refl _)
      obtain ⟨t₂, v₂, c₂, d₂, -⟩ := h₂.consume _ _ _ _ 0 hr₂' (Nat.zero_le _)
      simp only [List.length_cons, List.length_nil, he₁, he₂, Nat.zero_min, Nat.min_zero, Nat.zero_div, Nat.zero_mul, Zipper.consumeAll, c₁, c₂, Zipper.gather, List.append_nil] at h
      cases h
      refine ⟨Nat.le_refl _, Nat.le_refl _, ?_⟩
      split
      · rename_i heof
        refine ⟨t₁, t₂, rfl, fun hpos => ?_⟩
        simp only [Bool.true_and, Bool.and_eq_true] at heof
        have hn := hend heof.2
        obtain ⟨m, hm, hs⟩ := hm₂ (by omega)
        rw [hkeep _ _ c₂, hs, hn, List.take_length, List.length_append]
        omega
      · exact ⟨rfl, t₁, t₂, _, _, _, _, rfl, d₁, d₂⟩

theorem consume_nothing (B : Nat) (s : StreamBuf) : ((s.consume B 0).asSlice).length = s.asSlice.length := by
  unfold StreamBuf.consume StreamBuf.asSlice
  simp only [Nat.add_zero, if_true]
  split
  · simp only [List.length_drop]
    omega
  · split
    · simp only [List.length_drop]
      omega
    · simp only [List.length_drop]
      omega

/-- The bytes held by `--zip`: its own buffer and those of the files. -/
def zipHeld (z : Buffered (Zipper (Buffered Reader))) : Nat := z.buf.buf.length + (z.inner.srcs.map fun s => s.buf.buf.length).sum

/-- `--zip` of an empty file and another one: there is nothing to print, but the whole of the other file is read into memory before the program finds out that it is done.  There is no bound. -/
theorem C46_zip_counterexample (B fuel : Nat) (hB : 0 < B) (content : Bytes) (hpos : 0 < content.length) (hlen : content.length + 1 ≤ usizeMax)
    (hfuel : enough 1 [([], fun _ => some 1), (content, fun _ => some B)] < fuel) :
    ∃ z, (ZipStream.byteSrc (RawStream.byteSrc B fuel) B fuel).fill (ZipStream.new B (rawStreams B 1 0 [([], fun _ => some 1), (content, fun _ => some B)]) 1) B = .ok ((true, 0), z) ∧
      content.length ≤ zipHeld z := by
  have hf : content.length < fuel := Nat.lt_of_le_of_lt (le_enough 1 [([], fun _ => some 1), (content, fun _ => some B)] (content, fun _ => some B) (by simp)) hfuel
  obtain ⟨R₁, g₁, r₁⟩ := raw_delivers B fuel 1 0 [] (fun _ => some 1) hB (by decide) (by simp; omega)
  obtain ⟨R₂, g₂, r₂⟩ := raw_delivers B fuel 1 0 content (fun _ => some B) hB (by decide) hf
  rw [alignTo_one] at r₁ r₂
  obtain ⟨R, g, r⟩ := zip_delivers B fuel 1 0 [([], fun _ => some 1), (content, fun _ => some B)] hB (by decide) (by simp) (by simp; omega) hfuel
  have hz : Spec.zip 1 ([(([] : Bytes), fun _ : Nat => some 1), (content, fun _ => some B)].map fun f => Spec.alignTo 1 0 f.1) = [] := by
    simp only [List.map_cons, List.map_nil, alignTo_one]
    unfold Spec.zip
    rw [show Spec.minLen [[], content] = 0 by simp [Spec.minLen]]
    rfl
  rw [hz] at r
  have hadds := zip_stuck g₁.serves g₂.serves B (B + 1) content (fun s s' h => by
    cases h
    exact consume_nothing B s.buf)
  rcases g.fill _ _ _ _ B r with ⟨e, ⟨_, sched, hs, k, hk⟩, _⟩ | ⟨eof, n, w', z, he, -, hn, -, -, hne, -⟩
  · simp only [List.map_cons, List.map_nil, List.mem_cons, List.not_mem_nil, or_false] at hs
    rcases hs with h | h <;> subst h <;> cases hk
  · have hn : n = 0 := by simpa using hn
    subst hn
    cases eof with
    | false => exact absurd (hne rfl).1 (by decide)
    | true =>
      refine ⟨z, he, ?_⟩
      unfold ZipStream.byteSrc bufferedSrc at he
      simp only at he
      split at he
      · cases he
      · rename_i heq
        cases he
        obtain ⟨q1, q2, -⟩ := StreamBuf.fillBuf_length hadds (by simp [ZipStream.new, StreamBuf.new, StreamBuf.newWithAlign]) Nat.one_pos (by simp [ZipStream.new, StreamBuf.new, StreamBuf.newWithAlign]) rfl
          ⟨rfl, _, _, _, _, _, _, rfl, r₁, r₂⟩ heq
        simp only [Prod.mk.injEq] at q2
        rw [if_pos q2.1.symm] at q1
        obtain ⟨_, s₁, s₂, q3, q4⟩ := q1
        have := q4 hpos
        unfold zipHeld
        simp only [RawStream.byteSrc, bufferedSrc, StreamBuf.asSlice, List.length_drop] at this
        simp only [q3, List.map_cons, List.map_nil, List.sum_cons, List.sum_nil]
        omega

/-- A million bytes are held although the blocks have 2200 bytes. -/
example : ∃ z, (ZipStream.byteSrc (RawStream.byteSrc 2200 3000000) 2200 3000000).fill
      (ZipStream.new 2200 (rawStreams 2200 1 0 [([], fun _ => some 1), (List.replicate 1000000 65, fun _ => some 2200)]) 1) 2200 = .ok ((true, 0), z) ∧ 1000000 ≤ zipHeld z := by
  obtain ⟨z, h1, h2⟩ := C46_zip_counterexample 2200 3000000 (by decide) (List.replicate 1000000 65) (by rw [List.length_replicate]; decide) (by rw [List.length_replicate]; decide)
    (by simp only [enough, List.map_cons, List.map_nil, List.length_replicate, List.length_nil, List.sum_cons, List.sum_nil]; decide)
  rw [List.length_replicate] at h2
  exact ⟨z, h1, h2⟩

/-! ## `--pad`, `--seek` and `--range` -/

/-- What `n` concatenated files hold at most, the files included. -/
def catHold (B Q K align n : Nat) : Nat := catLimit B Q K align + MARGIN + n * (fileLimit B (catRequest B Q K) K align + MARGIN)

/-- What the padded files lend at most. -/
def padLimit (B Q K align : Nat) : Nat := 24 * B + 3 * K + 7 + Q + 2 * max (catLimit B (catRequest B Q K) K align) (max B (2 * K))

/-- What the padded files hold at most. -/
def padHold (B Q K align n : Nat) : Nat := padLimit B Q K align + MARGIN + 3 * max (catHold B (catRequest B Q K) K align n) (max B (2 * K) + MARGIN)

/-- The bytes that are left in the padded files when the start of the range has been found, at most, and those the client leaves. -/
def clipRest (B K align : Nat) : Nat := K + padLimit B B 0 align

/-- **C46** (`--pad`, `--seek`, `--range`): until the end of the range has been reported, a client within its limits is lent a bounded number of bytes of the concatenated files, and the buffers together
contain a bounded number of bytes, however long the files and the padding and however far the start of the range. -/
theorem C46_clip (B fuel Q K align : Nat) (filler : Byte) (ha : 0 < align) (files : Files) (hne : files ≠ []) (pad : Option (Nat × Nat)) (seek : Option Nat) (range : Option (Nat × Nat)) {params : ClipperParams}
    (hp : ClipperParams.fromRaw pad seek range = .ok params) {c c' : ClipStream (ClipStream.Padded (CatStream (Buffered Reader)))} {req n : Nat} {eof : Bool} (hreq : req ≤ Q)
    (h : Underway (ClipStream.byteSrc (ClipStream.paddedSrc (CatStream.byteSrc (RawStream.byteSrc B fuel) B fuel) B fuel) B fuel) Q K
      (ClipStream.new B (CatStream.new B (rawStreams B align filler files)) params filler) c)
    (hf : (ClipStream.byteSrc (ClipStream.paddedSrc (CatStream.byteSrc (RawStream.byteSrc B fuel) B fuel) B fuel) B fuel).fill c req = .ok ((eof, n), c')) :
    n ≤ padLimit B (B + Q + 1) (clipRest B K align) align ∧
    ClipStream.holding (CatStream.holding fun s => s.buf.buf.length) c'.src ≤ padHold B (B + Q + 1) (clipRest B K align) align files.length := by
  have hstrip : params.clip.2 = 0 := by
    have hok : ∀ {b : Prop} [Decidable b] {x : Except Err ClipperParams}, (if b then .error .panic else x) = .ok params → x = .ok params := by
      intro b _ x h
      split at h
      · cases h
      · exact h
    unfold ClipperParams.fromRaw at hp
    cases hok (hok hp)
    rfl
  have hl : ∀ Q K, LendsUpTo (CatStream.byteSrc (RawStream.byteSrc B fuel) B fuel) Q K (catLimit B Q K align) (CatStream.new B (rawStreams B align filler files)) := fun Q K => by
    have := CatStream.lends (S := RawStream.byteSrc B fuel) (B := B) (fuel := fuel) (Q := Q) (K := K) (C := fileLimit B (catRequest B Q K) K align) (Q' := catRequest B Q K) (srcs₀ := rawStreams B align filler files)
      (fun s hs => by
        obtain ⟨f, _, rfl⟩ := List.mem_map.1 hs
        exact (RawStream.lends B fuel _ K align ha filler _).mono (by unfold StreamBuf.limit fileLimit; omega))
      (by unfold StreamBuf.limit catRequest; omega) (by simpa [rawStreams] using hne)
    exact this.mono (by unfold StreamBuf.limit catLimit; omega)
  have hh : ∀ Q K, HoldsUpTo (CatStream.byteSrc (RawStream.byteSrc B fuel) B fuel) Q K (catHold B Q K align files.length) (CatStream.holding fun s => s.buf.buf.length)
      (CatStream.new B (rawStreams B align filler files)) := fun Q K => by
    have := CatStream.holds (S := RawStream.byteSrc B fuel) (B := B) (fuel := fuel) (Q := Q) (K := K) (C := fileLimit B (catRequest B Q K) K align) (Q' := catRequest B Q K) (srcs₀ := rawStreams B align filler files)
      (H := fun s => s.buf.buf.length) (L := fileLimit B (catRequest B Q K) K align + MARGIN)
      (fun s hs => by
        obtain ⟨f, _, rfl⟩ := List.mem_map.1 hs
        exact (RawStream.lends B fuel _ K align ha filler _).mono (by unfold StreamBuf.limit fileLimit; omega))
      (fun s hs => by
        obtain ⟨f, _, rfl⟩ := List.mem_map.1 hs
        exact (RawStream.holds B fuel _ K align ha filler _).mono (by unfold StreamBuf.limit fileLimit; omega))
      (by unfold StreamBuf.limit catRequest; omega) (by simpa [rawStreams] using hne)
    refine this.mono ?_
    rw [show (rawStreams B align filler files).length = files.length by simp [rawStreams]]
    unfold StreamBuf.limit catHold catLimit
    omega
  have hpl : ∀ Q K, LendsUpTo (ClipStream.paddedSrc (CatStream.byteSrc (RawStream.byteSrc B fuel) B fuel) B fuel) Q K (padLimit B Q K align)
      (ClipStream.pad B (CatStream.new B (rawStreams B align filler files)) params filler) := fun Q K =>
    (ClipStream.pad_lends (hl (catRequest B Q K) K) (by unfold StreamBuf.limit catRequest; omega) fuel params filler).mono (by unfold StreamBuf.limit padLimit; omega)
  have hph : ∀ Q K, HoldsUpTo (ClipStream.paddedSrc (CatStream.byteSrc (RawStream.byteSrc B fuel) B fuel) B fuel) Q K (padHold B Q K align files.length)
      (ClipStream.holding (CatStream.holding fun s => s.buf.buf.length)) (ClipStream.pad B (CatStream.new B (rawStreams B align filler files)) params filler) := fun Q K =>
    (ClipStream.pad_holds (hl (catRequest B Q K) K) (hh (catRequest B Q K) K) (by unfold StreamBuf.limit catRequest; omega) fuel params filler).mono (by unfold StreamBuf.limit padHold padLimit; omega)
  have hr := ClipStream.rests_of_underway (Q' := B + Q + 1) (K' := clipRest B K align) (hpl B 0) (hpl _ _) (by omega) (by omega) (by unfold clipRest; omega) (by unfold clipRest; omega) rfl hstrip h
  obtain ⟨g1, g2, _⟩ := hr.fill (hpl B 0) (hpl _ _) (by omega) (by omega) (by unfold clipRest; omega) hreq hf
  exact ⟨g1, hph _ _ _ g2⟩

/-- `--pad 3 --seek 5 --range ..900` of two files, the second one of 1000 bytes. -/
example : ∃ params c n, ClipperParams.fromRaw (some (3, 0)) (some 5) (some (0, 900)) = .ok params ∧
    (ClipStream.byteSrc (ClipStream.paddedSrc (CatStream.byteSrc (RawStream.byteSrc 4 9) 4 9) 4 9) 4 9).fill
      (ClipStream.new 4 (CatStream.new 4 (rawStreams 4 1 0 [([1, 2], fun _ => some 3), (List.replicate 1000 65, fun _ => some 3)])) params 0) 4 = .ok ((false, n), c) ∧
    0 < n ∧ n ≤ padLimit 4 9 (clipRest 4 0 1) 1 := by
  have hrun : (match (ClipStream.byteSrc (ClipStream.paddedSrc (CatStream.byteSrc (RawStream.byteSrc 4 9) 4 9) 4 9) 4 9).fill
      (ClipStream.new 4 (CatStream.new 4 (rawStreams 4 1 0 [([1, 2], fun _ => some 3), (List.replicate 1000 65, fun _ => some 3)])) ⟨(0, 0), (2, 0), 900⟩ 0) 4 with
    | .error _ => (true, 0)
    | .ok (r, _) => r) = (false, 18) := by decide +kernel
  split at hrun
  · cases hrun
  · rename_i r c hf
    rw [hrun] at hf
    have hp : ClipperParams.fromRaw (some (3, 0)) (some 5) (some (0, 900)) = .ok ⟨(0, 0), (2, 0), 900⟩ := by simp [ClipperParams.fromRaw, usizeMax]
    exact ⟨_, c, 18, hp, hf, by decide, (C46_clip 4 9 4 0 1 0 (by decide) _ (by decide) (some (3, 0)) (some 5) (some (0, 900)) hp (Nat.le_refl _) .start hf).1⟩

/-! ## `--cut` -/

/-- The requests that `--cut` passes on if its ranges reach back `D` bytes from the end. -/
def cutRequest (B Q K D : Nat) : Nat := 24 * B + 3 * K + 8 + Q + D

/-- What `--cut` lends at most. -/
def cutLimit (B Q K D : Nat) : Nat := 24 * B + 3 * K + 7 + Q + fileLimit B (cutRequest B Q K D) D 1

/-- **C46** (`--cut`): if each of the ranges has both ends counted from the start or both from the end (`A..B`, `e-A..e-B`), and none reaches back more than `D` bytes from the end, then what a client
is lent is bounded, and so are the bytes in the buffers of `--cut` and of the file. -/
theorem C46_cut_partial (B fuel Q K D : Nat) (hB : 0 < B) (oc : Bool) (content : Bytes) (sched : Nat → Option Nat) (hfit : content.length ≤ usizeMax) (hfuel : content.length < fuel) (ms : List SegmentMapper)
    (hms : ∀ m ∈ ms, m.start.anchor = 0 ∧ m.stop.anchor = 0 ∨ m.start.anchor ≠ 0 ∧ m.stop.anchor ≠ 0 ∧ -(D : Int) ≤ m.start.offset ∧ -(D : Int) ≤ m.stop.offset) {c₀ c : Buffered (CutState (Buffered Reader))}
    (hc : CutStream.new B oc (RawStream.new B (Reader.open content sched) 1 0) (ms.map RangeMapper.ofMapper) = .ok c₀) :
    (∀ n eof, LentTo (CutStream.byteSrc (RawStream.byteSrc B fuel) B fuel) Q K c₀ c n eof → n ≤ cutLimit B Q K D) ∧
    (Visited (CutStream.byteSrc (RawStream.byteSrc B fuel) B fuel) Q K c₀ c →
      c.buf.buf.length + c.inner.src.buf.buf.length ≤ cutLimit B Q K D + fileLimit B (cutRequest B Q K D) D 1 + 2 * MARGIN) := by
  have hloc : ∀ r ∈ ms.map RangeMapper.ofMapper, CutStream.Local r := by
    intro r hr
    obtain ⟨m, hm, rfl⟩ := List.mem_map.1 hr
    rcases hms m hm with ⟨h1, h2⟩ | ⟨h1, h2, _⟩ <;> simp [CutStream.Local, RangeMapper.ofMapper, RangeMapper.anchorOf, h1, h2]
  have hreach : CutStream.reach (ms.map RangeMapper.ofMapper) ≤ D := by
    apply CutStream.foldr_max_le
    intro x hx
    obtain ⟨r, hr, rfl⟩ := List.mem_map.1 hx
    obtain ⟨m, hm, rfl⟩ := List.mem_map.1 (List.mem_filter.1 hr).1
    rcases hms m hm with ⟨h1, h2⟩ | ⟨h1, h2, h3, h4⟩ <;> simp only [RangeMapper.tailMargin, RangeMapper.ofMapper, RangeMapper.anchorOf, h1, h2, if_true, if_false]
    · exact Nat.zero_le _
    · omega
  obtain ⟨R, hR, hr⟩ := raw_delivers B fuel 1 0 content sched hB (by decide) hfuel
  rw [alignTo_one] at hr
  generalize hE : CutStream.reach (ms.map RangeMapper.ofMapper) = E at hreach
  have hadds := CutStream.feed_adds (Q := 24 * B + 3 * K + 7 + Q) (K := E) (C := fileLimit B (cutRequest B Q K D) D 1) (s₀ := RawStream.new B (Reader.open content sched) 1 0) hR.serves hfit
    (fun s n eof h => by
      have := (C46_file B fuel _ E 1 0 (by decide) content sched h).1
      unfold fileLimit cutRequest at *
      omega)
  have hrest := CutStream.new_rests (S := RawStream.byteSrc B fuel) (Q := Q) (K := K) (C := fileLimit B (cutRequest B Q K D) D 1) (Q' := 24 * B + 3 * K + 7 + Q + E + 1) hr hloc hc
  rw [hE] at hrest
  have hl : StreamBuf.limit B Q K (fileLimit B (cutRequest B Q K D) D 1) 1 = cutLimit B Q K D := by
    unfold StreamBuf.limit cutLimit
    omega
  have hlt : StreamBuf.limit B Q K 0 0 < 24 * B + 3 * K + 7 + Q := by unfold StreamBuf.limit; omega
  refine ⟨fun n eof h => ?_, fun h => ?_⟩
  · rw [← hl]
    exact (LentTo.bounded hadds hlt hrest h).2.1
  · have hv := h.rests hadds hlt hrest
    have h1 := small_length hv.small
    rw [hv.align, hl] at h1
    have h2 : Visited (RawStream.byteSrc B fuel) (24 * B + 3 * K + 7 + Q + E + 1) E (RawStream.new B (Reader.open content sched) 1 0) c.inner.src := by
      have := hv.inner
      split at this
      · exact this
      · exact this.1
    have h3 := file_visited B fuel _ E 1 0 (by decide) _ h2
    have h4 : fileLimit B (24 * B + 3 * K + 7 + Q + E + 1) E 1 ≤ fileLimit B (cutRequest B Q K D) D 1 := by
      unfold fileLimit cutRequest
      omega
    omega

/-- `--cut 2..900000,e-5..e` of a million bytes: with blocks of 4 bytes at most 605 bytes and the two margins are held. -/
example : ∃ c₀, CutStream.new 4 false (RawStream.new 4 (Reader.open (List.replicate 1000000 65) fun _ => some 3) 1 0) ([⟨⟨0, 2⟩, ⟨0, 900000⟩⟩, ⟨⟨1, -5⟩, ⟨1, 0⟩⟩].map RangeMapper.ofMapper) = .ok c₀ ∧
    ∀ c, Visited (CutStream.byteSrc (RawStream.byteSrc 4 1000001) 4 1000001) 4 0 c₀ c → c.buf.buf.length + c.inner.src.buf.buf.length ≤ 605 + 2 * MARGIN := by
  obtain ⟨c₀, h⟩ := C05_new_ok 4 (RawStream.new 4 (Reader.open (List.replicate 1000000 65) fun _ => some 3) 1 0) ([⟨⟨0, 2⟩, ⟨0, 900000⟩⟩, ⟨⟨1, -5⟩, ⟨1, 0⟩⟩].map RangeMapper.ofMapper)
  refine ⟨c₀, h, fun c hv => Nat.le_trans ((C46_cut_partial 4 1000001 4 0 5 (by decide) false _ _ (by rw [List.length_replicate]; decide) (by rw [List.length_replicate]; decide) _ (by decide) h).2 hv) ?_⟩
  decide

/-- A buffer that gets nothing before the end of the stream is filled up to the end. -/
theorem fill_waits {f : StreamBuf.Closure τ} {P : τ → Prop} (hf : ∀ t req buf eof buf' t', P t → f t req buf = .ok (eof, buf', t') → eof = true ∨ (buf' = buf ∧ P t')) (target : Nat) :
    ∀ (fuel : Nat) (s : StreamBuf) (t : τ), P t → s.buf.length < target → ∀ s' t', StreamBuf.fillLoop f target fuel s t = .ok (s', t') → s'.isEof = true
  | 0, _, _, _, _, _, _, h => by cases h
  | fuel + 1, s, t, hP, hs, s', t', h => by
    unfold StreamBuf.fillLoop at h
    split at h
    · cases h
    · rename_i eof buf t1 heq
      simp only at h
      rcases hf _ _ _ _ _ _ hP heq with rfl | ⟨rfl, hP'⟩
      · rw [if_pos rfl] at h
        cases h
        rfl
      · split at h
        · cases h
          rfl
        · rw [if_neg (by omega)] at h
          exact fill_waits hf target fuel _ _ hP' hs _ _ h

theorem keep_from (P : Nat → Bool) (x : Nat) : ∀ (l : Bytes) (i : Nat), (∀ j, i ≤ j → j < i + l.length → P j = decide (x ≤ j)) → (Spec.keep P i l).length = min l.length (i + l.length - x)
  | [], i, _ => by simp [Spec.keep]
  | b :: l, i, h => by
    have ih := keep_from P x l (i + 1) fun j h1 h2 => h j (by omega) (by simp; omega)
    unfold Spec.keep
    rw [h i (Nat.le_refl _) (by simp)]
    by_cases hx : x ≤ i
    · rw [if_pos (by simpa using hx), List.length_cons, List.length_cons, ih]
      omega
    · rw [if_neg (by simpa using hx), List.length_cons, ih]
      omega

/-- `--cut X..` keeps the whole file from `X` on in memory, however long it is, because it waits for the end of the file: a client that asks for `B` bytes is lent all of it at once. -/
theorem C46_cut_counterexample (B fuel x : Nat) (hB : 0 < B) (content : Bytes) (hfuel : content.length < fuel) :
    ∃ c c', CutStream.new B false (RawStream.new B (Reader.open content fun _ => some B) 1 0) ([⟨⟨0, x⟩, ⟨1, 0⟩⟩].map RangeMapper.ofMapper) = .ok c ∧
      (CutStream.byteSrc (RawStream.byteSrc B fuel) B fuel).fill c B = .ok ((true, content.length - x), c') := by
  have hd := raw_delivers B fuel 1 0 content (fun _ => some B) hB (by decide) hfuel
  rw [alignTo_one] at hd
  obtain ⟨c, hc⟩ := C05_new_ok B (RawStream.new B (Reader.open content fun _ => some B) 1 0) ([⟨⟨0, x⟩, ⟨1, 0⟩⟩].map RangeMapper.ofMapper)
  refine ⟨c, ?_⟩
  obtain ⟨R, hR, hr⟩ := CutStream.delivers hB hd hc hfuel
  have hkeep : (Spec.keep (coverAny content.length ([⟨⟨0, x⟩, ⟨1, 0⟩⟩].map RangeMapper.ofMapper)) 0 content).length = content.length - x := by
    rw [keep_from _ x]
    · omega
    · intro j _ hj
      rw [Bool.eq_iff_iff]
      have : j < content.length := by omega
      simp [coverAny, RangeMapper.covers, RangeMapper.ofMapper, RangeMapper.anchorOf, Anchor.at, this]
  rcases hR.fill _ _ _ _ B hr with ⟨e, ⟨_, sched, hs, k, hk⟩, _⟩ | ⟨eof, n, w', c', he, -, hn, -, hend, hne, -⟩
  · simp only [List.mem_cons, List.not_mem_nil, or_false] at hs
    subst hs
    cases hk
  · suffices eof = true by
      rw [hend this, hkeep, this] at he
      exact ⟨c', hc, he⟩
    unfold CutStream.byteSrc bufferedSrc at he
    simp only at he
    split at he
    · cases he
    · rename_i heq
      cases he
      cases hc
      unfold StreamBuf.fillBuf at heq
      rw [if_neg (by simp [StreamBuf.new, StreamBuf.newWithAlign])] at heq
      split at heq
      · cases heq
      · rename_i s t hl
        cases heq
        show s.isEof = true
        refine fill_waits (P := fun c : CutState (Buffered Reader) => c.cutter.filters = [] ∧ c.cutter.tailFilters ≠ []) ?_ _ _ _ _ ?_ ?_ _ _ hl
        · intro c req buf eof buf' c' ⟨h1, h2⟩ hf
          unfold CutStream.feed at hf
          split at hf
          · cases hf
          · rename_i e bytes s hs
            simp only at hf
            split at hf
            · cases hf
            · cases hf
              cases e with
              | true => simp
              | false =>
                right
                simp only [Cutter.accumulate, Bool.false_and, Bool.false_eq_true, if_false, h1, Cutter.scan, List.append_nil, true_and]
                exact h2
        · exact ⟨rfl, by simp [RangeMapper.ofMapper, RangeMapper.anchorOf, RangeMapper.hasRightAnchor]⟩
        · simp [StreamBuf.new, StreamBuf.newWithAlign]
          omega

/-- `--cut 3..` of a million bytes read in blocks of 2200. -/
example : ∃ c c', CutStream.new 2200 false (RawStream.new 2200 (Reader.open (List.replicate 1000000 65) fun _ => some 2200) 1 0) ([⟨⟨0, (3 : Nat)⟩, ⟨1, 0⟩⟩].map RangeMapper.ofMapper) = .ok c ∧
    (CutStream.byteSrc (RawStream.byteSrc 2200 1000001) 2200 1000001).fill c 2200 = .ok ((true, 999997), c') := by
  obtain ⟨c, c', h1, h2⟩ := C46_cut_counterexample 2200 1000001 3 (by decide) (List.replicate 1000000 65) (by rw [List.length_replicate]; decide)
  rw [List.length_replicate] at h2
  exact ⟨c, c', h1, h2⟩

end Nd.Props
