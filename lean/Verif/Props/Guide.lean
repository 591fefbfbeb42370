import Verif.Proof.Guided
import Verif.Props.Map
import Verif.Props.Text
/-!
# C28: `--guide`
-/
namespace Nd.Props
open Nd Nd.Spec Nd.TextParser

theorem _root_.Nd.ServesFar.mono {S : ByteSrc σ} {F F' M L s w content} (h : ServesFar S F M L s w content) (hF : ∀ e, F e → F' e) : ServesFar S F' M L s w content := by
  obtain ⟨R, E, h1, h2, h3, h4, h5⟩ := h
  refine ⟨R, E, ⟨fun s ph w rem req hR => ?_, h1.consume⟩, h2, h3, h4, h5⟩
  rcases h1.fill s ph w rem req hR with ⟨e, he, h⟩ | h
  · exact Or.inl ⟨e, hF e he, h⟩
  · exact Or.inr h

theorem _root_.Nd.Yields.mono {P : RecSrc τ} {F F' : Err → Prop} {bad t recs} (h : Yields P F bad t recs) (hF : ∀ e, F e → F' e) : Yields P F' bad t recs := by
  obtain ⟨R, h1, h2⟩ := h
  refine ⟨R, h1, fun t recs hR => ?_⟩
  rcases h2 t recs hR with ⟨e, he, h⟩ | h
  · exact Or.inl ⟨e, hF e he, h⟩
  · exact Or.inr h

/-- **C28** over every stream that lends what it is asked for (at least `L` bytes at a time), and every source of guide records: if the
records are strictly sorted by their offsets, not empty, not longer than `L`, and end within the stream, the drain prints exactly their slices,
in order. -/
theorem C28_guide_partial {P : RecSrc τ} {S : ByteSrc σ} {F M L} {s : σ} {w : Nat} {content : Bytes} {t : τ} {recs : List Rec}
    (h : ServesFar S F M L s w content) (hM : ∀ m, M m → AnyMargin m) (hg : Yields P F false t recs)
    (hsorted : recs.Pairwise fun x y => x.offset < y.offset) (hin : ∀ r ∈ recs, 0 < r.span ∧ r.span ≤ L ∧ r.offset + r.span ≤ content.length)
    (hlen : content.length < 2 ^ 64) (B fuel : Nat) (hfuel : recs.length < fuel) :
    SegDrains (GuidedSlicer.segSrc S P B fuel) F (GuidedSlicer.new s t) (slicesOf content (guided recs)) ∧
    ∀ (f : Formatting) (fuel' : Nat), 0 < B → w < fuel' →
      Reads (ScatterDrain.byteSrc (GuidedSlicer.segSrc S P B fuel) f B fuel') F (ScatterDrain.through B (GuidedSlicer.new s t)) ((slicesOf content (guided recs)).flatMap f.line) := by
  have hd := GuidedSlicer.delivers h hM hg ⟨by simpa [guided, List.pairwise_map] using hsorted, by
    intro x hx
    obtain ⟨r, hr, rfl⟩ := List.mem_map.1 hx
    exact hin r hr⟩ hlen B fuel hfuel
  exact ⟨hd.drains, fun f fuel' hB hw => C29_prints_every_slice_partial rfl f B fuel' hB _ _ content _ hd hlen hw⟩

/-- **C28** for files, all `read()` schedules of the stream and of the guide, and every block size that is not tiny: `nd --guide GUIDE FILE` prints exactly
the slices of the records of the guide. -/
theorem C28_file_partial (I : Impl) (B fuel : Nat) (filler : Byte) (content text : Bytes) (sched sched' : Nat → Option Nat) (hB : 1792 ≤ B) (hf : content.length < fuel) (hf' : text.length < fuel)
    (hlen : content.length < 2 ^ 64) (recs : List Rec) (hs : ShortLines B text) (hr : Reading (Line (Windows I) .hex .hex) (lines text) recs false)
    (hsorted : recs.Pairwise fun x y => x.offset < y.offset) (hin : ∀ r ∈ recs, 0 < r.span ∧ r.span ≤ (B - 1784) / 8 ∧ r.offset + r.span ≤ content.length) (hfuel : recs.length < fuel)
    (f : Formatting) :
    SegDrains (GuidedSlicer.segSrc (RawStream.byteSrc B fuel) (fileParser I B fuel .hex .hex) B fuel) (IoErr [sched, sched'])
      (GuidedSlicer.new (RawStream.new B (Reader.open content sched) 1 filler) (openText B filler text sched')) (slicesOf content (guided recs)) ∧
    Reads (ScatterDrain.byteSrc (GuidedSlicer.segSrc (RawStream.byteSrc B fuel) (fileParser I B fuel .hex .hex) B fuel) f B fuel) (IoErr [sched, sched'])
      (ScatterDrain.through B (GuidedSlicer.new (RawStream.new B (Reader.open content sched) 1 filler) (openText B filler text sched')))
      ((slicesOf content (guided recs)).flatMap f.line) := by
  obtain ⟨R, h, hR⟩ := file_roomy B fuel filler text sched' (by omega) hf'
  have hy : Yields (fileParser I B fuel .hex .hex) (IoErr [sched, sched']) false (openText B filler text sched') recs :=
    Yields.mono (yields h I fuel (by omega) .hex .hex _ text hR hs recs false hr) fun e he => by
      rcases he with ⟨h1, s, h2, h3⟩ | ⟨h, _⟩
      · exact ⟨h1, s, by simp at h2 ⊢; exact Or.inr h2, h3⟩
      · cases h
  have hfar : ServesFar (RawStream.byteSrc B fuel) (IoErr [sched, sched']) NlMargin ((B - 1784) / 8) (RawStream.new B (Reader.open content sched) 1 filler) content.length content :=
    (file_far B fuel filler content sched hB hf).mono fun e ⟨h1, s, h2, h3⟩ => ⟨h1, s, by simp at h2 ⊢; exact Or.inl h2, h3⟩
  obtain ⟨h1, h2⟩ := C28_guide_partial hfar (fun _ => NlMargin.any) hy hsorted hin hlen B fuel hfuel
  exact ⟨h1, h2 f fuel (by omega) hf⟩

/-- The guide `1 3⏎8 1` for the stream `0123456789`, with nd's block size. -/
example (I : Impl) (sched sched' : Nat → Option Nat) :
    SegDrains (GuidedSlicer.segSrc (RawStream.byteSrc (2 ^ 21) 11) (fileParser I (2 ^ 21) 11 .hex .hex) (2 ^ 21) 11) (IoErr [sched, sched'])
      (GuidedSlicer.new (RawStream.new (2 ^ 21) (Reader.open [48, 49, 50, 51, 52, 53, 54, 55, 56, 57] sched) 1 0) (openText (2 ^ 21) 0 [49, 32, 51, 10, 56, 32, 49] sched'))
      [(1, [49, 50, 51]), (8, [56])] := by
  refine (C28_file_partial I (2 ^ 21) 11 0 [48, 49, 50, 51, 52, 53, 54, 55, 56, 57] [49, 32, 51, 10, 56, 32, 49] sched sched' (by decide) (by decide) (by decide) (by decide)
    [⟨1, 3, []⟩, ⟨8, 1, []⟩] (by unfold ShortLines; decide) ?_ (by decide) (by decide) (by decide) ⟨.binary, 0⟩).1
  refine .good _ _ _ _ _ (.header [49] [51] 1 3 ⟨[1], ?_, by decide, by decide⟩ ⟨[3], ?_, by decide, by decide⟩ rfl)
    (.good _ _ _ _ _ (.header [56] [49] 8 1 ⟨[8], ?_, by decide, by decide⟩ ⟨[1], ?_, by decide, by decide⟩ rfl) .nil)
  all_goals (unfold Digits; decide)

/-- The stages of `--guide`; the guide is given by its records. -/
def guideState (B : Nat) (content : Bytes) (sched : Nat → Option Nat) (recs : List Rec) : GuidedSlicer (Buffered Reader) (List Rec) :=
  GuidedSlicer.new (RawStream.new B (Reader.open content sched) 1 0) recs

/-- What `n` rounds of the drain print for `--guide`, without headers. -/
def guidePrint (B : Nat) (content : Bytes) (sched : Nat → Option Nat) (recs : List Rec) (n : Nat) : Except Err Bytes :=
  drainRounds (GuidedSlicer.segSrc (RawStream.byteSrc B 1000) (listSrc false) B 100) n (ScatterDrain.new (guideState B content sched recs)) []

/-- **Counterexample** (a long slice across the end of a block, and a source that returns small pieces such as a pipe): the slice `[20, 70)` of `0, 1, 2, ...`
is printed when only 65 bytes have been read; its last five bytes are line breaks from the margin of the buffer. -/
theorem C28_long_counterexample :
    guidePrint 64 ((List.range 100).map UInt8.ofNat) (fun i => if i = 0 then some 64 else some 1) [⟨20, 50, []⟩, ⟨90, 2, []⟩] 2 =
      .ok ((List.range' 20 45).map UInt8.ofNat ++ List.replicate 5 10) := by
  decide +kernel

/-- Longer slices abort the program: the slice `[1000, 2500)` does not fit into the buffer and its margin. -/
theorem C28_abort_counterexample :
    guidePrint 2048 (List.replicate 3000 7) (fun i => if i = 0 then some 2048 else some 1) [⟨1000, 1500, []⟩, ⟨2700, 2, []⟩] 2 = .error .panic := by
  decide +kernel

/-- What the drain returns to the function that writes to the standard output. -/
def guideOut (B : Nat) (content : Bytes) (sched : Nat → Option Nat) (recs : List Rec) : Except Err (Bool × Bytes) :=
  match (ScatterDrain.byteSrc (GuidedSlicer.segSrc (RawStream.byteSrc B 1000) (listSrc false) B 100) ⟨.binary, 0⟩ B 1000).fill
      (ScatterDrain.through B (guideState B content sched recs)) B with
  | .error e => .error e
  | .ok ((eof, n), d) => .ok (eof, ((ScatterDrain.byteSrc (GuidedSlicer.segSrc (RawStream.byteSrc B 1000) (listSrc false) B 100) ⟨.binary, 0⟩ B 1000).slice d).take n)

/-- **Counterexample** (a record that ends behind the end of the stream): it is not clipped but dropped. -/
theorem C28_overhang_counterexample :
    guideOut 64 [0, 1, 2, 3, 4] (fun _ => some 64) [⟨1, 2, []⟩, ⟨3, 4, []⟩] = .ok (true, [1, 2]) ∧
    guideOut 64 [0, 1, 2, 3, 4] (fun _ => some 64) [⟨1, 2, []⟩, ⟨3, 2, []⟩] = .ok (true, [1, 2, 3, 4]) := by
  decide +kernel

/-- **Counterexample** (records out of order): the place `[10, 12)` is printed behind `[50, 52)` as long as it has not been consumed, but behind `[80, 82)` the difference of the offsets wraps around and the
program aborts. -/
theorem C28_unsorted_counterexample :
    guidePrint 64 ((List.range 100).map UInt8.ofNat) (fun _ => some 64) [⟨50, 2, []⟩, ⟨10, 2, []⟩] 2 = .ok [50, 51, 10, 11] ∧
    guidePrint 64 ((List.range 100).map UInt8.ofNat) (fun _ => some 64) [⟨80, 2, []⟩, ⟨10, 2, []⟩] 2 = .error .panic := by
  decide +kernel

end Nd.Props
