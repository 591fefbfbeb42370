import Verif.Proof.AssertsBytes
import Verif.Proof.AssertsGuided
import Verif.Proof.AssertsExtend
import Verif.Props.Map
import Verif.Props.Drain
import Verif.Props.Walk
import Verif.Props.Cut
import Verif.Props.Record
import Verif.Props.Guide
/-!
# C47: the assertions of the debug build

`debug_assert!` is compiled into the debug build only.  The theorems say that the assertions of `StreamBuf`, `CatStream`, `ClipStream`, `Accumulator` and `ScatterDrain` do not change what a client reads:
the debug build neither panics nor answers differently.
-/
namespace Nd.Props
open Nd Spec

/-- **C47**: whatever a closure appends to the buffer, and whatever the client does, the debug build of a buffered stream answers like the release build. -/
theorem C47_any_client {f : StreamBuf.Closure τ} (hf : ∀ t req buf eof buf' t', f t req buf = .ok (eof, buf', t') → buf.length ≤ buf'.length)
    (B fuel align : Nat) (filler : Byte) (ha : 0 < align) (t : τ) (ops : List ClientOp) :
    (Client.init { inner := t, buf := StreamBuf.newWithAlign B align filler }).run (bufferedAsserting B fuel f) ops =
      (Client.init { inner := t, buf := StreamBuf.newWithAlign B align filler }).run (bufferedSrc B fuel f) ops :=
  Client.run_asserting hf B fuel ops _ ⟨StreamBuf.Sound.new B align filler ha, fun n hn => by cases hn⟩

/-- A closure that takes bytes away: the debug build panics where the release build goes on. -/
theorem C47_any_client_needs_appending :
    let f : StreamBuf.Closure Unit := fun t _ buf => .ok (false, if buf = [] then [1, 2, 3, 4, 5, 6, 7, 8] else [], t)
    let s : Buffered Unit := { inner := (), buf := { StreamBuf.new 4 with buf := [1, 2, 3] ++ List.replicate MARGIN 10, len := 3, pos := 2, targetLen := 0 } }
    (((bufferedSrc 4 9 f).fill s 0).toOption.map Prod.fst = some (false, 0) ∧ ((bufferedAsserting 4 9 f).fill s 0).toOption.isNone = true) := by decide +kernel

/-- The raw stream of a file, read by a client that asks for more, consumes, and asks again. -/
example : (Client.init (RawStream.new 3 (Reader.open [1, 2, 3, 4, 5] fun _ => some 2) 4 0xff)).run (bufferedAsserting 3 6 (RawStream.feed 3)) [.fill 1, .consume 0, .fill 4, .consume 3, .fill 9] =
    (Client.init (RawStream.new 3 (Reader.open [1, 2, 3, 4, 5] fun _ => some 2) 4 0xff)).run (RawStream.byteSrc 3 6) [.fill 1, .consume 0, .fill 4, .consume 3, .fill 9] :=
  C47_any_client (RawStream.appends 3) 3 6 4 0xff (by decide) _ _

theorem raw_delivers_asserting (B fuel align : Nat) (filler : Byte) (content : Bytes) (sched : Nat → Option Nat) (hB : 0 < B) (ha : 0 < align) (hf : content.length < fuel) :
    Delivers (bufferedAsserting B fuel (RawStream.feed B)) (IoErr [sched]) NlMargin
      (RawStream.new B (Reader.open content sched) align filler) content.length (Spec.alignTo align filler content) :=
  (raw_delivers B fuel align filler content sched hB ha hf).asserting (RawStream.appends B) (StreamBuf.Sound.new B align filler ha)

/-- The debug build reads a file exactly. -/
theorem C47_file (B fuel align : Nat) (filler : Byte) (content : Bytes) (sched : Nat → Option Nat) (hB : 0 < B) (ha : 0 < align) (hf : content.length < fuel) :
    Reads (bufferedAsserting B fuel (RawStream.feed B)) (IoErr [sched]) (RawStream.new B (Reader.open content sched) align filler) (Spec.alignTo align filler content) :=
  (raw_delivers_asserting B fuel align filler content sched hB ha hf).reads

example : Reads (bufferedAsserting 3 6 (RawStream.feed 3)) (IoErr [fun _ => some 2]) (RawStream.new 3 (Reader.open [1, 2, 3, 4, 5] fun _ => some 2) 4 0xff)
    [1, 2, 3, 4, 5, 0xff, 0xff, 0xff] := C47_file 3 6 4 0xff [1, 2, 3, 4, 5] _ (by decide) (by decide) (by decide)

/-- The debug build of `CatStream` concatenates any sources that keep to the protocol. -/
theorem C47_cat {S : ByteSrc σ} {F M} (hM : ∀ m, M m → AnyMargin m) (B fuel : Nat) (hB : 0 < B) (srcs : List σ) (cs : List (Nat × Bytes))
    (h : List.Forall₂ (fun s c => Delivers S F M s c.1 c.2) srcs cs) (hf : CatStream.fills cs < fuel) :
    Reads (CatStream.asserting S B fuel) F (CatStream.new B srcs) (Spec.cat (cs.map Prod.snd)) :=
  (CatStream.asserting_delivers hM hB h hf).reads

example : Reads (CatStream.asserting (bufferedAsserting 3 30 (RawStream.feed 3)) 3 30) (IoErr [fun _ => some 2]) (CatStream.new 3 (rawStreams 3 1 0 [([1, 2, 3, 4], fun _ => some 2), ([5], fun _ => some 2)]))
    [1, 2, 3, 4, 5] :=
  C47_cat (fun _ => NlMargin.any) 3 30 (by decide) _ [(4, [1, 2, 3, 4]), (1, [5])]
    (.cons (raw_delivers_asserting 3 30 1 0 [1, 2, 3, 4] _ (by decide) (by decide) (by decide)) (.cons (raw_delivers_asserting 3 30 1 0 [5] _ (by decide) (by decide) (by decide)) .nil)) (by decide)

/-- The debug build of `ClipStream` pads and clips any source, for all parameters that strip nothing off the end, as those from the command line. -/
theorem C47_clip {S : ByteSrc σ} {F M} (hM : ∀ m, M m → AnyMargin m) (B fuel : Nat) (hB : 0 < B) {src : σ} {w : Nat} {c : Bytes} (h : Delivers S F M src w c)
    (pad : Option (Nat × Nat)) (seek : Option Nat) (range : Option (Nat × Nat)) (params : ClipperParams) (hp : ClipperParams.fromRaw pad seek range = .ok params) (filler : Byte)
    (hf : ClipStream.fills w c params.pad.1 params.pad.2 + 1 < fuel) :
    Reads (ClipStream.asserting (ClipStream.paddedAsserting S B fuel) B fuel) F (ClipStream.new B src params filler)
      (((Spec.pad params.pad.1 params.pad.2 filler c).drop params.clip.1).take params.len) := by
  refine (ClipStream.asserting_delivers hM hB h params ?_ filler hf).reads
  simp only [ClipperParams.fromRaw] at hp
  generalize hh : (if seek.getD 0 + (range.getD (0, usizeMax)).1 > (pad.getD (0, 0)).1 then _ else _ : Nat × Nat) = a at hp
  generalize hl : (if a.1 > _ then _ else _ : Nat × Nat) = b at hp
  split at hp
  · cases hp
  · split at hp
    · cases hp
    · cases hp; rfl

/-- The first byte of a padded file is skipped. -/
example : ∃ params, ClipperParams.fromRaw (some (3, 1)) (some 4) none = .ok params ∧
    Reads (ClipStream.asserting (ClipStream.paddedAsserting (bufferedAsserting 2 100 (RawStream.feed 2)) 2 100) 2 100) (IoErr [fun _ => some 1])
      (ClipStream.new 2 (RawStream.new 2 (Reader.open [7, 8] fun _ => some 1) 1 0) params 0x20) [8, 0x20] := by
  have hp : ClipperParams.fromRaw (some (3, 1)) (some 4) none = .ok { pad := (0, 1), clip := (1, 0), len := usizeMax } := by simp [ClipperParams.fromRaw, usizeMax]
  exact ⟨_, hp, C47_clip (fun _ => NlMargin.any) 2 100 (by decide) (raw_delivers_asserting 2 100 1 0 [7, 8] (fun _ => some 1) (by decide) (by decide) (by decide)) _ _ _ _ hp 0x20 (by decide)⟩

/-- A source that lends one byte at a time and does not report its end before the last one. -/
def dribble : ByteSrc Bytes where
  fill s _ := .ok ((decide (s.length ≤ 1), min 1 s.length), s)
  slice s := s ++ List.replicate MARGIN 10
  consume s k := .ok (s.drop k)

/-- With a non-zero `strip`, which the command line cannot ask for, the assertion of `src/byte/clip.rs` 202 relies on sources that lend as much as is requested: -/
theorem C47_clip_strip_counterexample :
    let c : ClipStream Bytes := { src := [1, 2, 3], skip := 0, rem := usizeMax, strip := 1 }
    ((ClipStream.byteSrc dribble 4 9).fill c 1).toOption.map Prod.fst = some (false, 0) ∧ ((ClipStream.asserting dribble 4 9).fill c 1).toOption.isNone = true := by decide +kernel

/-- The debug build of `--zip` interleaves any sources that keep to the protocol. -/
theorem C47_zip {S : ByteSrc σ} {F M} (B fuel ws : Nat) (hB : 0 < B) (hws : 0 < ws) (srcs : List σ) (cs : List (Nat × Bytes))
    (h : List.Forall₂ (fun s c => Delivers S F M s c.1 c.2) srcs cs) (hne : srcs ≠ []) (hlen : ∀ c ∈ cs, c.2.length ≤ usizeMax) (hf : (cs.map Prod.fst).sum < fuel) :
    Reads (bufferedAsserting B fuel (Zipper.feed S B)) F (ZipStream.new B srcs ws) (Spec.zip ws (cs.map Prod.snd)) :=
  ((ZipStream.delivers hB hws h hne hlen hf).asserting (Zipper.appends S B) (StreamBuf.Sound.new B 1 0 (by decide))).reads

example : Reads (bufferedAsserting 2 100 (Zipper.feed (bufferedAsserting 2 100 (RawStream.feed 2)) 2)) (IoErr [fun _ => some 1])
    (ZipStream.new 2 (rawStreams 2 1 0 [([1, 2], fun _ => some 1), ([4, 5, 6], fun _ => some 1)]) 1) (Spec.zip 1 [[1, 2], [4, 5, 6]]) :=
  C47_zip 2 100 1 (by decide) (by decide) _ [(2, [1, 2]), (3, [4, 5, 6])]
    (.cons (raw_delivers_asserting 2 100 1 0 [1, 2] _ (by decide) (by decide) (by decide)) (.cons (raw_delivers_asserting 2 100 1 0 [4, 5, 6] _ (by decide) (by decide) (by decide)) .nil))
    (by decide) (by decide) (by decide)

/-- The debug build of `--cut` carries the bytes in the ranges; `oc` says whether overflow checks are on, see `C05_overflow_check_counterexample`. -/
theorem C47_cut {S : ByteSrc σ} {F M} (B fuel : Nat) (hB : 0 < B) (src : σ) (w : Nat) (content : Bytes)
    (hsrc : Delivers S F M src w content) (oc : Bool) (ms : List SegmentMapper) (s : Buffered (CutState σ))
    (hs : CutStream.new B oc src (ms.map RangeMapper.ofMapper) = .ok s) (hf : w < fuel) :
    Reads (bufferedAsserting B fuel (CutStream.feed S)) F s (Spec.cut (ms.map SegmentMapper.toSpec) content) := by
  rw [← coverAny_spec]
  refine ((CutStream.delivers hB hsrc hs hf).asserting (CutStream.appends S) ?_).reads
  unfold CutStream.new at hs
  split at hs
  · cases hs
  · cases hs
    exact StreamBuf.Sound.new B 1 0 (by decide)

example : ∃ s, CutStream.new 2 true (RawStream.new 2 (Reader.open [0, 1, 2, 3, 4, 5, 6] fun _ => some 2) 1 0) ([⟨⟨0, 1⟩, ⟨0, 3⟩⟩, ⟨⟨0, 5⟩, ⟨0, 6⟩⟩].map RangeMapper.ofMapper) = .ok s ∧
    Reads (bufferedAsserting 2 100 (CutStream.feed (bufferedAsserting 2 100 (RawStream.feed 2)))) (IoErr [fun _ => some 2]) s [1, 2, 5] :=
  ⟨_, rfl, C47_cut 2 100 (by decide) _ 7 _ (raw_delivers_asserting 2 100 1 0 [0, 1, 2, 3, 4, 5, 6] (fun _ => some 2) (by decide) (by decide) (by decide)) true
    [⟨⟨0, 1⟩, ⟨0, 3⟩⟩, ⟨⟨0, 5⟩, ⟨0, 6⟩⟩] _ rfl (by decide)⟩

/-- The debug build of text inputs with offsets. -/
theorem C47_text {P : RecSrc τ} {F} (B fuel align : Nat) (filler : Byte) (hB : 0 < B) (ha : 0 < align) (t : τ) (recs : List Rec)
    (h : Yields P F false t recs) (ho : Ordered 0 recs) (hm : ∀ r ∈ recs, r.offset < usizeMax)
    (s : Buffered (TextState τ)) (hs : TextStream.new P B t align filler = .ok s) (hf : TextStream.steps 0 recs < fuel) :
    Reads (bufferedAsserting B fuel (TextStream.feed P B filler)) F s (Spec.alignTo align filler (place filler 0 recs)) := by
  have := ((TextStream.delivers hB ha h ho hm hs hf).asserting (TextStream.appends P B filler) (by
    unfold TextStream.new at hs
    split at hs
    · cases hs
    · cases hs
      exact StreamBuf.Sound.new B align filler ha)).reads
  rwa [padLen_eq _ _ ha] at this

example : ∃ s, TextStream.new (listSrc false) 2 [⟨1, 2, [7, 8]⟩, ⟨7, 1, [9]⟩] 4 0 = .ok s ∧
    Reads (bufferedAsserting 2 100 (TextStream.feed (listSrc false) 2 0)) ParseErr s [0, 7, 8, 0, 0, 0, 0, 9] :=
  ⟨_, rfl, C47_text 2 100 4 0 (by decide) (by decide) _ _ (listSrc_yields false [⟨1, 2, [7, 8]⟩, ⟨7, 1, [9]⟩]) (by decide) (by decide) _ rfl (by decide)⟩

/-- The debug build of text inputs without offsets. -/
theorem C47_gapless {P : RecSrc τ} {F} (B fuel align : Nat) (filler : Byte) (hB : 0 < B) (ha : 0 < align) (t : τ) (recs : List Rec)
    (h : Yields P F false t recs) (hf : recs.length < fuel) :
    Reads (bufferedAsserting B fuel (GaplessTextStream.feed P)) F (GaplessTextStream.new B t align filler) (Spec.alignTo align filler (recs.map Rec.data).flatten) := by
  have := ((GaplessTextStream.delivers (filler := filler) hB ha h hf).asserting (GaplessTextStream.appends P) (StreamBuf.Sound.new B align filler ha)).reads
  rwa [padLen_eq _ _ ha] at this

example : Reads (bufferedAsserting 2 100 (GaplessTextStream.feed (listSrc false))) ParseErr (GaplessTextStream.new 2 [⟨1, 2, [7, 8]⟩, ⟨7, 1, [9]⟩] 4 0) [7, 8, 9, 0] :=
  C47_gapless 2 100 4 0 (by decide) (by decide) _ _ (listSrc_yields false [⟨1, 2, [7, 8]⟩, ⟨7, 1, [9]⟩]) (by decide)

/-- The debug build of `--patch`. -/
theorem C47_patch {S : ByteSrc σ} {P : RecSrc τ} {F M bad} (B fuel : Nat) (hB : 0 < B) (src : σ) (w : Nat) (content : Bytes)
    (patch : τ) (recs : List Rec) (hsrc : Delivers S F M src w content) (hlen : content.length ≤ usizeMax)
    (h : Yields P F bad patch recs) (hok : PatchOk content.length bad 0 recs) (hm : ∀ r ∈ recs, r.offset + r.span < usizeMax)
    (s : Buffered (PatchState σ τ)) (hs : PatchStream.new P B src patch = .ok s) (hf : recs.length + w + 4 ≤ fuel) :
    Reads (bufferedAsserting B fuel (PatchStream.feed S P B fuel)) F s (splice 0 content recs) :=
  ((PatchStream.delivers hB hsrc hlen h hok hm hs hf).asserting (PatchStream.appends S P B fuel) (by
    rw [(PatchStream.new_inv hsrc h hm hs hf).1]
    exact StreamBuf.Sound.new B 1 0 (by decide))).reads

example : ∃ s, PatchStream.new (listSrc false) 4 (RawStream.new 4 (Reader.open [1, 2, 3] fun _ => some 2) 1 0) [⟨0, 1, [9, 9]⟩, ⟨2, 1, [8]⟩] = .ok s ∧
    Reads (bufferedAsserting 4 100 (PatchStream.feed (bufferedAsserting 4 100 (RawStream.feed 4)) (listSrc false) 4 100)) (fun _ => True) s [9, 9, 2, 8] :=
  ⟨_, rfl, C47_patch (F := fun _ => True) 4 100 (by decide) _ 3 [1, 2, 3] _ [⟨0, 1, [9, 9]⟩, ⟨2, 1, [8]⟩]
    ((raw_delivers_asserting 4 100 1 0 [1, 2, 3] (fun _ => some 2) (by decide) (by decide) (by decide)).mono (fun _ _ => trivial) fun _ h => h) (by decide)
    (Yields.mono (listSrc_yields false [⟨0, 1, [9, 9]⟩, ⟨2, 1, [8]⟩]) fun _ _ => trivial) ⟨by decide, fun _ => ⟨by decide, fun _ => rfl⟩⟩ (by decide) _ rfl (by decide)⟩

/-- The debug build of the printing drain prints, for any stream of slices that can be consumed entirely at its end, what the release build prints.  Missing: `--walk`, see the counterexample. -/
theorem C47_drain_partial {S : SegSrc σ} {K F} (hK : K.exact = true) (f : Formatting) (B fuel : Nat) (hB : 0 < B) {s : σ} {w : Nat} {content : Bytes} {segs : List Seg}
    (h : SegDelivers S K F s w content segs) (hlen : content.length < 2 ^ 64) (hf : w < fuel) :
    Reads (ScatterDrain.asserting S f B fuel) F (ScatterDrain.through B s) ((slicesOf content segs).flatMap f.line) ∧
    Reads (ScatterDrain.byteSrc S f B fuel) F (ScatterDrain.through B s) ((slicesOf content segs).flatMap f.line) :=
  ⟨(ScatterDrain.asserting_delivers hK f hB h hlen hf).reads, (ScatterDrain.delivers hK f hB h hlen hf).reads⟩

/-- The rows of a file. -/
example : ∃ st, Reads (ScatterDrain.asserting (ConstSlicer.segSrc (CatStream.byteSrc (RawStream.byteSrc 2200 20) 2200 20)) { style := .hhh, minWidth := 16 } 2200 20) (IoErr [fun _ => some 2])
    (ScatterDrain.through 2200 st) ((slicesOf [1, 2, 3] [⟨0, 3⟩]).flatMap (Formatting.line { style := .hhh, minWidth := 16 })) := by
  obtain ⟨_, st, _, _, _, h⟩ := width_delivers .any (cat_amply 2200 20 1 0 [([1, 2, 3], fun _ => some 2)] (by decide) (by decide) (by decide) (by decide)) (fun _ h => h) 20 16 .whole 0 16
    (by decide) (by decide) (by decide) (by decide) (by decide) (by decide) (by decide)
  exact ⟨st, (C47_drain_partial (by decide) _ 2200 20 (by decide) h (by decide) (by decide)).1⟩

/-- `--walk` whose last slice extends beyond the end of the stream: at the end one byte is lent and none may be consumed.  The debug build panics at `src/drain/scatter.rs` 121,
the release build prints nothing. -/
theorem C47_walk_counterexample (f : Formatting) (buf : Bytes) (req : Nat) :
    WalkSlicer.new (RawStream.new 64 (Reader.open [2] fun _ => some 64) 1 0) byteExpr = .ok stuckStart ∧
    ScatterDrain.feedAsserting (WalkSlicer.segSrc (RawStream.byteSrc 64 1000) 64 100) f (ScatterDrain.new stuckStart) req buf = .error .panic ∧
    ScatterDrain.feed (WalkSlicer.segSrc (RawStream.byteSrc 64 1000) 64 100) f (ScatterDrain.new stuckStart) req buf = .ok (true, buf, ScatterDrain.new stuckState) := by
  refine ⟨new_byte _, ?_, ?_⟩
  · simp only [ScatterDrain.feedAsserting, ScatterDrain.new, stuck_first]
    rw [if_pos ⟨trivial, by decide⟩]
  · simp only [ScatterDrain.feed, ScatterDrain.new, stuck_first, ScatterDrain.fresh, Nat.le_refl, Nat.zero_le, and_self, if_true, List.take_zero, List.drop_nil, Format.segments,
      ScatterDrain.advance, stuck_consume, ckSub, Nat.sub_self, Nat.add_zero, List.append_nil]

/-- One call of `MergeStream::extend_segment_buf`, after `resume`: the loop over the new slices, and `suspend`. -/
def mergeStep (a : Accumulator) (segs out : List Seg) (eof : Bool) (maxc : Nat) : Except Err (List Seg × Option Seg × Accumulator) :=
  match a.appendAll segs out with
  | .error e => .error e
  | .ok (out, a) => match a.suspend eof maxc with | .error e => .error e | .ok (s, a) => .ok (out, s, a)

/-- The same in the debug build. -/
def mergeStepAsserting (a : Accumulator) (segs out : List Seg) (eof : Bool) (maxc : Nat) : Except Err (List Seg × Option Seg × Accumulator) :=
  match a.appendAllAsserting segs out with
  | .error e => .error e
  | .ok (out, a) => match a.suspendAsserting eof maxc with | .error e => .error e | .ok (s, a) => .ok (out, s, a)

theorem appendAll_asserting : ∀ (segs : List Seg) (a : Accumulator) (out : List Seg), 0 < a.count → a.start < a.stop → (∀ s ∈ segs, 0 < s.len ∧ a.start ≤ s.pos) → segs.Pairwise (fun s t => s.pos ≤ t.pos) →
    a.appendAllAsserting segs out = a.appendAll segs out ∧ ∀ out' a', a.appendAll segs out = .ok (out', a') → 0 < a'.count ∧ a'.start < a'.stop
  | [], a, out, h1, h2, _, _ => ⟨rfl, fun out' a' h => by cases h; exact ⟨h1, h2⟩⟩
  | s :: segs, a, out, h1, h2, h3, h4 => by
    obtain ⟨hs, hp⟩ := h3 s (by simp)
    obtain ⟨h5, h6⟩ := List.pairwise_cons.1 h4
    have h0 : ¬(a.count = 0 ∨ s.pos < a.start) := by omega
    by_cases hm : a.stop > s.pos ∨ s.pos - a.stop ≤ a.thresh
    · simp only [Accumulator.appendAllAsserting, Accumulator.appendAll, Accumulator.appendAsserting, Accumulator.append, if_neg h0, if_pos hm]
      refine appendAll_asserting segs { a with count := a.count + 1, stop := max a.stop s.tail } out (Nat.succ_pos _) ?_ (fun t ht => h3 t (by simp [ht])) h6
      show a.start < max a.stop s.tail
      omega
    · simp only [Accumulator.appendAllAsserting, Accumulator.appendAll, Accumulator.appendAsserting, Accumulator.append, if_neg h0, if_neg hm, Accumulator.popAsserting, if_pos h2,
        Accumulator.pop, if_neg (by omega : ¬a.stop < a.start)]
      refine appendAll_asserting segs _ _ Nat.one_pos ?_ (fun t ht => ⟨(h3 t (by simp [ht])).1, h5 t ht⟩) h6
      show s.pos < s.pos + s.len
      omega

/-- **C47** (`--merge`): the debug build merges slices that are not empty and in ascending order like the release build.  Missing: empty slices, see the counterexample. -/
theorem C47_merge_partial (a : Accumulator) (segs out : List Seg) (eof : Bool) (maxc : Nat) (h1 : 0 < a.count) (h2 : a.start < a.stop)
    (h3 : ∀ s ∈ segs, 0 < s.len ∧ a.start ≤ s.pos) (h4 : segs.Pairwise (fun s t => s.pos ≤ t.pos)) :
    mergeStepAsserting a segs out eof maxc = mergeStep a segs out eof maxc := by
  obtain ⟨h5, h6⟩ := appendAll_asserting segs a out h1 h2 h3 h4
  unfold mergeStepAsserting mergeStep
  rw [h5]
  cases h : a.appendAll segs out with
  | error e => rfl
  | ok r =>
    obtain ⟨out', a'⟩ := r
    obtain ⟨h7, h8⟩ := h6 _ _ h
    have h9 : a'.suspendAsserting eof maxc = a'.suspend eof maxc := by
      unfold Accumulator.suspendAsserting Accumulator.suspend Accumulator.popAsserting
      rw [if_pos h8]
      cases a'.pop <;> rfl
    simp only [h9]

example : mergeStepAsserting ((Accumulator.new 2).resume ⟨0, 3⟩).2 [⟨4, 2⟩, ⟨9, 1⟩] [] true 12 = mergeStep ((Accumulator.new 2).resume ⟨0, 3⟩).2 [⟨4, 2⟩, ⟨9, 1⟩] [] true 12 ∧
    (mergeStep ((Accumulator.new 2).resume ⟨0, 3⟩).2 [⟨4, 2⟩, ⟨9, 1⟩] [] true 12).toOption.map (fun r => (r.1, r.2.1)) = some ([⟨0, 6⟩], some ⟨9, 1⟩) :=
  ⟨C47_merge_partial _ _ _ _ _ (by decide) (by decide) (by decide) (by decide), by decide⟩

/-- An empty slice, such as a record of `--guide` whose span is 0, fails the assertion of `src/segment/merge.rs` 37; the release build passes it on. -/
theorem C47_merge_counterexample :
    mergeStepAsserting ((Accumulator.new 2).resume ⟨5, 0⟩).2 [] [] true 12 = .error .panic ∧
    (mergeStep ((Accumulator.new 2).resume ⟨5, 0⟩).2 [] [] true 12).toOption.map (fun r => (r.1, r.2.1)) = some ([], some ⟨5, 0⟩) := ⟨rfl, by decide⟩

/-- **C47** (`--guide`), for the guides of C28: the debug build prints exactly the slices of the records.  Missing: slices that are longer than what the source lends at once, see the counterexample. -/
theorem C47_guide_partial {P : RecSrc τ} {S : ByteSrc σ} {F M L} {s : σ} {w : Nat} {content : Bytes} {t : τ} {recs : List Rec}
    (h : ServesFar S F M L s w content) (hM : ∀ m, M m → AnyMargin m) (hg : Yields P F false t recs)
    (hsorted : recs.Pairwise fun x y => x.offset < y.offset) (hin : ∀ r ∈ recs, 0 < r.span ∧ r.span ≤ L ∧ r.offset + r.span ≤ content.length)
    (hlen : content.length < 2 ^ 64) (B fuel : Nat) (hfuel : recs.length < fuel) (f : Formatting) (fuel' : Nat) (hB : 0 < B) (hw : w < fuel') :
    Reads (ScatterDrain.asserting (GuidedSlicer.asserting S P B fuel) f B fuel') F (ScatterDrain.through B (GuidedSlicer.new s t)) ((slicesOf content (guided recs)).flatMap f.line) :=
  (C47_drain_partial rfl f B fuel' hB (GuidedSlicer.asserting_delivers h hM hg ⟨by simpa [guided, List.pairwise_map] using hsorted, by
    intro x hx
    obtain ⟨r, hr, rfl⟩ := List.mem_map.1 hx
    exact hin r hr⟩ hlen B fuel hfuel) hlen hw).1

/-- The records `1 3` and `8 1` for a stream of ten bytes. -/
example (sched : Nat → Option Nat) : Reads (ScatterDrain.asserting (GuidedSlicer.asserting (RawStream.byteSrc 2200 11) (listSrc false) 2200 11) ⟨.binary, 0⟩ 2200 11) (fun _ => True)
    (ScatterDrain.through 2200 (GuidedSlicer.new (RawStream.new 2200 (Reader.open [48, 49, 50, 51, 52, 53, 54, 55, 56, 57] sched) 1 0) [⟨1, 3, []⟩, ⟨8, 1, []⟩])) [49, 50, 51, 56] :=
  C47_guide_partial ((file_far 2200 11 0 [48, 49, 50, 51, 52, 53, 54, 55, 56, 57] sched (by decide) (by decide)).mono fun _ _ => trivial) (fun _ => NlMargin.any)
    (Yields.mono (listSrc_yields false [⟨1, 3, []⟩, ⟨8, 1, []⟩]) fun _ _ => trivial) (by decide) (by decide) (by decide) 2200 11 (by decide) _ 11 (by decide) (by decide)

/-- The guide of `C28_long_counterexample`: the source lends less than was requested, and the debug build panics in the second round. -/
theorem C47_guide_counterexample :
    drainRounds (GuidedSlicer.asserting (RawStream.byteSrc 64 1000) (listSrc false) 64 100) 2
      (ScatterDrain.new (guideState 64 ((List.range 100).map UInt8.ofNat) (fun i => if i = 0 then some 64 else some 1) [⟨20, 50, []⟩, ⟨90, 2, []⟩])) [] = .error .panic := by
  decide +kernel

/-- **C47** (`--extend`), under the hypotheses of C24: the debug build delivers exactly the images of the slices.  Missing: sources that lend slices which reach behind what has been
read, see the counterexample. -/
theorem C47_extend_partial {S : SegSrc σ} {K F} {s : σ} {w : Nat} {content : Bytes} {segs : List Seg} (h : SegServes S K F s w content segs)
    (hfull : K.full = true) (hh : K.honest = true) (hst : K.steady = true) (he : K.early = true)
    (ms : List SegmentMapper) (hms : ms ≠ []) (H D : Nat) (hp : ∀ lent k, (∀ x ∈ lent, x.tail ≤ k + H) → K.policy lent k)
    (hH : ∀ m ∈ ms, (D : Int) - H ≤ m.toSpec.1.on (0, 1) ∧ (D : Int) - H ≤ m.toSpec.2.on (0, 1)) (hD : D ≤ H)
    (hsegs : ∀ x ∈ segs, x.tail ≤ content.length ∧ x.len ≤ D ∧ 0 < x.len)
    (hfits : ∀ x ∈ segs, ∀ m ∈ ms, m.toSpec.2.on ((x.pos : Int), (x.tail : Int)) ≤ x.tail)
    (hso : (extend (ms.map SegmentMapper.toSpec) segs content.length).Pairwise Seg.Le) (hlen : content.length < 2 ^ 64)
    (hz : K.strict = false := by first | rfl | assumption) :
    SegDelivers (Extend.asserting S ms) (MapStream.kind K) F (Extend.new s) w content (extend (ms.map SegmentMapper.toSpec) segs content.length) ∧
    SegDrains (Extend.asserting S ms) F (Extend.new s) (slicesOf content (extend (ms.map SegmentMapper.toSpec) segs content.length)) := by
  obtain ⟨R, h1, h2, h3⟩ := h
  have hf := MapStream.faithful h1 h2 hfull hh hst he (Extend.laws ms hms H D hH hD) hp hz
  have := Extend.asserting_faithful h1 h2 ms hf
  have hd : SegDelivers (Extend.asserting S ms) (MapStream.kind K) F (Extend.new s) w content (extend (ms.map SegmentMapper.toSpec) segs content.length) := by
    refine ⟨_, this, ⟨segs, _, h3, ?_, ?_, ?_, ?_⟩⟩
    · simp [Extend.new, MapStream.new, Extend.rest]
    · simp only [Extend.new, MapStream.new, List.take_zero, List.drop_zero]
      exact ⟨by simp, hsegs, hfits, hso, by unfold usizeMax; omega⟩
    · exact ⟨Seg.Le.pairwise_sorted hso, fun z hz => by
        obtain ⟨x, hx, hz⟩ := List.mem_flatMap.1 hz
        obtain ⟨r, hr, h1, h2, h3, h4⟩ := images_mem hz
        exact ⟨h1, h2⟩⟩
    · simp [Extend.new, MapStream.new]
  exact ⟨hd, hd.drains⟩

/-- `--width 4 --extend s-2..e-1`. -/
example (sched : Nat → Option Nat) : ∃ st, SegDrains (Extend.asserting (ConstSlicer.segSrc (RawStream.byteSrc (2 ^ 21) 11)) [⟨⟨0, -2⟩, ⟨1, -1⟩⟩]) (IoErr [sched]) (Extend.new st)
      [(0, [0, 1, 2]), (2, [2, 3, 4, 5, 6]), (6, [6, 7, 8])] := by
  obtain ⟨p, st, h1, h2, _, h3⟩ := width_serves (.slack 6) (file_amply (2 ^ 21) 11 0 [0, 1, 2, 3, 4, 5, 6, 7, 8, 9] sched (by decide) (by decide)) (fun _ => NlMargin.any) 2 4 (fromStart 0 4) 0 4
    (by decide) (by decide) (by decide) (by decide) (by decide) (by decide) (by decide)
  exact ⟨st, (C47_extend_partial h3 rfl rfl rfl rfl [⟨⟨0, -2⟩, ⟨1, -1⟩⟩] (by simp) 6 4 (fun _ _ h => h) (by decide) (by decide) (by decide) (by decide)
    (extend_one_sorted _ _ _ (strides_monotone _ _ _ _)) (by decide)).2⟩

/-- `--width 20,s..s+4 --invert s..e+30 --extend s..e`: the inverted slices of `C23_unread_counterexample` reach behind what has been read, and the debug build panics. -/
theorem C47_extend_counterexample :
    seen (Extend.asserting (MapStream.segSrc (ConstSlicer.segSrc (RawStream.byteSrc 64 1000)) (Bridge.ops [⟨⟨1, 0⟩, ⟨1, 30⟩⟩])) [⟨⟨0, 0⟩, ⟨1, 0⟩⟩])
      ((widthOf 64 ((List.range 200).map UInt8.ofNat) (fun _ => some 64) 20 (fromStart 0 4)).map fun s => Extend.new (Bridge.new s)) 10 = .error .panic := by
  decide +kernel

theorem cat_amply_asserting (B fuel align : Nat) (filler : Byte) (files : Files) (hB : 0 < B) (ha : 0 < align) (hne : files ≠ [])
    (hf : enough align files < fuel) :
    ServesAmply (CatStream.asserting (bufferedAsserting B fuel (RawStream.feed B)) B fuel) (IoErr (files.map Prod.snd)) AnyMargin ((B - 1784) / 8)
      (CatStream.new B (rawStreams B align filler files)) (CatStream.fills (files.map fun f => (f.1.length, Spec.alignTo align filler f.1)))
      (Spec.cat (files.map fun f => Spec.alignTo align filler f.1)) := by
  have hs := rawStreams_deliver B fuel align filler files hB ha (fun f h => Nat.lt_of_le_of_lt (le_enough align files f h) hf)
  have hb := buffered_ample_asserting (RawStream.appends B) (fuel := fuel) (F := IoErr (files.map Prod.snd)) (M := NlMargin) hB
  have := CatStream.asserting_amply hb.1 hb.2 (fun _ => NlMargin.any) hB
    (srcs := rawStreams B align filler files) (cs := files.map fun f => (f.1.length, Spec.alignTo align filler f.1)) (fuel := fuel)
    (by simpa [rawStreams] using hne) (by
      unfold rawStreams at hs ⊢
      rw [List.forall₂_map_left_iff, List.forall₂_map_right_iff, List.forall₂_same] at hs ⊢
      intro f hm
      exact ⟨⟨hs f hm, StreamBuf.Ready.new B align filler⟩, StreamBuf.Sound.new B align filler ha, fun n hn => by cases hn⟩)
    (Nat.lt_of_le_of_lt (fills_le_enough align filler files ha) hf)
  rw [Nat.min_self, List.map_map] at this
  exact this

/-- **C47** for a whole program: the debug build of `nd FILE...` fails no assertion and prints the text the release build prints, for all files and all `read()` schedules. -/
theorem C47_hexdump (B fuel : Nat) (filler : Byte) (files : Files) (hB : 2176 ≤ B) (hne : files ≠ []) (hf : enough 1 files + 1 < fuel)
    (hlen : (files.map Prod.fst).flatten.length < 2 ^ 48) :
    ∃ text,
      (hexdumpAsserting B fuel (rawStreams B 1 filler files) = .ok (text, none) ∨
        ∃ e out, IoErr (files.map Prod.snd) e ∧ hexdumpAsserting B fuel (rawStreams B 1 filler files) = .ok (out, some e) ∧ out <+: text) ∧
      (hexdump (RawStream.byteSrc B fuel) B fuel (rawStreams B 1 filler files) = .ok (text, none) ∨
        ∃ e out, IoErr (files.map Prod.snd) e ∧ hexdump (RawStream.byteSrc B fuel) B fuel (rawStreams B 1 filler files) = .ok (out, some e) ∧ out <+: text) := by
  have hc : Spec.cat (files.map fun f => Spec.alignTo 1 filler f.1) = (files.map Prod.fst).flatten := by
    simp only [alignTo_one, Spec.cat]
  have ha := cat_amply_asserting B fuel 1 filler files (by omega) (by decide) hne (by omega)
  have hr := cat_amply B fuel 1 filler files (by omega) (by decide) hne (by omega)
  rw [hc] at ha hr
  have hw := fills_le_enough 1 filler files (by decide)
  generalize (files.map Prod.fst).flatten = content at *
  obtain ⟨p, st, h1, h2, _, h3⟩ := width_delivers .any ha (fun _ h => h) fuel 16 .whole 0 16 (by decide) (by decide) (by decide) (by decide) (by decide)
    (by omega) (by show 16 + 16 + 16 + 1 ≤ _; omega)
  obtain ⟨p', st', h1', h2', _, h3'⟩ := width_delivers .any hr (fun _ h => h) fuel 16 .whole 0 16 (by decide) (by decide) (by decide) (by decide) (by decide)
    (by omega) (by show 16 + 16 + 16 + 1 ≤ _; omega)
  have hd := ScatterDrain.asserting_delivers (by decide) { style := .hhh, minWidth := 16 } (B := B) (fuel := fuel) (by omega) h3 (by omega) (by omega)
  have hd' := ScatterDrain.delivers (by decide) { style := .hhh, minWidth := 16 } (B := B) (fuel := fuel) (by omega) h3' (by omega) (by omega)
  refine ⟨(slicesOf content (Spec.strides content.length 16 0 16)).flatMap (Formatting.line { style := .hhh, minWidth := 16 }), ?_, ?_⟩
  · simp only [hexdumpAsserting, h1, h2]
    rcases C08_copy_exact B fuel _ _ _ hd (by omega) with h | ⟨e, out, he, h, hp⟩
    · left; rw [h]
    · right; exact ⟨e, out, he, by rw [h], hp⟩
  · simp only [hexdump, h1', h2']
    rcases C08_copy_exact B fuel _ _ _ hd' (by omega) with h | ⟨e, out, he, h, hp⟩
    · left; rw [h]
    · right; exact ⟨e, out, he, by rw [h], hp⟩

/-- Two files dumped by both builds. -/
example : hexdumpAsserting (2 ^ 21) 20 (rawStreams (2 ^ 21) 1 0 [([1, 2, 3], fun _ => some 2), ([65], fun _ => some 7)]) =
    hexdump (RawStream.byteSrc (2 ^ 21) 20) (2 ^ 21) 20 (rawStreams (2 ^ 21) 1 0 [([1, 2, 3], fun _ => some 2), ([65], fun _ => some 7)]) := by
  have no : ∀ e, ¬IoErr [fun _ => some 2, fun _ => some 7] e := by
    rintro e ⟨_, s, hs, i, hi⟩
    simp only [List.mem_cons, List.not_mem_nil, or_false] at hs
    rcases hs with h | h <;> subst h <;> cases hi
  obtain ⟨text, h1 | ⟨e, _, he, _⟩, h2 | ⟨e, _, he, _⟩⟩ := C47_hexdump (2 ^ 21) 20 0 [([1, 2, 3], fun _ => some 2), ([65], fun _ => some 7)] (by decide) (by decide) (by decide) (by decide)
  · rw [h1, h2]
  all_goals exact absurd he (no _)

end Nd.Props
