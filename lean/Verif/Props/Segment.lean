import Verif.Model.Hexdump
import Verif.Proof.StrideWide
import Verif.Props.Bytes
/-!
# C19: fixed-width slices
-/
namespace Nd.Props
open Nd

/-- `--width N,S..E` delivers exactly the slices `[i * N + S, i * N + E)` and keeps what it lends. -/
theorem width_serves (mode : ConstSlicer.Manner) {Src : ByteSrc σ} {F M L} {s : σ} {w : Nat} {content : Bytes} (h : ServesAmply Src F M L s w content)
    (hM : ∀ m, M m → AnyMargin m) (fuel pitch : Nat) (m : SegmentMapper) (start stop : Int) (hp : 0 < pitch)
    (hm : m.evaluate (0, pitch) (0, pitch) = (start, stop)) (hne : start < stop) (hstop : 1 ≤ stop) (hstart : -(15 * pitch) < start)
    (hf : 1 < fuel) (hL : mode.need pitch (stop - start).toNat stop.toNat ≤ L) :
    ∃ p st, ConstSlicerParams.fromRaw fuel pitch m = .ok p ∧ ConstSlicer.new s p = .ok st ∧ p.pitch = pitch ∧
      SegServes (ConstSlicer.segSrc Src) (ConstSlicer.kind mode pitch (stop - start).toNat) F st w content
        (Spec.strides content.length pitch start stop) := by
  obtain ⟨R, E, hR, hA, hs, hE⟩ := h
  have hex : ∃ p, ConstSlicerParams.fromRaw fuel pitch m = .ok p := by
    unfold ConstSlicerParams.fromRaw
    rw [hm]
    simp only
    rw [if_neg (by omega)]
    by_cases h0 : 0 ≤ start
    · rw [if_pos h0]; exact ⟨_, rfl⟩
    · rw [if_neg h0]
      obtain ⟨m', hm'⟩ := ConstSlicerParams.headLoop_ok pitch (stop - start) (by omega) fuel (-start) (by omega) (by omega)
      rw [hm']
      exact ⟨_, rfl⟩
  obtain ⟨p, hpr⟩ := hex
  obtain ⟨h1, h2, h3, h4, h5, h6, h7, h8, h9, h10, h11⟩ := ConstSlicerParams.fromRaw_comb hp hpr content.length start stop hm
  have hhead := h10 hstop
  have ok : ConstSlicer.ParamsOk p := ⟨by omega, by omega, h4, h7 hstop, h5, h6, h8 hstart⟩
  have hesc : ConstSlicer.escape p ≤ stop := by
    unfold ConstSlicer.escape
    split <;> omega
  have hspan : p.span = (stop - start).toNat := by omega
  have hL' : mode.need p.pitch p.span (ConstSlicer.escape p) ≤ L := by
    rw [h2, hspan]
    cases mode <;> simp only [ConstSlicer.Manner.need] at hL ⊢ <;> omega
  obtain ⟨st, hst, hrel⟩ := ConstSlicer.new_spec (Src := Src) mode p ok s w content hs hE hL'
  refine ⟨p, st, hpr, hst, h2, ?_⟩
  rw [h11, ← h2] at hrel
  have := ConstSlicer.faithful hR hA hM mode p.pitch p.span (p.tail + p.span).toNat (ConstSlicer.escape p) hL'
  rw [← hspan, ← h2]
  exact ⟨_, this, ConstSlicer.keeps hR hA mode p.pitch p.span (p.tail + p.span).toNat (ConstSlicer.escape p) hL', hrel⟩

/-- **C19** (any byte source that lends enough before its end): `--width N,S..E` delivers exactly the slices
`[i * N + S, i * N + E)` clipped to the stream.  (`mode`: what is demanded of the client.) -/
theorem width_delivers (mode : ConstSlicer.Manner) {Src : ByteSrc σ} {F M L} {s : σ} {w : Nat} {content : Bytes} (h : ServesAmply Src F M L s w content)
    (hM : ∀ m, M m → AnyMargin m) (fuel pitch : Nat) (m : SegmentMapper) (start stop : Int) (hp : 0 < pitch)
    (hm : m.evaluate (0, pitch) (0, pitch) = (start, stop)) (hne : start < stop) (hstop : 1 ≤ stop) (hstart : -(15 * pitch) < start)
    (hf : 1 < fuel) (hL : mode.need pitch (stop - start).toNat stop.toNat ≤ L) :
    ∃ p st, ConstSlicerParams.fromRaw fuel pitch m = .ok p ∧ ConstSlicer.new s p = .ok st ∧ p.pitch = pitch ∧
      SegDelivers (ConstSlicer.segSrc Src) (ConstSlicer.kind mode pitch (stop - start).toNat) F st w content
        (Spec.strides content.length pitch start stop) := by
  obtain ⟨p, st, h1, h2, h3, h4⟩ := width_serves mode h hM fuel pitch m start stop hp hm hne hstop hstart hf hL
  exact ⟨p, st, h1, h2, h3, h4.delivers⟩

/-- A file read by `RawStream` lends at least an eighth of a block (less the margin) before its end. -/
theorem file_amply (B fuel : Nat) (filler : Byte) (content : Bytes) (sched : Nat → Option Nat) (hB : 0 < B) (hf : content.length < fuel) :
    ServesAmply (RawStream.byteSrc B fuel) (IoErr [sched]) NlMargin ((B - 1784) / 8)
      (RawStream.new B (Reader.open content sched) 1 filler) content.length content := by
  have := raw_delivers B fuel 1 filler content sched hB (by decide) hf
  have ha : Spec.alignTo 1 filler content = content := by simp [Spec.alignTo, Nat.mod_one]
  rw [ha] at this
  exact Delivers.amply hB this

/-- What the first fill lends is enough to place the first slice. -/
def FirstFits (B pitch : Nat) (start stop : Int) : Prop := stop ≤ B + pitch ∨ start ≤ 2 * pitch + 1 ∨ stop - start ≤ 2 * pitch + 2

/-- Slices of any size: `--width N,S..E` over a source whose first fill lends what it is asked for. -/
theorem wide_delivers (ex : Bool) {Src : ByteSrc σ} {F M L D} {s : σ} {w : Nat} {content : Bytes} (h : ServesAmply Src F M L s w content) (hpr : Prompt Src D s)
    (hM : ∀ m, M m → AnyMargin m) (fuel pitch : Nat) (m : SegmentMapper) (start stop : Int) (hp : 0 < pitch)
    (hm : m.evaluate (0, pitch) (0, pitch) = (start, stop)) (hne : start < stop) (hstop : 1 ≤ stop) (hstart : -(15 * pitch) < start)
    (hf : 1 < fuel) (hfit : FirstFits D pitch start stop) (hx : ex = true → 0 ≤ start ∨ 2 * stop - start + pitch ≤ D) :
    ∃ p st, ConstSlicerParams.fromRaw fuel pitch m = .ok p ∧ ConstSlicer.new s p = .ok st ∧ p.pitch = pitch ∧ st.src = s ∧
      SegDelivers (ConstSlicer.segSrc Src) (ConstSlicer.wide ex pitch (stop - start).toNat) F st w content
        (Spec.strides content.length pitch start stop) := by
  obtain ⟨R, E, hR, hA, hs, hE⟩ := h
  have hex : ∃ p, ConstSlicerParams.fromRaw fuel pitch m = .ok p := by
    unfold ConstSlicerParams.fromRaw
    rw [hm]
    simp only
    rw [if_neg (by omega)]
    by_cases h0 : 0 ≤ start
    · rw [if_pos h0]; exact ⟨_, rfl⟩
    · rw [if_neg h0]
      obtain ⟨m', hm'⟩ := ConstSlicerParams.headLoop_ok pitch (stop - start) (by omega) fuel (-start) (by omega) (by omega)
      rw [hm']
      exact ⟨_, rfl⟩
  obtain ⟨p, hp'⟩ := hex
  obtain ⟨h1, h2, h3, h4, h5, h6, h7, h8, h9, h10, h11⟩ := ConstSlicerParams.fromRaw_comb hp hp' content.length start stop hm
  have hhead := h10 hstop
  have ok : ConstSlicer.ParamsOk p := ⟨by omega, by omega, h4, h7 hstop, h5, h6, h8 hstart⟩
  have hspan : p.span = (stop - start).toNat := by omega
  obtain ⟨st, hst, hrel⟩ := ConstSlicer.wide_new (D := D) ex p ok s w content hs hE hpr (fun h => by have := hx h; omega) (by
    unfold FirstFits at hfit
    unfold ConstSlicer.FirstFits
    omega)
  have hsrc : st.src = s := by
    obtain ⟨st', g1, g2, _⟩ := ConstSlicer.new_inv p ok s content.length
    rw [hst] at g1
    cases g1
    exact g2
  refine ⟨p, st, hp', hst, h2, hsrc, ?_⟩
  rw [h11, ← h2] at hrel
  rw [← hspan, ← h2]
  exact ⟨_, ConstSlicer.wide_faithful hR hA hM ex D p.pitch p.span (p.tail + p.span).toNat (ConstSlicer.escape p), hrel⟩

/-- **C19**: `nd --width N,S..E FILE` cuts the file into the slices `[i * N + S, i * N + E)`, clipped to the
file, in order, whatever sizes `read()` returns and whatever the client consumes.  `S` and `E` are the values
of the range expression on the unit `[0, N)`; `E ≥ 1`, at most 15 slices are clipped at the start, and the first slice ends
in the first block, or begins in the first two units, or is not longer than two units (`FirstFits`).  Apart from that the slices
can be larger than the blocks that are read. -/
theorem C19_width_slices_partial (B fuel fuel' : Nat) (filler : Byte) (content : Bytes) (sched : Nat → Option Nat) (hB : 0 < B) (hf : content.length < fuel)
    (pitch : Nat) (m : SegmentMapper) (start stop : Int) (hp : 0 < pitch) (hm : m.evaluate (0, pitch) (0, pitch) = (start, stop))
    (hne : start < stop) (hstop : 1 ≤ stop) (hstart : -(15 * pitch) < start) (hf' : 1 < fuel')
    (hfit : FirstFits B pitch start stop) :
    ∃ p st, ConstSlicerParams.fromRaw fuel' pitch m = .ok p ∧
      ConstSlicer.new (RawStream.new B (Reader.open content sched) 1 filler) p = .ok st ∧
      SegReads (ConstSlicer.segSrc (RawStream.byteSrc B fuel)) (IoErr [sched]) st
        (slicesOf content (Spec.strides content.length pitch start stop)) := by
  obtain ⟨p, st, h1, h2, _, _, h3⟩ := wide_delivers false (file_amply B fuel filler content sched hB hf) (buffered_prompt B fuel 1 filler _ _) (fun _ => NlMargin.any) fuel' pitch m start stop
    hp hm hne hstop hstart hf' hfit (by simp)
  exact ⟨p, st, h1, h2, h3.reads fun _ _ => trivial⟩

/-- The range `S..E` with offsets from the start of the unit. -/
def fromStart (a b : Int) : SegmentMapper := { start := { anchor := 0, offset := a }, stop := { anchor := 0, offset := b } }

/-- With nd's block size, `--width 4,s-1..s+2` of a ten-byte file. -/
example (sched : Nat → Option Nat) : ∃ p st, ConstSlicerParams.fromRaw 2 4 (fromStart (-1) 2) = .ok p ∧
    ConstSlicer.new (RawStream.new (2 ^ 21) (Reader.open [0, 1, 2, 3, 4, 5, 6, 7, 8, 9] sched) 1 0) p = .ok st ∧
    SegReads (ConstSlicer.segSrc (RawStream.byteSrc (2 ^ 21) 11)) (IoErr [sched]) st [(0, [0, 1]), (3, [3, 4, 5]), (7, [7, 8, 9])] :=
  C19_width_slices_partial (2 ^ 21) 11 2 0 [0, 1, 2, 3, 4, 5, 6, 7, 8, 9] sched (by decide) (by decide) 4 (fromStart (-1) 2) (-1) 2
    (by decide) (by decide) (by decide) (by decide) (by decide) (by decide) (Or.inl (by decide))

theorem strides_tile (len pitch : Nat) (hp : 0 < pitch) :
    Spec.strides len pitch 0 pitch = (List.range ((len + pitch - 1) / pitch)).map fun i => { pos := i * pitch, len := min pitch (len - i * pitch) } := by
  unfold Spec.strides
  have hu : ∀ i, i < (len + pitch - 1) / pitch → i * pitch < len := by
    intro i hi
    have := (Nat.le_div_iff_mul_le hp).1 (show i + 1 ≤ (len + pitch - 1) / pitch from hi)
    rw [Nat.add_mul] at this
    omega
  rw [filterMap_range _ (fun i => ({ pos := i * pitch, len := min pitch (len - i * pitch) } : Seg)) _ 0 ((len + pitch - 1) / pitch)]
  · simp
  · intro i hi
    have h1 := hu i hi
    have h2 : ((i * pitch : Nat) : Int) = i * pitch := Int.natCast_mul _ _
    rw [if_pos (by omega), if_pos (by omega)]
    congr 1
    refine congr (congrArg Seg.mk ?_) ?_ <;> omega
  · right; omega

/-- Without a range expression (`s..e`) the slices are the units themselves: they have no gaps, no overlaps
and cover the stream. -/
theorem C19_tiling (len pitch : Nat) (hp : 0 < pitch) :
    (∀ i (h : i < (Spec.strides len pitch 0 pitch).length), ((Spec.strides len pitch 0 pitch)[i]'h).pos = i * pitch ∧
      ((Spec.strides len pitch 0 pitch)[i]'h).len = min pitch (len - i * pitch)) ∧
    (Spec.strides len pitch 0 pitch).length = (len + pitch - 1) / pitch := by
  rw [strides_tile len pitch hp]
  simp

/-- **C19**, the ordinary case: `nd --width N FILE` cuts the file into pieces of `N` bytes, for every `N > 0` (also one larger
than the blocks or the file), every file and every `read()` schedule, whatever the client consumes. -/
theorem C19_pieces (B fuel fuel' : Nat) (filler : Byte) (content : Bytes) (sched : Nat → Option Nat) (hB : 0 < B) (hf : content.length < fuel)
    (pitch : Nat) (hp : 0 < pitch) (hf' : 1 < fuel') :
    ∃ p st, ConstSlicerParams.fromRaw fuel' pitch .whole = .ok p ∧
      ConstSlicer.new (RawStream.new B (Reader.open content sched) 1 filler) p = .ok st ∧
      SegReads (ConstSlicer.segSrc (RawStream.byteSrc B fuel)) (IoErr [sched]) st
        ((List.range ((content.length + pitch - 1) / pitch)).map fun i => (i * pitch, (content.drop (i * pitch)).take pitch)) := by
  obtain ⟨p, st, h1, h2, h3⟩ := C19_width_slices_partial B fuel fuel' filler content sched hB hf pitch
    .whole 0 pitch hp (by simp [SegmentMapper.evaluate, SegmentMapper.whole, SegmentMapperAnchor.evaluate]) (by omega) (by omega) (by omega) hf' (Or.inl (by omega))
  refine ⟨p, st, h1, h2, ?_⟩
  rw [strides_tile _ _ hp, slicesOf, List.map_map] at h3
  refine cast ?_ h3
  congr 1
  apply List.map_congr_left
  intro i _
  simp only [Function.comp, Seg.bytes, Prod.mk.injEq, true_and]
  rw [← List.length_drop, List.take_eq_take_iff]
  omega

/-- A file of 100 bytes read with block size 16 in pieces of at most 40 bytes. -/
example (content : Bytes) (h : content.length = 100) (sched : Nat → Option Nat) : ∃ p st, ConstSlicerParams.fromRaw 2 40 .whole = .ok p ∧
    ConstSlicer.new (RawStream.new 16 (Reader.open content sched) 1 0) p = .ok st ∧
    SegReads (ConstSlicer.segSrc (RawStream.byteSrc 16 101)) (IoErr [sched]) st
      [(0, content.take 40), (40, (content.drop 40).take 40), (80, (content.drop 80).take 40)] := by
  simpa [h, List.range_succ, List.range_zero] using C19_pieces 16 101 2 0 content sched (by decide) (by omega) 40 (by decide) (by decide)

/-- The first slices of a 10-byte stream cut every 4 bytes. -/
example : Spec.strides 10 4 0 4 = [{ pos := 0, len := 4 }, { pos := 4, len := 4 }, { pos := 8, len := 2 }] := by decide

/-- The slices a client that asks to consume `k` bytes after each fill sees after `n` rounds of
`--width pitch,S..E`. -/
def widthRun (B : Nat) (content : Bytes) (sched : Nat → Option Nat) (pitch : Nat) (m : SegmentMapper) (k n : Nat) :
    Except Err (Bool × List (Nat × Bytes)) :=
  match ConstSlicerParams.fromRaw 100 pitch m with
  | .error e => .error e
  | .ok p =>
    match ConstSlicer.new (RawStream.new B (Reader.open content sched) 1 0) p with
    | .error e => .error e
    | .ok st =>
      match (SegClient.init st).run (ConstSlicer.segSrc (RawStream.byteSrc B 1000)) ((List.replicate n [none, some k]).flatten) with
      | .error e => .error e
      | .ok c => .ok (c.eof, c.got ++ c.lent)

/-- **Counterexample** (first slices far from the start, `FirstFits` violated): with `--width 1,s+10..s+22` of a file longer than a block the
first fill does not lend a whole slice and the program aborts; with block size 2^21 it takes e.g. `--width 1,s+10..s+3M`. -/
theorem C19_wide_start_counterexample :
    (widthRun 16 ((List.range 50).map UInt8.ofNat) (fun _ => some 100) 1 (fromStart 10 22) 1000 1).toOption = none ∧
    ¬ FirstFits 16 1 10 22 ∧
    (Spec.strides 50 1 10 22).length = 40 := by
  refine ⟨by decide +kernel, ?_, by decide⟩
  unfold FirstFits
  decide

/-- **Counterexample** (`E < 1`): with `--width 4,s-1..s` the slices of one and the same file depend on how
`read()` chunks it: with reads of 7, 16, 3 and 1 bytes there is one more slice at the end than with one read. -/
theorem C19_chunking_counterexample :
    widthRun 8 (List.replicate 20 7) (fun i => some ([7, 16, 3].getD i 1)) 4 (fromStart (-1) 0) 1000 6 =
      .ok (true, [(3, [7]), (7, [7]), (11, [7]), (15, [7]), (19, [7])]) ∧
    widthRun 8 (List.replicate 20 7) (fun _ => some 20) 4 (fromStart (-1) 0) 1000 6 =
      .ok (true, [(3, [7]), (7, [7]), (11, [7]), (15, [7])]) := by
  decide +kernel

/-- **Counterexample** (more than 15 slices clipped at the start): with `--width 16,s-241..s+1` a client that
consumes one byte makes `consume` underflow. -/
theorem C19_many_clipped_counterexample :
    widthRun 512 (List.replicate 300 7) (fun _ => some 300) 16 (fromStart (-241) 1) 1 1 = .error .panic := by
  decide +kernel

/-- **Counterexample** (`--width 0,s-8..e`): the arguments are accepted and the setup never ends. -/
theorem C19_zero_width_counterexample (fuel : Nat) :
    ConstSlicerParams.fromRaw fuel 0 { start := { anchor := 0, offset := -8 }, stop := { anchor := 1, offset := 0 } } = .error .diverge := by
  have h : ∀ fuel, ConstSlicerParams.headLoop 0 8 fuel 8 = .error .diverge := by
    intro fuel
    induction fuel with
    | zero => rfl
    | succ n ih => exact ih
  show (match ConstSlicerParams.headLoop 0 8 fuel 8 with
    | .error e => .error e
    | .ok margin => .ok { head := -margin, tail := 1, pitch := 0, span := 8 } : Except Err ConstSlicerParams) = _
  rw [h]

end Nd.Props
