import Verif.Proof.Merge
import Verif.Props.Segment
import Verif.Props.Drain
/-!
# C22: merging slices
-/
namespace Nd.Props
open Nd Nd.Spec

/-- What the fold means: each of the merged slices begins where an input slice begins and ends where an input slice
ends, every input slice lies in one of them, inside of them every `n + 1` successive positions touch an input slice,
and any two of them are more than `n` bytes apart. -/
theorem C22_fold_meaning (n : Nat) (segs : List Seg) (h : Sorted segs) :
    (∀ z ∈ merge n segs, (∃ x ∈ segs, x.pos = z.pos) ∧ (∃ y ∈ segs, y.tail = z.tail) ∧
      ∀ p, z.pos ≤ p → p < z.tail → ∃ x ∈ segs, x.pos ≤ p + n ∧ p < x.tail) ∧
    (∀ x ∈ segs, ∃ z ∈ merge n segs, z.pos ≤ x.pos ∧ x.tail ≤ z.tail) ∧
    (merge n segs).Pairwise (fun a b => a.tail + n < b.pos) := by
  refine ⟨?_, ?_, merge_apart n segs h⟩
  · cases segs with
    | nil => simp [merge]
    | cons x xs =>
      intro z hz
      obtain ⟨⟨h1, y, hy, h2, _⟩, h3⟩ := mergeFrom_dense n (x :: xs) xs x (fun y hy => by simp [hy]) (Comp.self (by simp))
        (fun p h1 h2 => ⟨x, by simp, by omega, h2⟩) h z hz
      exact ⟨h1, ⟨y, hy, h2⟩, h3⟩
  · cases segs with
    | nil => simp
    | cons x xs => exact mergeFrom_covers n xs x h

example : merge 2 [⟨0, 3⟩, ⟨1, 1⟩, ⟨5, 2⟩, ⟨10, 1⟩, ⟨10, 4⟩] = [⟨0, 7⟩, ⟨10, 4⟩] := by decide

/-- **C22**: over every stream of sorted slices that does not take back lent slices, `--merge n` delivers exactly the
merged slices, however the source chunks them; the client may do what the source tolerates (`MergeStream.kind`). -/
theorem C22_merge_fold {S : SegSrc σ} {K F} {s : σ} {w : Nat} {content : Bytes} {segs : List Seg} (h : SegDelivers S K F s w content segs)
    (hh : K.honest = true) (hst : K.steady = true) (he : K.early = true) (hp : ∀ lent k, (∃ x ∈ lent, x.pos = k) → K.policy lent k)
    (hso : Sorted segs) (hlen : content.length < 2 ^ 64) (n : Nat) (hz : K.strict = false := by first | rfl | assumption) :
    SegDelivers (MergeStream.segSrc S) (MergeStream.kind K) F (MergeStream.new s n) w content (merge n segs) ∧
    SegDrains (MergeStream.segSrc S) F (MergeStream.new s n) (slicesOf content (merge n segs)) ∧
    (K.Free → SegReads (MergeStream.segSrc S) F (MergeStream.new s n) (slicesOf content (merge n segs))) := by
  have := MergeStream.delivers h hh hst he hp hso (by unfold usizeMax; omega) n
  exact ⟨this, this.drains, fun hf => this.reads fun _ _ => Or.inl hf⟩

theorem strides_sorted (len pitch : Nat) (start stop : Int) : Sorted (strides len pitch start stop) := by
  unfold Sorted strides
  rw [List.pairwise_filterMap]
  refine List.Pairwise.imp ?_ List.pairwise_lt_range
  intro i j hij a ha b hb
  have := mul_le_int pitch (Nat.le_of_lt hij)
  split at ha
  · cases ha
    split at hb
    · cases hb
      simp only
      omega
    · cases hb
  · cases ha

/-- **C22** for `--width N,S..E --merge M`, for every file and `read()` schedule: clients that consume all they may see the
merged slices. -/
theorem C22_width_merge (B fuel fuel' : Nat) (filler : Byte) (content : Bytes) (sched : Nat → Option Nat) (hB : 0 < B) (hf : content.length < fuel)
    (hlen : content.length < 2 ^ 64)
    (pitch : Nat) (m : SegmentMapper) (start stop : Int) (hp : 0 < pitch) (hm : m.evaluate (0, pitch) (0, pitch) = (start, stop))
    (hne : start < stop) (hstop : 1 ≤ stop) (hstart : -(15 * pitch) < start) (hf' : 1 < fuel')
    (hL : 2 * stop - start + 2 * pitch < ((B - 1784) / 8 : Nat)) (n : Nat) :
    ∃ p st, ConstSlicerParams.fromRaw fuel' pitch m = .ok p ∧
      ConstSlicer.new (RawStream.new B (Reader.open content sched) 1 filler) p = .ok st ∧
      SegDrains (MergeStream.segSrc (ConstSlicer.segSrc (RawStream.byteSrc B fuel))) (IoErr [sched]) (MergeStream.new st n)
        (slicesOf content (merge n (strides content.length pitch start stop))) ∧
      ((pitch : Int) ≤ stop - start → ∀ f : Formatting,
        Reads (ScatterDrain.byteSrc (MergeStream.segSrc (ConstSlicer.segSrc (RawStream.byteSrc B fuel))) f B fuel) (IoErr [sched])
          (ScatterDrain.through B (MergeStream.new st n))
          ((slicesOf content (merge n (strides content.length pitch start stop))).flatMap f.line)) := by
  obtain ⟨p, st, h1, h2, _, h3⟩ := width_delivers .polite (file_amply B fuel filler content sched hB hf) (fun _ => NlMargin.any) fuel' pitch m start stop
    hp hm hne hstop hstart hf' (by simp only [ConstSlicer.Manner.need]; omega)
  obtain ⟨g1, g2, _⟩ := C22_merge_fold h3 rfl rfl rfl (fun _ _ h => h) (strides_sorted _ _ _ _) hlen n
  exact ⟨p, st, h1, h2, g2, fun hle f => C29_prints_every_slice_partial (by simp [MergeStream.kind, ConstSlicer.kind]; omega) f B fuel hB _ _ content _ g1 hlen hf⟩

/-- `--width 4,s..s+2 --merge 1` leaves the slices alone, `--merge 2` joins them all. -/
example (sched : Nat → Option Nat) : ∃ p st, ConstSlicerParams.fromRaw 2 4 (fromStart 0 2) = .ok p ∧
    ConstSlicer.new (RawStream.new (2 ^ 21) (Reader.open [0, 1, 2, 3, 4, 5, 6, 7, 8, 9] sched) 1 0) p = .ok st ∧
    SegDrains (MergeStream.segSrc (ConstSlicer.segSrc (RawStream.byteSrc (2 ^ 21) 11))) (IoErr [sched]) (MergeStream.new st 2)
      [(0, [0, 1, 2, 3, 4, 5, 6, 7, 8, 9])] := by
  obtain ⟨p, st, h1, h2, h3, _⟩ := C22_width_merge (2 ^ 21) 11 2 0 [0, 1, 2, 3, 4, 5, 6, 7, 8, 9] sched (by decide) (by decide) (by decide) 4 (fromStart 0 2) 0 2
    (by decide) (by decide) (by decide) (by decide) (by decide) (by decide) (by decide) 2
  exact ⟨p, st, h1, h2, h3⟩

/-- The slices a client sees that, before consuming all it may in every round, consumes `ks`. -/
def mergeRun (B : Nat) (content : Bytes) (sched : Nat → Option Nat) (pitch : Nat) (m : SegmentMapper) (n : Nat) (ks : List Nat) :
    Except Err (Bool × List (Nat × Bytes)) :=
  match ConstSlicerParams.fromRaw 100 pitch m with
  | .error e => .error e
  | .ok p =>
    match ConstSlicer.new (RawStream.new B (Reader.open content sched) 1 0) p with
    | .error e => .error e
    | .ok st =>
      match (SegClient.init (MergeStream.new st n)).run (MergeStream.segSrc (ConstSlicer.segSrc (RawStream.byteSrc B 1000)))
          (ks.flatMap fun k => [none, some k]) with
      | .error e => .error e
      | .ok c => .ok (c.eof, c.got ++ c.lent)

/-- **Counterexample** (a client that stops in the middle of a slice): over `--width 10,s..s+7`, `--merge 1` shows the slice at
130 twice, because the fixed-width slicer takes back lent slices after such requests.  None of nd's own streams and
drains on top of `--merge` or `--width` does that unless `--extend` or `--invert` comes in between. -/
theorem C22_odd_client_counterexample :
    (mergeRun 64 ((List.range 150).map UInt8.ofNat) (fun i => some ([46, 51, 42, 1, 4, 40].getD i 64)) 10 (fromStart 0 7) 1
      ([36, 10, 53, 21, 51, 50] ++ List.replicate 12 1000)).map (fun r => (r.1, r.2.map Prod.fst)) =
      .ok (true, [0, 10, 20, 30, 40, 50, 60, 70, 80, 90, 100, 110, 120, 130, 130, 140]) := by
  decide +kernel

/-- **Counterexample** (slices further apart than a block): over `--width 30,s..s+1` of a 50-byte file read with block size 16, `--merge 0`
loses the slice at 30: `MergeStream` consumes all it can (`consume(usize::MAX)`) although it is not permitted to consume anything, and the
fixed-width slicer goes along. -/
theorem C22_wide_counterexample :
    mergeRun 16 ((List.range 50).map UInt8.ofNat) (fun _ => some 100) 30 (fromStart 0 1) 0 (List.replicate 8 100000) = .ok (true, [(0, [0])]) ∧
    ((30, [30]) : Nat × Bytes) ∈ slicesOf ((List.range 50).map UInt8.ofNat) (Spec.merge 0 (Spec.strides 50 30 0 1)) := by
  decide +kernel

end Nd.Props
