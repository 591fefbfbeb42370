import Verif.Proof.PatchBack
import Verif.Props.Drain
import Verif.Props.Find
import Verif.Props.Guide
/-!
# C31: `--patch-back`
-/
namespace Nd.Props
open Nd Nd.Spec Nd.Format

/-- **C31** (commands that read all of their input before they print anything): however the threads are interleaved, when the main thread starts to patch, the
slicing thread has ended.  Either it has failed, because reading the input failed; or the command has received all slices, and then the output is the stream patched
with the records of the command. -/
theorem C31_patient_partial {S : SegSrc σ} {K F} (hK : K.exact = true) (hfull : K.full = true) {C : CacheOf σ} {st : σ} {w : Nat} {content : Bytes} {segs : List Seg}
    (h : SegTracked S K F (fun s rem => (C.get s).data ++ rem = content) st w content segs) (f : Formatting) (B : Nat) (hB : 0 < B) (hlen : content.length < 2 ^ 64)
    {cmd : Command} {out : Bytes → Bytes} (hcmd : cmd.Patient out) {wd : World σ} (hr : World.Reachable S f B cmd C.Access st wd) (hst : wd.started = true) :
    (∃ e, F e ∧ wd.a.fate = some (some e)) ∨
    (wd.a.fate = some none ∧ cmd.emit wd.a.written wd.a.fate.isSome = (out ((slicesOf content segs).flatMap f.line), true) ∧
      ∀ {τ : Type} (P : RecSrc τ) (G : Err → Prop) (bad : Bool) (patch : τ) (recs : List Rec) (sched : Nat → Option Nat) (fuel : Nat), Yields P G bad patch recs →
        PatchOk content.length bad 0 recs → (∀ r ∈ recs, r.offset + r.span < usizeMax) → recs.length + content.length + 4 ≤ fuel →
        ∀ s, PatchStream.new P B (TeeReader.new B (C.get wd.a.st) sched) patch = .ok s →
          Reads (PatchDrain.byteSrc (PatchStream.byteSrc (TeeReader.byteSrc B fuel) P B fuel)) (fun e => IoErr [sched] e ∨ G e) (PatchDrain.new s none) (splice 0 content recs)) := by
  obtain ⟨R, hR, hG, h0⟩ := h
  rcases (World.Reachable.started hR hK hfull hG hlen B hcmd (Slicing.Inv.new h0) hr).2 hst with ⟨h1, h2, h3⟩ | ⟨e, he, h1⟩
  · refine Or.inr ⟨h1, by rw [h1, h2]; exact (hcmd _).2, ?_⟩
    intro τ P G bad patch recs sched fuel hy hok hm hf s hs
    have hd := TeeReader.delivers B hB fuel sched (C.get wd.a.st) (by rw [h3]; omega)
    rw [h3] at hd
    have hd' := hd.mono (F' := fun e => IoErr [sched] e ∨ G e) (fun e he => Or.inl ⟨he.1, sched, by simp, he.2⟩) (fun _ h => h)
    exact (PatchDrain.delivers (PatchStream.delivers hB hd' (by unfold usizeMax; omega) (Yields.mono hy fun e he => Or.inr he) hok hm hs (by omega))).reads
  · exact Or.inl ⟨e, he, h1⟩

/-- The slicing thread ends after finitely many rounds. -/
theorem C31_thread_ends {S : SegSrc σ} {K F} (hK : K.exact = true) (hfull : K.full = true) {Good : σ → Bytes → Prop} {st : σ} {w : Nat} {content : Bytes} {segs : List Seg}
    (h : SegTracked S K F Good st w content segs) (f : Formatting) (B : Nat) (hlen : content.length < 2 ^ 64) :
    (Nat.repeat (fun a => a.round S f B) (w + 2) (Slicing.new st)).fate ≠ none := by
  obtain ⟨R, hR, hG, h0⟩ := h
  exact Slicing.ends hR hK hfull hG hlen B (w + 1) (w + 2) _ (Slicing.Inv.new h0) (Nat.le_refl _)

theorem reaches_rounds {S : SegSrc σ} {A : σ → σ → Prop} {st : σ} (f : Formatting) (B : Nat) (cmd : Command) :
    ∀ n, World.Reachable S f B cmd A st { a := Nat.repeat (fun a => a.round S f B) n (Slicing.new st), started := false }
  | 0 => .init
  | n + 1 => .step _ _ (reaches_rounds f B cmd n) (.slice _)

/-- The main thread does get to patch: the situation of `C31_patient_partial` is reached. -/
theorem C31_reaches {S : SegSrc σ} {K F} (hK : K.exact = true) (hfull : K.full = true) {C : CacheOf σ} {Good : σ → Bytes → Prop} {st : σ} {w : Nat} {content : Bytes} {segs : List Seg}
    (h : SegTracked S K F Good st w content segs) (f : Formatting) (B : Nat) (hlen : content.length < 2 ^ 64) {cmd : Command} {out : Bytes → Bytes} (hcmd : cmd.Patient out) :
    ∃ wd, World.Reachable S f B cmd C.Access st wd ∧ wd.started = true := by
  refine ⟨_, .step _ _ (reaches_rounds f B cmd (w + 2)) (.start _ ?_), rfl⟩
  have := C31_thread_ends hK hfull h f B hlen
  simp only
  cases hf : (Nat.repeat (fun a => a.round S f B) (w + 2) (Slicing.new st)).fate with
  | none => exact absurd hf this
  | some r =>
    rw [Option.isSome_some, (hcmd _).2]
    simp

theorem _root_.Nd.Reads.mono {S : ByteSrc σ} {F F' : Err → Prop} {s : σ} {content : Bytes} (h : Reads S F s content) (hF : ∀ e, F e → F' e) : Reads S F' s content := by
  obtain ⟨h1, N, h2⟩ := h
  refine ⟨fun ops => ?_, N, fun reqs hr => ?_⟩
  · rcases h1 ops with ⟨e, he, h⟩ | h
    · exact Or.inl ⟨e, hF e he, h⟩
    · exact Or.inr h
  · rcases h2 reqs hr with ⟨e, he, h⟩ | h
    · exact Or.inl ⟨e, hF e he, h⟩
    · exact Or.inr h

/-! ## `--width` and `--find` behind the tee -/

/-- The temporary file of a tee below `ConstSlicer`. -/
def constCache : CacheOf (ConstSlicer (TeeStream σ)) where
  get s := s.src.cache
  set s c := { s with src := { s.src with cache := c } }
  get_set _ _ := rfl

/-- The temporary file of a tee below `ExactMatchSlicer`. -/
def exactCache : CacheOf (ExactMatchSlicer (TeeStream σ)) where
  get s := s.src.cache
  set s c := { s with src := { s.src with cache := c } }
  get_set _ _ := rfl

/-- `--width N,S..E` behind the tee. -/
theorem width_tracked {Src : ByteSrc σ} {F M L} {s : σ} {w : Nat} {content : Bytes} (h : ServesAmply Src F M L s w content)
    (hM : ∀ m, M m → AnyMargin m) (fuel pitch : Nat) (m : SegmentMapper) (start stop : Int) (hp : 0 < pitch)
    (hm : m.evaluate (0, pitch) (0, pitch) = (start, stop)) (hne : start < stop) (hstop : 1 ≤ stop) (hstart : -(15 * pitch) < start)
    (hf : 1 < fuel) (hL : 2 * stop - start + pitch < L) :
    ∃ p st, ConstSlicerParams.fromRaw fuel pitch m = .ok p ∧ ConstSlicer.new (TeeStream.new s) p = .ok st ∧
      SegTracked (ConstSlicer.segSrc (TeeStream.byteSrc Src)) (ConstSlicer.kind .any pitch (stop - start).toNat) F (fun s rem => (constCache.get s).data ++ rem = content) st w content
        (Spec.strides content.length pitch start stop) := by
  obtain ⟨R, E, hR, hA, hs, hE⟩ := h
  have hex : ∃ p, ConstSlicerParams.fromRaw fuel pitch m = .ok p := by
    unfold ConstSlicerParams.fromRaw
    rw [hm]
    simp only
    rw [if_neg (by omega)]
    by_cases h0 : 0 ≤ start
    · rw [if_pos h0]; exact ⟨_, rfl⟩
    · rw [if_neg h0]
      obtain ⟨m', hm'⟩ := ConstSlicerParams.headLoop_ok pitch (stop - start) (by omega) fuel (-start) (by omega) (by omega)
      rw [hm']
      exact ⟨_, rfl⟩
  obtain ⟨p, hpr⟩ := hex
  obtain ⟨h1, h2, h3, h4, h5, h6, h7, h8, h9, h10, h11⟩ := ConstSlicerParams.fromRaw_comb hp hpr content.length start stop hm
  have hhead := h10 hstop
  have ok : ConstSlicer.ParamsOk p := ⟨by omega, by omega, h4, h7 hstop, h5, h6, h8 hstart⟩
  have hesc : ConstSlicer.escape p ≤ stop := by
    unfold ConstSlicer.escape
    split <;> omega
  have hspan : p.span = (stop - start).toNat := by omega
  have hL' : ConstSlicer.Manner.any.need p.pitch p.span (ConstSlicer.escape p) ≤ L := by
    rw [h2, hspan]
    simp only [ConstSlicer.Manner.need]
    omega
  have hT := TeeStream.serves hR content
  have hTA := TeeStream.ample hA content
  have hinit : TeeStream.Rel Src R content (TeeStream.new s) (.idle 1) w content := ⟨hs, rfl, rfl, trivial⟩
  obtain ⟨st, hst, hrel⟩ := ConstSlicer.new_spec (Src := TeeStream.byteSrc Src) (E := fun t => E t.src) .any p ok _ w content hinit hE hL'
  refine ⟨p, st, hpr, hst, ?_⟩
  rw [h11, ← h2] at hrel
  have := ConstSlicer.faithful hT hTA hM .any p.pitch p.span (p.tail + p.span).toNat (ConstSlicer.escape p) hL'
  rw [← hspan, ← h2]
  refine ⟨_, this, fun s ph w rem segs hr => ?_, hrel⟩
  obtain ⟨ph', h⟩ := hr.src
  exact h.2.1

/-- `--find` behind the tee. -/
theorem find_tracked {I : Impl} {Src : ByteSrc σ} {F M L} {s : σ} {w : Nat} {content : Bytes} (h : ServesAmply Src F M L s w content) (hM : ∀ m, M m → AnyMargin m)
    (B : Nat) {text p : Bytes} (ht : ExactMatchSlicer.parsePattern I text = .ok p) (hp : Unbordered p) (hL : p.length ≤ L) (hL0 : 0 < L) :
    ∃ st, ExactMatchSlicer.new I (TeeStream.new s) text = .ok st ∧
      SegTracked (ExactMatchSlicer.segSrc (TeeStream.byteSrc Src) B) ExactMatchSlicer.kind F (fun s rem => (exactCache.get s).data ++ rem = content) st w content (occurrences p content) := by
  obtain ⟨R, E, hR, hA, hs, hE⟩ := h
  have hT := TeeStream.serves hR content
  have hTA := TeeStream.ample hA content
  have hinit : TeeStream.Rel Src R content (TeeStream.new s) (.idle 1) w content := ⟨hs, rfl, rfl, trivial⟩
  refine ⟨_, by rw [ExactMatchSlicer.new, ht], _, ExactMatchSlicer.faithful hp hT hTA hM hL hL0 B, fun s ph w rem segs hr => ?_,
    ⟨⟨rfl, occurrences_eq _ _, by simp [occIn], Nat.zero_le _⟩, 1, L, hinit, fun req n s' hf => ?_, Or.inr ?_⟩, by simp⟩
  · obtain ⟨ph', h⟩ := hr.src
    exact h.2.1
  · exact (hTA.fill _ _ _ _ _ _ _ _ hinit hf).1 rfl
  · simp only; omega

theorem strides_cover (len pitch : Nat) (hp : 0 < pitch) : Tiles len 0 (strides len pitch 0 pitch) := by
  obtain ⟨h1, h2⟩ := C19_tiling len pitch hp
  have hd := Nat.div_add_mod (len + pitch - 1) pitch
  have hm := Nat.mod_lt (len + pitch - 1) hp
  have hc : pitch * ((len + pitch - 1) / pitch) = (len + pitch - 1) / pitch * pitch := Nat.mul_comm _ _
  refine tiles_rows len pitch _ 0 _ rfl (Nat.zero_le _) (by rw [h2]; omega) fun i hi => ?_
  obtain ⟨h3, h4⟩ := h1 i hi
  rw [h3, h4, Nat.zero_add]
  refine ⟨rfl, rfl, ?_⟩
  rw [h2] at hi
  have : (i + 1) * pitch ≤ (len + pitch - 1) / pitch * pitch := Nat.mul_le_mul_right _ hi
  rw [Nat.succ_mul] at this
  omega

/-- **C31**: `nd --width N --patch-back CMD FILE...`, with a command that reads all of its input before it prints anything.  For every interleaving of the threads, every
chunking of the files, of the temporary file and of the command's output: the command receives the dump of the stream; and if it prints the dump of other bytes in the
same layout, these are the output (or reading has failed). -/
theorem C31_width_partial (I : Impl) (B fuel fuel' fuel'' : Nat) (filler : Byte) (content : Bytes) (sched : Nat → Option Nat) (hB : 0 < B) (hf : content.length < fuel)
    (pitch : Nat) (m : SegmentMapper) (hp : 0 < pitch) (hm : m.evaluate (0, pitch) (0, pitch) = (0, (pitch : Int))) (hf' : 1 < fuel')
    (hL : 3 * (pitch : Int) < ((B - 1784) / 8 : Nat)) (hlen : content.length < 2 ^ 48) (hw : 47 + 4 * pitch < (B - 1777) / 8)
    (cmd : Command) (out : Bytes → Bytes) (hcmd : cmd.Patient out) (b : Bytes) (hbl : b.length = content.length)
    (hb : out ((slicesOf content (strides content.length pitch 0 pitch)).flatMap (Formatting.line ⟨.hhh, 0⟩)) = (slicesOf b (strides content.length pitch 0 pitch)).flatMap (Formatting.line ⟨.hhh, 0⟩))
    (hf1 : ((slicesOf b (strides content.length pitch 0 pitch)).flatMap (Formatting.line ⟨.hhh, 0⟩)).length < fuel'') (hf2 : (strides content.length pitch 0 pitch).length + content.length + 4 ≤ fuel'') :
    ∃ p st, ConstSlicerParams.fromRaw fuel' pitch m = .ok p ∧ ConstSlicer.new (TeeStream.new (RawStream.new B (Reader.open content sched) 1 filler)) p = .ok st ∧
      ∀ wd, World.Reachable (ConstSlicer.segSrc (TeeStream.byteSrc (RawStream.byteSrc B fuel))) ⟨.hhh, 0⟩ B cmd constCache.Access st wd → wd.started = true →
        (∃ e, IoErr [sched] e ∧ wd.a.fate = some (some e)) ∨
        (wd.a.fate = some none ∧ ∀ sched1 sched2 : Nat → Option Nat,
          ∀ s, PatchStream.new (fileParser I B fuel'' .hex .hex) B (TeeReader.new B (constCache.get wd.a.st) sched1) (openText B 0 (cmd.emit wd.a.written wd.a.fate.isSome).1 sched2) = .ok s →
            Reads (PatchDrain.byteSrc (PatchStream.byteSrc (TeeReader.byteSrc B fuel'') (fileParser I B fuel'' .hex .hex) B fuel'')) (IoErr [sched1, sched2]) (PatchDrain.new s none) b) := by
  obtain ⟨p, st, h1, h2, h3⟩ := width_tracked (file_amply B fuel filler content sched hB hf) (fun _ => NlMargin.any) fuel' pitch m 0 pitch hp hm (by omega) (by omega) (by omega) hf' (by omega)
  refine ⟨p, st, h1, h2, fun wd hr hst => ?_⟩
  rcases C31_patient_partial (by simp [ConstSlicer.kind]) rfl h3 ⟨.hhh, 0⟩ B hB (by omega) hcmd hr hst with h | ⟨h, hc, hrest⟩
  · exact Or.inl h
  · refine Or.inr ⟨h, fun sched1 sched2 s hs => ?_⟩
    have ht := strides_cover content.length pitch hp
    rw [hc, hb] at hs
    simp only at hs
    rw [← hbl] at ht hs hf1
    have hseg : segments .hhh 0 0 b (strides b.length pitch 0 pitch) = .ok ((slicesOf b (strides b.length pitch 0 pitch)).flatMap (Formatting.line ⟨.hhh, 0⟩)) := by
      have := segments_line ⟨.hhh, 0⟩ 0 b (strides b.length pitch 0 pitch) fun x hx => by
        have := ht.le.2 x hx
        omega
      simpa [slicesOf] using this
    have hy := dump_yields I B fuel'' 0 0 b _ sched2 hB ht (by omega) (fun x hx => by
      obtain ⟨i, hi, rfl⟩ := List.getElem_of_mem hx
      rw [((C19_tiling b.length pitch hp).1 i hi).2]
      omega) _ hseg hf1
    have hR := hrest _ _ _ _ _ sched1 fuel'' hy (by rw [← hbl]; exact C07_ordered_ok _ _ _ (Tiles.ordered .hhh b b.length (by omega) _ 0 ht)) (recs_bound b _ ht (by omega)) (by rw [List.length_map, hbl]; exact hf2) s hs
    have hsp := Tiles.splice .hhh content b (by omega) hbl.symm _ 0 ht
    simp only [List.drop_zero] at hsp
    rw [hsp] at hR
    exact hR.mono fun e he => by
      rcases he with ⟨h1, s, h2, h3⟩ | ⟨h1, s, h2, h3⟩ <;> exact ⟨h1, s, by simp at h2; simp [h2], h3⟩

/-- A command that waits for all of its input and prints it again (`sponge`). -/
def sponge : Command := { emit := fun t closed => if closed then (t, true) else ([], false) }

theorem sponge_patient : sponge.Patient id := fun _ => ⟨rfl, rfl⟩

/-- With `sponge` nothing is changed: `nd --width 16 --patch-back sponge FILE` for a file of three bytes. -/
example (I : Impl) (sched : Nat → Option Nat) : ∃ p st, ConstSlicerParams.fromRaw 2 16 (fromStart 0 16) = .ok p ∧
    ConstSlicer.new (TeeStream.new (RawStream.new (2 ^ 21) (Reader.open [1, 2, 3] sched) 1 0)) p = .ok st ∧
      ∀ wd, World.Reachable (ConstSlicer.segSrc (TeeStream.byteSrc (RawStream.byteSrc (2 ^ 21) 4))) ⟨.hhh, 0⟩ (2 ^ 21) sponge constCache.Access st wd → wd.started = true →
        (∃ e, IoErr [sched] e ∧ wd.a.fate = some (some e)) ∨
        (wd.a.fate = some none ∧ ∀ sched1 sched2 : Nat → Option Nat,
          ∀ s, PatchStream.new (fileParser I (2 ^ 21) 100 .hex .hex) (2 ^ 21) (TeeReader.new (2 ^ 21) (constCache.get wd.a.st) sched1)
              (openText (2 ^ 21) 0 (sponge.emit wd.a.written wd.a.fate.isSome).1 sched2) = .ok s →
            Reads (PatchDrain.byteSrc (PatchStream.byteSrc (TeeReader.byteSrc (2 ^ 21) 100) (fileParser I (2 ^ 21) 100 .hex .hex) (2 ^ 21) 100)) (IoErr [sched1, sched2]) (PatchDrain.new s none) [1, 2, 3]) :=
  C31_width_partial I (2 ^ 21) 4 2 100 0 [1, 2, 3] sched (by decide) (by decide) 16 (fromStart 0 16) (by decide) (by decide) (by decide) (by decide) (by decide) (by decide)
    sponge id sponge_patient [1, 2, 3] rfl rfl (by decide +kernel) (by decide +kernel)

/-! ## Where it goes wrong -/

/-- Both threads, with a command that prints nothing and closes its output at once while it reads its input: `PatchStream` has no records. -/
structure Duet (σ : Type) where
  a : Slicing σ
  main : PatchDrain (Buffered (PatchState (Buffered TeeState) (List Rec)))
  out : Bytes
  ended : Bool

namespace Duet

/-- A round of the slicing thread. -/
def slice (S : SegSrc σ) (B : Nat) (d : Duet σ) : Duet σ := { d with a := d.a.round S ⟨.hhh, 0⟩ B }

/-- The main thread's `PatchDrain` with the temporary file as it is now. -/
def view (C : CacheOf σ) (d : Duet σ) : PatchDrain (Buffered (PatchState (Buffered TeeState) (List Rec))) :=
  { d.main with patch := { d.main.patch with inner := { d.main.patch.inner with src :=
      { d.main.patch.inner.src with inner := { d.main.patch.inner.src.inner with cache := C.get d.a.st } } } } }

/-- A round of `consume_stream` (`src/main.rs` 219-236). -/
def copy (C : CacheOf σ) (B fuel : Nat) (d : Duet σ) : Except Err (Duet σ) :=
  let M := PatchDrain.byteSrc (PatchStream.byteSrc (TeeReader.byteSrc B fuel) (listSrc false) B fuel)
  if d.ended then .ok d
  else
    match M.fill (view C d) B with
    | .error e => .error e
    | .ok ((eof, bytes), main) =>
      let a := { d.a with st := C.set d.a.st main.patch.inner.src.inner.cache }
      if eof && decide (bytes = 0) then .ok { d with a := a, main := main, ended := true }
      else
        match M.consume main bytes with
        | .error e => .error e
        | .ok main' => .ok { a := a, main := main', out := d.out ++ (M.slice main).take bytes, ended := false }

/-- A schedule: `true` for the slicing thread, `false` for the main thread. -/
def run (S : SegSrc σ) (C : CacheOf σ) (B fuel : Nat) : List Bool → Duet σ → Except Err (Duet σ)
  | [], d => .ok d
  | true :: rest, d => run S C B fuel rest (d.slice S B)
  | false :: rest, d =>
    match d.copy C B fuel with
    | .error e => .error e
    | .ok d => run S C B fuel rest d

/-- What has been printed, and whether both threads have ended without an error. -/
def result (r : Except Err (Duet σ)) : Except Err (Bytes × Bool) :=
  match r with
  | .error e => .error e
  | .ok d => .ok (d.out, d.ended && decide (d.a.fate = some none))

end Duet

/-- The threads from the start, under a schedule. -/
def duetFrom (S : SegSrc σ) (C : CacheOf σ) (B : Nat) (st : σ) (sched : List Bool) : Except Err (Bytes × Bool) :=
  match PatchStream.new (listSrc false) B (TeeReader.new B TempFile.new fun _ => some B) [] with
  | .error e => .error e
  | .ok s => Duet.result (Duet.run S C B 1000 sched { a := Slicing.new st, main := PatchDrain.new s none, out := [], ended := false })

/-- `nd --width 4 --patch-back CMD` on a file, with block size `B`. -/
def duet (B : Nat) (content : Bytes) (sched : List Bool) : Except Err (Bytes × Bool) :=
  match ConstSlicerParams.fromRaw 100 4 (fromStart 0 4) with
  | .error e => .error e
  | .ok p =>
    match ConstSlicer.new (TeeStream.new (RawStream.new B (Reader.open content fun _ => some B) 1 0)) p with
    | .error e => .error e
    | .ok st => duetFrom (ConstSlicer.segSrc (TeeStream.byteSrc (RawStream.byteSrc B 1000))) constCache B st sched

/-- Under the schedule that the code expects, the file is printed as it is. -/
example : duet 4 ((List.range 64).map UInt8.ofNat) (List.replicate 20 true ++ List.replicate 20 false) = .ok ((List.range 64).map UInt8.ofNat, true) := by decide +kernel

/-- **Counterexample** (two threads share one file position): the main thread reads a block from the temporary file while the slicing thread still writes.  This moves the
position, and the slicing thread overwrites what has not been read yet.  Both threads end normally, but the bytes 4 to 15 are missing in the output. -/
theorem C31_race_counterexample :
    duet 4 ((List.range 64).map UInt8.ofNat) ([true, true, true] ++ [false] ++ List.replicate 20 true ++ List.replicate 20 false) =
      .ok ([0, 1, 2, 3] ++ ((List.range 64).map UInt8.ofNat).drop 16, true) := by decide +kernel

/-- **Counterexample** (the main thread is ahead): it takes the end of the temporary file for the end of the stream.  The output is empty, although both threads
end normally. -/
theorem C31_ahead_counterexample :
    duet 4 ((List.range 64).map UInt8.ofNat) ([false] ++ List.replicate 20 true) = .ok ([], true) := by decide +kernel

/-- The temporary file of a tee below `RangeSlicer`. -/
def rangeCache : CacheOf (RangeSlicer (TeeStream σ)) where
  get s := s.src.cache
  set s c := { s with src := { s.src with cache := c } }
  get_set _ _ := rfl

/-- The start of `--slice 0..2` on a file of eight bytes. -/
def firstTwo : RangeSlicer (TeeStream (Buffered Reader)) :=
  { src := TeeStream.new (RawStream.new 16 (Reader.open [1, 2, 3, 4, 5, 6, 7, 8] fun _ => some 16) 1 0), srcConsumed := 0, maxConsume := 0, segments := [],
    cutter := { filters := [RangeMapper.ofMapper (fromStart 0 2)], tailFilters := [], transOffset := usizeMax, tailMargin := 0 } }

theorem firstTwo_new : RangeSlicer.new false (TeeStream.new (RawStream.new 16 (Reader.open [1, 2, 3, 4, 5, 6, 7, 8] fun _ => some 16) 1 0)) [RangeMapper.ofMapper (fromStart 0 2)] = .ok firstTwo := by
  simp [RangeSlicer.new, Cutter.ofRanges, Cutter.minTrans, RangeMapper.ofMapper, RangeMapper.anchorOf, RangeMapper.hasRightAnchor, List.filter, Cutter.sortFilters, stableSort, insertSorted, firstTwo, fromStart]

/-- **Counterexample** (slicers that end before the stream does): `--slice 0..2 --patch-back CMD` under the schedule that the code expects.  The slicing thread does not consume
what follows the last slice, so that it never reaches the temporary file: the output is cut off. -/
theorem C31_cut_off_counterexample :
    duetFrom (RangeSlicer.segSrc (TeeStream.byteSrc (RawStream.byteSrc 16 1000)) 16) rangeCache 16 firstTwo (List.replicate 20 true ++ List.replicate 20 false) = .ok ([1, 2], true) := by
  decide +kernel

/-- What the slicing thread of `--width pitch,s..s+len` has written after `n` rounds, and how it has ended. -/
def sliced (B : Nat) (content : Bytes) (sched : Nat → Option Nat) (pitch : Nat) (len : Int) (n : Nat) : Except Err (Bytes × Option (Option Err) × Bytes) :=
  match ConstSlicerParams.fromRaw 100 pitch (fromStart 0 len) with
  | .error e => .error e
  | .ok p =>
    match ConstSlicer.new (TeeStream.new (RawStream.new B (Reader.open content sched) 1 0)) p with
    | .error e => .error e
    | .ok st =>
      let a := Nat.repeat (fun a => a.round (ConstSlicer.segSrc (TeeStream.byteSrc (RawStream.byteSrc B 1000))) ⟨.hhh, 0⟩ B) n (Slicing.new st)
      .ok (a.written, a.fate, a.st.src.cache.data)

/-- **Counterexample** (slices that are lent again): `--width 3,s..s+1 --patch-back CMD` of a 376-byte file, read with block size 64 in pieces of 64, 62, 64, 63, 63, ... bytes.
The thread prints all slices it is lent, also those that it has printed before: the command receives 129 lines for the 126 slices.  (A command that prints them again is then
stopped because of overlapping records.) -/
theorem C31_repeated_counterexample :
    (sliced 64 ((List.range 376).map UInt8.ofNat) (fun i => some ([64, 62, 64].getD i 63)) 3 1 40).map (fun x => (x.1.count 10, x.2.1)) = .ok (129, some none) ∧
    (strides 376 3 0 1).length = 126 := by decide +kernel

/-- What `consume_stream` does in the main thread with a temporary file that holds `data`, if the slicing thread has ended with the error `e` and there are no records. -/
def afterFailure (B : Nat) (data : Bytes) (e : Err) : Except Err (Bytes × Option Err) :=
  match PatchStream.new (listSrc false) B (TeeReader.new B ⟨true, data, data.length⟩ fun _ => some B) [] with
  | .error e => .error e
  | .ok s => .ok (consumeStream (PatchDrain.byteSrc (PatchStream.byteSrc (TeeReader.byteSrc B 100) (listSrc false) B 100)) B 100 (PatchDrain.new s (some e)))

/-- **Counterexample** (failures of the slicing thread are ignored): reading a 24-byte file fails after 16 bytes.  The slicing thread panics; it has consumed 12 bytes.  The main
thread waits for it only if the last two fills have lent the same number of bytes, which is not the case at the end of a stream that is not empty.  So the first 12 bytes are written
as if they were all, and the main thread ends without an error. -/
theorem C31_failure_ignored_counterexample :
    (sliced 16 ((List.range 24).map UInt8.ofNat) (fun i => if i < 1 then some 16 else none) 4 4 40).map (fun x => x.2) = .ok (some (some .io), (List.range 12).map UInt8.ofNat) ∧
    afterFailure 16 ((List.range 12).map UInt8.ofNat) .io = .ok ((List.range 12).map UInt8.ofNat, none) ∧
    afterFailure 16 [] .io = .ok ([], some .panic) := by decide +kernel

/-- What the slicing thread consumes while the reader is not at work. -/
def appended (s : Buffered TeeState) (bs : Bytes) : Buffered TeeState := { s with inner := { s.inner with cache := s.inner.cache.write bs } }

/-- **C31** (the reader goes on after the end): if the reader has come to the end of the temporary file, and then the slicing thread consumes some bytes, the next fill lends some of
them, after the bytes `d` that have been lent already but not been consumed. -/
theorem C31_resumes (B fuel req : Nat) (hB : 0 < B) (s : Buffered TeeState) (d m bs : Bytes) (hv : StreamBuf.View s.buf d m) (hal : s.buf.align = 1)
    (hoff : s.inner.offset = s.inner.cache.data.length) (hcur : s.inner.cache.cursor = s.inner.cache.data.length) (hsched : ∀ i, s.inner.sched i ≠ none) (hbs : bs ≠ [])
    (hf : bs.length < fuel) :
    ∃ eof n s', (TeeReader.byteSrc B fuel).fill (appended s bs) req = .ok ((eof, n), s') ∧ d.length < n ∧ n ≤ (d ++ bs).length ∧
      (TeeReader.byteSrc B fuel).slice s' = (d ++ bs).take n ++ List.replicate MARGIN 10 ∧ (eof = true → n = (d ++ bs).length) := by
  have hpos : 0 < bs.length := List.length_pos_iff.2 hbs
  have hdata : (s.inner.cache.write bs).data = s.inner.cache.data ++ bs := by
    simp [TempFile.write, ScatterContext.writeAt, hcur]
  obtain ⟨pre, htake, hpre⟩ := hv.take
  obtain ⟨_, _, _, hdl, _⟩ := hv
  have hflag : (s.inner.cache.write bs).clearEof = true := rfl
  rcases StreamBuf.fillLoop_spec (TeeReader.produces B hB s.inner.sched) (max s.buf.targetLen req) fuel { s.buf.clearEof with buf := s.buf.buf.take s.buf.len }
    { s.inner with cache := { s.inner.cache.write bs with clearEof := false } } bs.length bs ⟨rfl, by simp [hdata, hoff], Nat.le_refl _, rfl⟩ hf (by simp [StreamBuf.clearEof, hal]) rfl with
    ⟨e, ⟨_, i, hi⟩, _⟩ | ⟨s', t', c, heq, h1, h2, h3, h4, h5, h6, h7, h8, h9⟩
  · exact absurd hi (hsched i)
  · simp only [StreamBuf.clearEof, htake] at h1 h2 h3 h4 h5 h6 h7 h8 h9 heq
    have hc : (s'.isEof = true → c = bs) ∧ (s'.isEof = false → 0 < c.length ∧ ∃ x, bs = c ++ x) := by
      constructor
      · intro h
        have := (h8 h).2
        rw [hal, padLen_one] at this
        simpa using this
      · intro h
        obtain ⟨_, w', p', hp, ⟨_, _, hw, _⟩, hw'⟩ := h9 h
        have := congrArg List.length hp
        simp only [List.length_append] at this
        exact ⟨by omega, p', hp⟩
    have hlen : 0 < c.length ∧ c.length ≤ bs.length ∧ bs.take c.length = c := by
      cases hs : s'.isEof with
      | true => rw [hc.1 hs]; exact ⟨hpos, Nat.le_refl _, List.take_length⟩
      | false =>
        obtain ⟨h10, x, hx⟩ := hc.2 hs
        exact ⟨h10, by rw [hx]; simp, by rw [hx, List.take_left]⟩
    have hbl : s'.buf.length - s'.pos = d.length + c.length := by rw [h7, h1]; simp; omega
    refine ⟨s'.isEof, d.length + c.length, ⟨t', { s' with len := s'.buf.length, buf := resize s'.buf (s'.buf.length + MARGIN) 10 }⟩, ?_, by omega, by simp; omega, ?_, fun hs => by rw [hc.1 hs]; simp⟩
    · simp only [TeeReader.byteSrc, TeeReader.examine, appended, hflag, if_true, bufferedSrc, StreamBuf.fillBuf, StreamBuf.clearEof, Bool.false_eq_true, if_false, htake]
      rw [heq]
      simp only [hbl]
    · simp only [TeeReader.byteSrc, bufferedSrc, StreamBuf.asSlice]
      rw [StreamBuf.resize_self_add, h7, h1, ← hpre, List.append_assoc, List.append_assoc, List.drop_left, List.take_length_add_append, hlen.2.2, List.append_assoc]

/-- The reader has read three bytes and found the end; one of them has been consumed. -/
def atEnd : Except Err (Buffered TeeState) :=
  match (TeeReader.byteSrc 16 100).fill (TeeReader.new 16 ⟨true, [1, 2, 3], 3⟩ fun _ => some 2) 1 with
  | .error e => .error e
  | .ok (_, s) => (TeeReader.byteSrc 16 100).consume s 1

example : (atEnd.map fun s => (s.buf.isEof, s.buf.align, s.buf.asSlice.take s.buf.length, s.inner.offset, s.inner.cache.data.length, s.inner.cache.cursor)) = .ok (true, 1, [2, 3], 3, 3, 3) := by
  decide +kernel

example : (atEnd.bind fun s => (TeeReader.byteSrc 16 100).fill (appended s [4, 5]) 1).map (fun x => (x.1, x.2.buf.asSlice.take 4)) = .ok ((true, 4), [2, 3, 4, 5]) := by decide +kernel

end Nd.Props
