import Verif.Props.BoundedDump
import Verif.Proof.BoundedFind
/-!
# C46: `--find`
-/
namespace Nd.Props
open Nd

/-- What the program holds while it prints occurrences: the text to be written, the slices, and what the stream behind them holds, which `H` counts.
Inside one round the slicer also holds the occurrences that are just being printed, at most as many as bytes are lent (`ExactMatchSlicer.sparing`). -/
def heldFinding (H : σ → Nat) (d : Buffered (ScatterDrain (ExactMatchSlicer σ))) : Nat := d.buf.buf.length + 16 * d.inner.src.segments.length + H d.inner.src.src

/-- The bound, if the stream lends at most `lent` bytes and holds at most `rest`. -/
def findLimit (B len cols lent rest : Nat) : Nat := 25 * B + 7 + lent * Format.reserve (max cols len) + MARGIN + rest

/-- **C46** (`--find ARRAY` of any stream): a stream that lends at most `N` bytes to clients which ask for at most a block and leave at most as much as the array is long, and holds at most `L` bytes before
such clients, is searched in bounded memory, however many occurrences there are. -/
theorem C46_find_partial {S : ByteSrc σ} {F M} {s₀ : σ} {w : Nat} {content : Bytes} (H : σ → Nat) (I : Impl) (B fuel N L : Nat) (f : Formatting) {text : Bytes} {st : ExactMatchSlicer σ}
    (hnew : ExactMatchSlicer.new I s₀ text = .ok st) (hA : ServesAmply S F M st.pattern.length s₀ w content)
    (hN : ∀ s n e, LentTo S B st.pattern.length s₀ s n e → n ≤ N) (hH : ∀ s, Visited S B st.pattern.length s₀ s → H s ≤ L) {d : Buffered (ScatterDrain (ExactMatchSlicer σ))}
    (h : Copying (ScatterDrain.byteSrc (ExactMatchSlicer.segSrc S B) f B fuel) B (ScatterDrain.through B st) d) :
    heldFinding H d ≤ findLimit B st.pattern.length f.minWidth N L ∧
    ∀ eof n d', (ScatterDrain.byteSrc (ExactMatchSlicer.segSrc S B) f B fuel).fill d B = .ok ((eof, n), d') → heldFinding H d' ≤ findLimit B st.pattern.length f.minWidth N L := by
  have hadds := (ExactMatchSlicer.sparing hN fun s n hl => hl.ample hA).adds f (StreamBuf.limit B B 0 0 0 + 1)
  have hst : st.AtRest S B st.pattern s₀ := by
    unfold ExactMatchSlicer.new at hnew
    split at hnew
    · cases hnew
    · cases hnew
      exact ⟨.start, rfl, rfl, rfl⟩
  have hrests : (ScatterDrain.through B st).Rests B B 0 (N * Format.reserve (max f.minWidth st.pattern.length)) 1 (fun d => d.src.AtRest S B st.pattern s₀) fun d => d.src.AtRest S B st.pattern s₀ :=
    ⟨StreamBuf.Small.new _ _ _ _ _ _ (by decide), rfl, by split <;> exact hst⟩
  have hv := h.visited
  have key : ∀ d d', Visited (ScatterDrain.byteSrc (ExactMatchSlicer.segSrc S B) f B fuel) B 0 (ScatterDrain.through B st) d → d.inner = d'.inner →
      d'.buf.buf.length ≤ StreamBuf.limit B B 0 (N * Format.reserve (max f.minWidth st.pattern.length)) 1 + MARGIN → heldFinding H d' ≤ findLimit B st.pattern.length f.minWidth N L := by
    intro d d' hv hin htext
    have hr := hv.rests hadds (Nat.lt_succ_self _) hrests
    have hsp : d'.inner.src.AtRest S B st.pattern s₀ := by
      rw [← hin]
      have := hr.inner
      split at this <;> exact this
    have hrest := hH _ hsp.src
    unfold heldFinding findLimit
    unfold StreamBuf.limit at htext
    rw [hsp.segments, List.length_nil]
    omega
  refine ⟨key d d hv rfl ?_, fun eof n d' hfill => ?_⟩
  · have hr := hv.rests hadds (Nat.lt_succ_self _) hrests
    have htext := small_length hr.small
    rw [hr.align] at htext
    exact htext
  · have hl := (LentTo.bounded hadds (Nat.lt_succ_self _) hrests ⟨d, B, hv, Nat.le_refl _, hfill⟩).1
    exact key _ d' (hv.round (Nat.le_refl _) hfill (Nat.le_refl n) (fun _ => by omega) rfl) rfl hl

/-- The bound for concatenated files. -/
def findFilesLimit (B len cols files : Nat) : Nat :=
  findLimit B len cols (catLimit B B len 1) (catLimit B B len 1 + fileLimit B (catRequest B B len) len 1 + (files + 2) * MARGIN)

/-- **C46** (`--find ARRAY FILE...`): files of any length are searched in bounded memory. -/
theorem C46_find_files_partial (I : Impl) (B fuel : Nat) (filler : Byte) (files : Files) (f : Formatting) (hB : 0 < B) (hne : files ≠ []) (hf : enough 1 files < fuel) {text : Bytes}
    {st : ExactMatchSlicer (CatStream (Buffered Reader))} (hnew : ExactMatchSlicer.new I (CatStream.new B (rawStreams B 1 filler files)) text = .ok st) (hL : st.pattern.length ≤ (B - 1784) / 8)
    {d : Buffered (ScatterDrain (ExactMatchSlicer (CatStream (Buffered Reader))))}
    (h : Copying (ScatterDrain.byteSrc (ExactMatchSlicer.segSrc (CatStream.byteSrc (RawStream.byteSrc B fuel) B fuel) B) f B fuel) B (ScatterDrain.through B st) d) :
    heldFinding catHeld d ≤ findFilesLimit B st.pattern.length f.minWidth files.length ∧
    ∀ eof n d', (ScatterDrain.byteSrc (ExactMatchSlicer.segSrc (CatStream.byteSrc (RawStream.byteSrc B fuel) B fuel) B) f B fuel).fill d B = .ok ((eof, n), d') →
      heldFinding catHeld d' ≤ findFilesLimit B st.pattern.length f.minWidth files.length :=
  C46_find_partial catHeld I B fuel _ _ f hnew ((cat_amply B fuel 1 filler files hB (by decide) hne hf).mono (fun _ h => h) (fun _ h => h) hL)
    (fun _ n e hl => (C46_cat B fuel _ _ 1 filler (by decide) files hne).1 n e hl) (fun _ hv => (C46_cat B fuel _ _ 1 filler (by decide) files hne).2 hv) h

def sampleFinding : ByteSrc (Buffered (ScatterDrain (ExactMatchSlicer (CatStream (Buffered Reader))))) :=
  ScatterDrain.byteSrc (ExactMatchSlicer.segSrc (CatStream.byteSrc (RawStream.byteSrc 2200 200) 2200 200) 2200) { style := .hhh, minWidth := 16 } 2200 200

/-- The hypotheses are met by `--find '41 42'` on two files, the second one beginning with the second half of an occurrence. -/
example : ∃ st d, ExactMatchSlicer.new .portable (CatStream.new 2200 (rawStreams 2200 1 0 [([65, 66, 0, 65], fun _ => some 3), ([66, 67, 65, 66], fun _ => some 2)])) [52, 49, 32, 52, 50] = .ok st ∧
    Copying sampleFinding 2200 (ScatterDrain.through 2200 st) d ∧ d.inner.lines = 3 ∧ heldFinding catHeld d ≤ findFilesLimit 2200 2 16 2 := by
  have hpat : (match ExactMatchSlicer.new .portable (CatStream.new 2200 (rawStreams 2200 1 0 [([65, 66, 0, 65], fun _ => some 3), ([66, 67, 65, 66], fun _ => some 2)])) [52, 49, 32, 52, 50] with
    | .error _ => []
    | .ok st => st.pattern) = [65, 66] := by decide +kernel
  have hrun : (match ExactMatchSlicer.new .portable (CatStream.new 2200 (rawStreams 2200 1 0 [([65, 66, 0, 65], fun _ => some 3), ([66, 67, 65, 66], fun _ => some 2)])) [52, 49, 32, 52, 50] with
    | .error _ => 0
    | .ok st => match sampleFinding.fill (ScatterDrain.through 2200 st) 2200 with
      | .error _ => 0
      | .ok (r, d) => match sampleFinding.consume d r.2 with
        | .error _ => 0
        | .ok d => d.inner.lines) = 3 := by decide +kernel
  split at hrun
  · cases hrun
  · rename_i st hst
    rw [hst] at hpat
    simp only at hpat
    split at hrun
    · cases hrun
    · rename_i r d hfill
      split at hrun
      · cases hrun
      · rename_i d' hcons
        obtain ⟨eof, n⟩ := r
        have hc : Copying sampleFinding 2200 (ScatterDrain.through 2200 st) d' := Copying.start.next hfill hcons
        have := (C46_find_files_partial .portable 2200 200 0 [([65, 66, 0, 65], fun _ => some 3), ([66, 67, 65, 66], fun _ => some 2)] { style := .hhh, minWidth := 16 } (by decide) (by decide) (by decide) hst
          (by rw [hpat]; decide) hc).1
        rw [hpat] at this
        exact ⟨st, d', hst, hc, hrun, this⟩

end Nd.Props
