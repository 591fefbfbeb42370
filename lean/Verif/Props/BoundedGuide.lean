import Verif.Props.BoundedDump
import Verif.Props.Guide
import Verif.Proof.BoundedGuide
/-!
# C46: `--guide` reads ahead to its next record, and only to that
-/
namespace Nd.Props
open Nd Spec

/-- A stream that has not ended holds at least as much as it has been asked for. -/
theorem fill_holds {B fuel req n : Nat} {f : StreamBuf.Closure τ} {s s' : Buffered τ} (h : (bufferedSrc B fuel f).fill s req = .ok ((false, n), s')) : req ≤ s'.buf.buf.length := by
  unfold bufferedSrc StreamBuf.fillBuf at h
  simp only at h
  split at h
  · cases h
  · rename_i heq
    cases h
    split at heq
    · cases heq
    · rename_i he
      split at heq
      · cases heq
      · rename_i hl
        obtain ⟨_, hg⟩ := StreamBuf.fillLoop_grows f _ fuel _ _ _ _ (by simpa using he) hl
        simp only [Except.ok.injEq, Prod.mk.injEq] at heq
        obtain ⟨⟨he', -⟩, rfl, -⟩ := heq
        rcases hg with hg | ⟨_, hg⟩
        · rw [hg] at he'
          cases he'
        · simp only [resize, List.length_append, List.length_take, List.length_replicate]
          omega

/-- `--guide` with a single record, of the last byte of a file: with the second fill everything in front of it is read into memory, although none of it is printed.  There is no bound. -/
theorem C46_guide_counterexample (B fuel : Nat) (hB : 0 < B) (content data : Bytes) (hlong : fileLimit B B 0 1 < content.length) (hfit : content.length < 2 ^ 64) (hfuel : content.length < fuel) :
    ∃ r₁ st₁ c st₂ r₂ st₃, (GuidedSlicer.segSrc (RawStream.byteSrc B fuel) (listSrc false) B fuel).fill
        (GuidedSlicer.new (RawStream.new B (Reader.open content fun _ => some B) 1 0) [⟨content.length - 1, 1, data⟩]) = .ok (r₁, st₁) ∧
      (GuidedSlicer.segSrc (RawStream.byteSrc B fuel) (listSrc false) B fuel).consume st₁ r₁.2.2.2 = .ok (c, st₂) ∧
      (GuidedSlicer.segSrc (RawStream.byteSrc B fuel) (listSrc false) B fuel).fill st₂ = .ok (r₂, st₃) ∧ content.length - fileLimit B B 0 1 ≤ st₃.src.buf.buf.length := by
  obtain ⟨fuel, rfl⟩ : ∃ k, fuel = k + 1 := ⟨fuel - 1, by omega⟩
  obtain ⟨R, hR, hr⟩ := raw_delivers B (fuel + 1) 1 0 content (fun _ => some B) hB (by decide) hfuel
  rw [alignTo_one] at hr
  have hno : ∀ e, ¬ IoErr [fun _ => some B] e := by
    rintro e ⟨_, sched, hs, k, hk⟩
    simp only [List.mem_cons, List.not_mem_nil, or_false] at hs
    subst hs
    cases hk
  rcases hR.fill _ _ _ _ B hr with ⟨e, he, _⟩ | ⟨eof, n, w, s₁, hf₁, hr₁, hn, -, hend, hne, -⟩
  · exact absurd he (hno e)
  have hlim := (C46_file B (fuel + 1) B 0 1 0 (by decide) content (fun _ => some B) ⟨_, _, .start, Nat.le_refl _, hf₁⟩).1
  have heof : eof = false := by
    cases eof
    · rfl
    · have := hend rfl
      omega
  subst heof
  obtain ⟨s₂, w₂, hc₁, hr₂, -⟩ := hR.consume _ _ _ _ n hr₁ (Nat.le_refl _)
  rcases hR.fill _ _ _ _ (max B (content.length - 1 - n + 1)) hr₂ with ⟨e, he, _⟩ | ⟨eof₂, n₂, w₃, s₃, hf₂, hr₃, hn₂, hm₂, hend₂, -, -⟩
  · exact absurd he (hno e)
  have hheld : content.length - n ≤ s₃.buf.buf.length := by
    cases eof₂ with
    | false =>
      have := fill_holds hf₂
      omega
    | true =>
      have h1 := hend₂ rfl
      rw [List.length_drop] at h1
      obtain ⟨m, -, hsl⟩ := hm₂ (by omega)
      have h2 : ((RawStream.byteSrc B (fuel + 1)).slice s₃).length ≤ s₃.buf.buf.length := by
        show (s₃.buf.buf.drop s₃.buf.pos).length ≤ _
        rw [List.length_drop]
        omega
      rw [hsl, List.length_append, List.length_take, List.length_drop] at h2
      omega
  refine ⟨(false, n, 0, n), { src := s₁, guide := [], segments := [⟨content.length - 1, 1⟩], guideConsumed := 0, srcConsumed := 0, maxConsume := n }, (n, 0),
    { src := s₂, guide := [], segments := [⟨content.length - 1 - n, 1⟩], guideConsumed := 0, srcConsumed := n, maxConsume := 0 }, (eof₂, n₂, 1, n₂),
    { src := s₃, guide := [], segments := [⟨content.length - 1 - n, 1⟩], guideConsumed := 1, srcConsumed := n, maxConsume := n₂ }, ?_, ?_, ?_, by simp only; omega⟩
  · have hstop : (content.length - 1 + 1) % 2 ^ 64 = content.length := by
      rw [Nat.mod_eq_of_lt (by omega)]
      omega
    simp only [GuidedSlicer.segSrc, GuidedSlicer.fill, GuidedSlicer.new, List.getLast?_nil, Option.map_none, Option.getD_none, Nat.max_zero, hf₁, Nat.zero_add, GuidedSlicer.loop, listSrc,
      Bool.false_eq_true, false_and, if_false, List.head?_cons, List.tail_cons, hstop, List.nil_append]
    rw [if_pos (by omega)]
    simp [wsub]
    omega
  · simp only [GuidedSlicer.segSrc, Nat.min_self, hc₁]
    have hcut := cutSegs_split n [] [⟨content.length - 1, 1⟩] (by simp) (by simp; omega)
    rw [List.nil_append] at hcut
    rw [hcut]
    simp [Seg.shift, wsub]
  · simp only [GuidedSlicer.segSrc, GuidedSlicer.fill, List.getLast?_singleton, Option.map_some, Option.getD_some, Seg.tail, hf₂, GuidedSlicer.loop, listSrc, Bool.false_eq_true, false_and, if_false,
      List.head?_nil, List.tail_nil, List.length_singleton]

/-- A million bytes, in blocks of 2200: more than 900000 bytes are held. -/
example : ∃ content : Bytes, content.length = 1000000 ∧ ∃ r₁ st₁ c st₂ r₂ st₃, (GuidedSlicer.segSrc (RawStream.byteSrc 2200 1000001) (listSrc false) 2200 1000001).fill
        (GuidedSlicer.new (RawStream.new 2200 (Reader.open content fun _ => some 2200) 1 0) [⟨content.length - 1, 1, [0]⟩]) = .ok (r₁, st₁) ∧
      (GuidedSlicer.segSrc (RawStream.byteSrc 2200 1000001) (listSrc false) 2200 1000001).consume st₁ r₁.2.2.2 = .ok (c, st₂) ∧
      (GuidedSlicer.segSrc (RawStream.byteSrc 2200 1000001) (listSrc false) 2200 1000001).fill st₂ = .ok (r₂, st₃) ∧ 900000 ≤ st₃.src.buf.buf.length := by
  have hl : ∃ content : Bytes, content.length = 1000000 := ⟨List.replicate 1000000 65, List.length_replicate ..⟩
  obtain ⟨content, hl⟩ := hl
  obtain ⟨r₁, st₁, c, st₂, r₂, st₃, h1, h2, h3, h4⟩ := C46_guide_counterexample 2200 1000001 (by decide) content [0] (by rw [hl]; decide) (by rw [hl]; decide) (by rw [hl]; decide)
  unfold fileLimit at h4
  exact ⟨content, hl, r₁, st₁, c, st₂, r₂, st₃, h1, h2, h3, by omega⟩

/-- What the program holds while it prints the slices of a guide: the text to be written, the slices, and what the stream behind them holds, which `H` counts. -/
def heldGuiding (H : σ → Nat) (d : Buffered (ScatterDrain (GuidedSlicer σ τ))) : Nat := d.buf.buf.length + 16 * d.inner.src.segments.length + H d.inner.src.src

/-- The bound, if the stream lends at most `lent` bytes and holds at most `rest`. -/
def guideLimit (B len cols lent rest : Nat) : Nat := 25 * B + 23 + lent * Format.reserve (max cols len) + MARGIN + rest

/-- **C46** (`--guide FILE` of any stream): if no record is longer than `D` and no more than `G` bytes are left out between two records and in front of the first one, a stream that lends at most `N` bytes
to clients which ask for at most a block, a gap and a record and leave at most a record, and holds at most `Z` bytes before such clients, is printed in bounded memory, however many records there are.
What the reader of the guide holds is not counted. -/
theorem C46_guide_partial {P : RecSrc τ} {S : ByteSrc σ} {F M D} {s₀ : σ} {w : Nat} {content : Bytes} {t : τ} {recs : List Rec} (H : σ → Nat) (B fuel fuel' G N Z : Nat) (f : Formatting)
    (hS : ServesFar S F M D s₀ w content) (hM : ∀ m, M m → AnyMargin m) (hg : Yields P F false t recs)
    (hsorted : recs.Pairwise fun x y => x.offset < y.offset) (hin : ∀ r ∈ recs, 0 < r.span ∧ r.span ≤ D ∧ r.offset + r.span ≤ content.length)
    (hfirst : ∀ r, recs[0]? = some r → r.offset ≤ G) (hnext : ∀ i r r', recs[i]? = some r → recs[i + 1]? = some r' → r'.offset ≤ r.offset + r.span + G)
    (hlen : content.length < 2 ^ 64) (hfuel : recs.length < fuel)
    (hN : ∀ s n e, LentTo S (B + G + D) D s₀ s n e → n ≤ N) (hH : ∀ s, Visited S (B + G + D) D s₀ s → H s ≤ Z) {d : Buffered (ScatterDrain (GuidedSlicer σ τ))}
    (h : Copying (ScatterDrain.byteSrc (GuidedSlicer.segSrc S P B fuel) f B fuel') B (ScatterDrain.through B (GuidedSlicer.new s₀ t)) d) :
    heldGuiding H d ≤ guideLimit B D f.minWidth N Z ∧
    ∀ eof n d', (ScatterDrain.byteSrc (GuidedSlicer.segSrc S P B fuel) f B fuel').fill d B = .ok ((eof, n), d') → heldGuiding H d' ≤ guideLimit B D f.minWidth N Z := by
  obtain ⟨R, E, hR, hA, hFar, hs, _⟩ := hS
  obtain ⟨Q, hq, hQ⟩ := hg
  have hadds := (GuidedSlicer.sparing hQ hR hA hFar hM B fuel G N hN).adds f (StreamBuf.limit B B 0 0 0 + 1)
  have hst : GuidedSlicer.AtRest S R Q D fuel G B s₀ (GuidedSlicer.new s₀ t) := by
    refine ⟨.start, w, content, guided recs, ⟨recs, 1, ⟨hq, by simp [GuidedSlicer.new, guided, GuidedSlicer.pending], by simp [GuidedSlicer.new], by simpa [GuidedSlicer.new] using hlen, hfuel, ?_, ?_⟩, hs, Or.inl rfl⟩, ?_, ?_⟩
    · simpa [guided, List.pairwise_map] using hsorted
    · intro x hx
      obtain ⟨r, hr, rfl⟩ := List.mem_map.1 hx
      exact hin r hr
    · intro x hx
      simp only [guided, List.getElem?_map, Option.map_eq_some_iff] at hx
      obtain ⟨r, hr, rfl⟩ := hx
      exact hfirst r hr
    · intro i x y hx hy
      simp only [guided, List.getElem?_map, Option.map_eq_some_iff] at hx hy
      obtain ⟨r, hr, rfl⟩ := hx
      obtain ⟨r', hr', rfl⟩ := hy
      exact hnext i r r' hr hr'
  have hrests : (ScatterDrain.through B (GuidedSlicer.new s₀ t)).Rests B B 0 (N * Format.reserve (max f.minWidth D)) 1 (fun d => GuidedSlicer.AtRest S R Q D fuel G B s₀ d.src)
      fun d => GuidedSlicer.AtRest S R Q D fuel G B s₀ d.src :=
    ⟨StreamBuf.Small.new _ _ _ _ _ _ (by decide), rfl, by split <;> exact hst⟩
  have hv := h.visited
  have key : ∀ d d', Visited (ScatterDrain.byteSrc (GuidedSlicer.segSrc S P B fuel) f B fuel') B 0 (ScatterDrain.through B (GuidedSlicer.new s₀ t)) d → d.inner = d'.inner →
      d'.buf.buf.length ≤ StreamBuf.limit B B 0 (N * Format.reserve (max f.minWidth D)) 1 + MARGIN → heldGuiding H d' ≤ guideLimit B D f.minWidth N Z := by
    intro d d' hv hin htext
    have hr := hv.rests hadds (Nat.lt_succ_self _) hrests
    have hsp : GuidedSlicer.AtRest S R Q D fuel G B s₀ d'.inner.src := by
      rw [← hin]
      have := hr.inner
      split at this <;> exact this
    have hrest := hH _ hsp.src
    have hone := hsp.waiting
    unfold heldGuiding guideLimit
    unfold StreamBuf.limit at htext
    omega
  refine ⟨key d d hv rfl ?_, fun eof n d' hfill => ?_⟩
  · have hr := hv.rests hadds (Nat.lt_succ_self _) hrests
    have htext := small_length hr.small
    rw [hr.align] at htext
    exact htext
  · have hl := (LentTo.bounded hadds (Nat.lt_succ_self _) hrests ⟨d, B, hv, Nat.le_refl _, hfill⟩).1
    exact key _ d' (hv.round (Nat.le_refl _) hfill (Nat.le_refl n) (fun _ => by omega) rfl) rfl hl

/-- The bound for concatenated files. -/
def guideFilesLimit (B len gap cols files : Nat) : Nat :=
  guideLimit B len cols (catLimit B (B + gap + len) len 1) (catLimit B (B + gap + len) len 1 + fileLimit B (catRequest B (B + gap + len) len) len 1 + (files + 2) * MARGIN)

/-- **C46** (`--guide GUIDE FILE...`): files of any length are printed in bounded memory, if the records are never longer than `D` bytes and never more than `G` bytes apart. -/
theorem C46_guide_files_partial {P : RecSrc τ} {F} {t : τ} {recs : List Rec} (B fuel G D : Nat) (filler : Byte) (files : Files) (f : Formatting) (hB : 0 < B) (hne : files ≠ []) (hf : enough 1 files < fuel)
    (hD : 0 < D) (hL : D ≤ (B - 1784) / 8) (hF : ∀ e, IoErr (files.map (·.2)) e → F e) (hg : Yields P F false t recs)
    (hsorted : recs.Pairwise fun x y => x.offset < y.offset) (hin : ∀ r ∈ recs, 0 < r.span ∧ r.span ≤ D ∧ r.offset + r.span ≤ (cat (files.map fun x => alignTo 1 filler x.1)).length)
    (hfirst : ∀ r, recs[0]? = some r → r.offset ≤ G) (hnext : ∀ i r r', recs[i]? = some r → recs[i + 1]? = some r' → r'.offset ≤ r.offset + r.span + G)
    (hlen : (cat (files.map fun x => alignTo 1 filler x.1)).length < 2 ^ 64) (hfuel : recs.length < fuel) {d : Buffered (ScatterDrain (GuidedSlicer (CatStream (Buffered Reader)) τ))}
    (h : Copying (ScatterDrain.byteSrc (GuidedSlicer.segSrc (CatStream.byteSrc (RawStream.byteSrc B fuel) B fuel) P B fuel) f B fuel) B
      (ScatterDrain.through B (GuidedSlicer.new (CatStream.new B (rawStreams B 1 filler files)) t)) d) :
    heldGuiding catHeld d ≤ guideFilesLimit B D G f.minWidth files.length ∧
    ∀ eof n d', (ScatterDrain.byteSrc (GuidedSlicer.segSrc (CatStream.byteSrc (RawStream.byteSrc B fuel) B fuel) P B fuel) f B fuel).fill d B = .ok ((eof, n), d') →
      heldGuiding catHeld d' ≤ guideFilesLimit B D G f.minWidth files.length :=
  C46_guide_partial catHeld B fuel fuel G _ _ f (((cat_amply B fuel 1 filler files hB (by decide) hne hf).mono hF (fun _ h => h) hL).far hD) (fun _ h => h) hg hsorted hin hfirst hnext hlen hfuel
    (fun _ n e hl => (C46_cat B fuel _ _ 1 filler (by decide) files hne).1 n e hl) (fun _ hv => (C46_cat B fuel _ _ 1 filler (by decide) files hne).2 hv) h

def sampleGuiding : ByteSrc (Buffered (ScatterDrain (GuidedSlicer (CatStream (Buffered Reader)) (List Rec)))) :=
  ScatterDrain.byteSrc (GuidedSlicer.segSrc (CatStream.byteSrc (RawStream.byteSrc 2200 200) 2200 200) (listSrc false) 2200 200) { style := .hhh, minWidth := 16 } 2200 200

/-- The hypotheses are met by two records of two bytes, one byte apart, the second one across the boundary of two files. -/
example : ∃ d, Copying sampleGuiding 2200 (ScatterDrain.through 2200 (GuidedSlicer.new (CatStream.new 2200 (rawStreams 2200 1 0 [([1, 2, 3, 4, 5], fun _ => some 3), ([6, 7, 8], fun _ => some 2)]))
      [⟨1, 2, []⟩, ⟨4, 2, []⟩])) d ∧ d.inner.lines = 2 ∧ heldGuiding catHeld d ≤ guideFilesLimit 2200 2 1 16 2 := by
  have hrun : (match sampleGuiding.fill (ScatterDrain.through 2200 (GuidedSlicer.new (CatStream.new 2200 (rawStreams 2200 1 0 [([1, 2, 3, 4, 5], fun _ => some 3), ([6, 7, 8], fun _ => some 2)]))
      [⟨1, 2, []⟩, ⟨4, 2, []⟩])) 2200 with
    | .error _ => 0
    | .ok (r, d) => match sampleGuiding.consume d r.2 with
      | .error _ => 0
      | .ok d => d.inner.lines) = 2 := by decide +kernel
  split at hrun
  · cases hrun
  · rename_i r d hfill
    split at hrun
    · cases hrun
    · rename_i d' hcons
      obtain ⟨eof, n⟩ := r
      have hc := Copying.start.next hfill hcons
      refine ⟨d', hc, hrun, (C46_guide_files_partial 2200 200 1 2 0 [([1, 2, 3, 4, 5], fun _ => some 3), ([6, 7, 8], fun _ => some 2)] { style := .hhh, minWidth := 16 } (by decide) (by decide) (by decide)
        (by decide) (by decide) (F := fun _ => True) (fun _ _ => trivial) (Yields.mono (listSrc_yields false _) fun _ _ => trivial) (by decide) (by decide +kernel) ?_ ?_ (by decide +kernel) (by decide) hc).1⟩
      · rintro r hr
        cases hr
        decide
      · intro i r r' hr hr'
        match i with
        | 0 =>
          cases hr
          cases hr'
          decide
        | i + 1 => simp at hr'

end Nd.Props
