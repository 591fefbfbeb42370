import Verif.Proof.Regex
import Verif.Props.Filter
import Verif.Props.Find
/-!
# C26: `--regex`
-/
namespace Nd.Props
open Nd Nd.Spec

theorem searched_sorted {find : Bytes → List Seg} (hf : Searcher find) {content : Bytes} {segs : List Seg} (hin : ∀ x ∈ segs, x.tail ≤ content.length)
    (hd : segs.Pairwise fun a b => a.tail ≤ b.pos) : Sorted (searched find content segs) := by
  induction segs with
  | nil => exact List.Pairwise.nil
  | cons s rest ih =>
    obtain ⟨h1, h2⟩ := List.pairwise_cons.1 hd
    refine List.pairwise_append.2 ⟨?_, ih (fun x hx => hin x (List.mem_cons_of_mem _ hx)) h2, ?_⟩
    · rw [List.pairwise_map]
      exact (hf.ascending _).imp fun h => Nat.add_le_add_left h _
    · intro a ha b hb
      obtain ⟨m, hm, rfl⟩ := List.mem_map.1 ha
      obtain ⟨t, ht, hb⟩ := List.mem_flatMap.1 hb
      obtain ⟨m', _, rfl⟩ := List.mem_map.1 hb
      have h3 := hf.within _ m hm
      have h4 := h1 t ht
      simp only [Seg.bytes, List.length_take, List.length_drop, Seg.tail] at h3 h4 ⊢
      omega

theorem searched_inside {find : Bytes → List Seg} (hf : Searcher find) (hne : ∀ l, ∀ m ∈ find l, 0 < m.len) {content : Bytes} {segs : List Seg}
    (hin : ∀ x ∈ segs, x.tail ≤ content.length) : ∀ x ∈ searched find content segs, 0 < x.len ∧ x.pos < content.length := by
  intro x hx
  have h := RegexSlicer.searched_tail hf hin x hx
  obtain ⟨s, hs, hx⟩ := List.mem_flatMap.1 hx
  obtain ⟨m, hm, rfl⟩ := List.mem_map.1 hx
  have := hne _ m hm
  simp only [Seg.tail] at h ⊢
  omega

/-- **C26** for slices that do not overlap, of every stream that is read at once: all clients see exactly the matches in all slices; if no match
is empty, they are printed. -/
theorem C26_regex_partial {find : Bytes → List Seg} (hf : Searcher find) {S : SegSrc σ} {K F} {s : σ} {w : Nat} {content : Bytes} {segs : List Seg}
    (h : SegServes S K F s w content segs) (hfull : K.full = true) (hfree : K.Free) (hw : SegWhole S F s)
    (hin : ∀ x ∈ segs, 0 < x.len ∧ x.tail ≤ content.length) (hd : segs.Pairwise fun a b => a.tail ≤ b.pos) :
    SegReads (RegexSlicer.segSrc find S) F (RegexSlicer.new s) (slicesOf content (searched find content segs)) ∧
    ((∀ l, ∀ m ∈ find l, 0 < m.len) → ∀ (f : Formatting) (B fuel : Nat), 0 < B → w < fuel → content.length < 2 ^ 64 →
      Reads (ScatterDrain.byteSrc (RegexSlicer.segSrc find S) f B fuel) F (ScatterDrain.through B (RegexSlicer.new s))
        ((slicesOf content (searched find content segs)).flatMap f.line)) := by
  have hso := searched_sorted hf (fun x hx => (hin x hx).2) hd
  constructor
  · exact (RegexSlicer.serves hf h hfull hw hin true false (by simp) (fun _ => hso) (by simp)).delivers.reads fun _ k => ⟨rfl, fun l => hfree l k⟩
  · intro hne f B fuel hB hwf hlen
    exact C29_prints_every_slice_partial rfl f B fuel hB _ _ content _ (RegexSlicer.serves hf h hfull hw hin true true (by simp) (fun _ => hso)
      fun _ x hx => (searched_inside hf hne (fun x hx => (hin x hx).2) x hx).2).delivers hlen hwf

/-- **C26** for arbitrary slices of every stream that is read at once, if no match is empty: the matches are printed slice by slice. -/
theorem C26_overlapping_partial {find : Bytes → List Seg} (hf : Searcher find) (hne : ∀ l, ∀ m ∈ find l, 0 < m.len) {S : SegSrc σ} {K F} {s : σ} {w : Nat} {content : Bytes} {segs : List Seg}
    (h : SegServes S K F s w content segs) (hfull : K.full = true) (hw : SegWhole S F s) (hin : ∀ x ∈ segs, 0 < x.len ∧ x.tail ≤ content.length) :
    SegDrains (RegexSlicer.segSrc find S) F (RegexSlicer.new s) (slicesOf content (searched find content segs)) ∧
    ∀ (f : Formatting) (B fuel : Nat), 0 < B → w < fuel → content.length < 2 ^ 64 →
      Reads (ScatterDrain.byteSrc (RegexSlicer.segSrc find S) f B fuel) F (ScatterDrain.through B (RegexSlicer.new s))
        ((slicesOf content (searched find content segs)).flatMap f.line) := by
  have hs := RegexSlicer.serves hf h hfull hw hin false true (by simp) (by simp) fun _ x hx => (searched_inside hf hne (fun x hx => (hin x hx).2) x hx).2
  exact ⟨hs.delivers.drains, fun f B fuel hB hwf hlen => C29_prints_every_slice_partial rfl f B fuel hB _ _ content _ hs.delivers hlen hwf⟩

/-- The stages behind `--regex`, if no match is empty: `--merge N` and `--invert S..e-y` deliver what they mean for the matches. -/
theorem C26_pipelines_partial {find : Bytes → List Seg} (hf : Searcher find) (hne : ∀ l, ∀ m ∈ find l, 0 < m.len) {S : SegSrc σ} {K F} {s : σ} {w : Nat} {content : Bytes} {segs : List Seg}
    (h : SegServes S K F s w content segs) (hfull : K.full = true) (hfree : K.Free) (hw : SegWhole S F s) (hlen : content.length < 2 ^ 64)
    (hin : ∀ x ∈ segs, 0 < x.len ∧ x.tail ≤ content.length) (hd : segs.Pairwise fun a b => a.tail ≤ b.pos)
    (hz : K.strict = false := by first | rfl | assumption) :
    (∀ n, SegReads (MergeStream.segSrc (RegexSlicer.segSrc find S)) F (MergeStream.new (RegexSlicer.new s) n) (slicesOf content (merge n (searched find content segs)))) ∧
    ∀ m : SegmentMapper, m.stop.anchor = 1 → m.stop.offset ≤ 0 →
      SegReads (MapStream.segSrc (RegexSlicer.segSrc find S) (Bridge.ops [m])) F (Bridge.new (RegexSlicer.new s))
        (slicesOf content (invert [m.toSpec] (searched find content segs) content.length)) := by
  have hso := searched_sorted hf (fun x hx => (hin x hx).2) hd
  have hi := searched_inside hf hne (fun x hx => (hin x hx).2)
  have ht := RegexSlicer.searched_tail hf fun x hx => (hin x hx).2
  have hs := RegexSlicer.serves hf h hfull hw hin true true (by simp) (fun _ => hso) fun _ x hx => (hi x hx).2
  have hfr : (RegexSlicer.kind K true true).Free := fun _ k => ⟨rfl, fun l => hfree l k⟩
  refine ⟨fun n => ?_, fun m h1 h2 => ?_⟩
  · exact (C22_merge_fold hs.delivers rfl rfl rfl (fun _ _ _ => hfr _ _) hso hlen n).2.2 hfr
  · refine (C23_invert_partial hs rfl rfl rfl rfl [m] (by simp) (max content.length (max (-m.stop.offset).toNat (-m.start.offset).toNat)) (fun _ _ _ => hfr _ _) ?_ ?_ ?_ ?_ hlen).2.2 hfr
    · intro m hm
      simp only [List.mem_singleton] at hm
      subst hm
      simp only [SegmentMapper.toSpec, RangeEnd.on, h1]
      constructor
      · split <;> omega
      · simp; omega
    · intro x hx
      have := ht x hx
      refine ⟨this, ?_⟩
      simp only [Seg.tail] at this
      omega
    · intro g _ m hm
      simp only [List.mem_singleton] at hm
      subst hm
      simp only [SegmentMapper.toSpec, RangeEnd.on, h1]
      simp; omega
    · exact invert_one_sorted _ _ _ hso fun x hx => (hi x hx).1

/-- Files that together are shorter than a block are read at once. -/
theorem cat_whole (B fuel : Nat) (filler : Byte) (files : Files) (hB : (files.map Prod.fst).flatten.length < B) (hf : enough 1 files < fuel) :
    Whole (CatStream.byteSrc (RawStream.byteSrc B fuel) B fuel) (IoErr (files.map Prod.snd)) (CatStream.new B (rawStreams B 1 filler files)) := by
  have h := cat_delivers B fuel 1 filler files (by omega) (by decide) hf
  have hc : Spec.cat (files.map fun f => Spec.alignTo 1 filler f.1) = (files.map Prod.fst).flatten := by simp only [alignTo_one, Spec.cat]
  rw [hc] at h
  refine CatStream.whole hB h fun s hs => ?_
  obtain ⟨f, hm, rfl⟩ := List.mem_map.1 hs
  have hle := le_enough 1 files f hm
  have hd := raw_delivers B fuel 1 filler f.1 f.2 (by omega) (by decide) (by omega)
  rw [alignTo_one] at hd
  refine Delivers.whole (align := 1) ?_ (hd.mono (fun e he => ?_) fun _ h => h)
  · have : f.1.length ≤ (files.map Prod.fst).flatten.length := by
      exact (List.sublist_flatten_of_mem (List.mem_map_of_mem hm)).length_le
    omega
  · obtain ⟨h1, s, h2, h3⟩ := he
    exact ⟨h1, s, by simp only [List.mem_singleton] at h2; subst h2; exact List.mem_map_of_mem hm, h3⟩

theorem strides_apart {len pitch : Nat} {start stop : Int} (hd : stop - start ≤ pitch) : (strides len pitch start stop).Pairwise fun a b => a.tail ≤ b.pos := by
  unfold strides
  rw [List.pairwise_filterMap]
  refine List.Pairwise.imp ?_ List.pairwise_lt_range
  intro i j hij a ha b hb
  have hm := mul_le_int pitch (show i + 1 ≤ j from hij)
  have he : (((i + 1 : Nat) : Int) * pitch) = i * pitch + pitch := by push_cast; rw [Int.add_mul, Int.one_mul]
  split at ha
  · split at hb
    · cases ha
      cases hb
      simp only [Seg.tail]
      omega
    · cases hb
  · cases ha

/-- **C26** for `nd --width N,S..E --regex PATTERN FILE...`, every `read()` schedule and every block size larger than the files together: if
the slices do not overlap, every client sees exactly the matches in the slices; they are printed if no match is empty. -/
theorem C26_files_partial {find : Bytes → List Seg} (hf : Searcher find) (B fuel fuel' : Nat) (filler : Byte) (files : Files) (hB : (files.map Prod.fst).flatten.length < B)
    (hne : files ≠ []) (hfu : enough 1 files < fuel) (pitch : Nat) (m : SegmentMapper) (start stop : Int) (hp : 0 < pitch)
    (hm : m.evaluate (0, pitch) (0, pitch) = (start, stop)) (hlt : start < stop) (hstop : 1 ≤ stop) (hstart : -(15 * pitch) < start) (hf' : 1 < fuel')
    (hL : (stop - start).toNat + stop.toNat + pitch + 1 ≤ (B - 1784) / 8) (hlen : (files.map Prod.fst).flatten.length < 2 ^ 64) :
    ∃ p st, ConstSlicerParams.fromRaw fuel' pitch m = .ok p ∧ ConstSlicer.new (CatStream.new B (rawStreams B 1 filler files)) p = .ok st ∧
      (stop - start ≤ pitch → SegReads (RegexSlicer.segSrc find (ConstSlicer.segSrc (CatStream.byteSrc (RawStream.byteSrc B fuel) B fuel))) (IoErr (files.map Prod.snd)) (RegexSlicer.new st)
        (slicesOf (files.map Prod.fst).flatten (searched find (files.map Prod.fst).flatten (strides (files.map Prod.fst).flatten.length pitch start stop)))) ∧
      ((∀ l, ∀ m ∈ find l, 0 < m.len) → ∀ f : Formatting,
        Reads (ScatterDrain.byteSrc (RegexSlicer.segSrc find (ConstSlicer.segSrc (CatStream.byteSrc (RawStream.byteSrc B fuel) B fuel))) f B fuel) (IoErr (files.map Prod.snd))
          (ScatterDrain.through B (RegexSlicer.new st))
          ((slicesOf (files.map Prod.fst).flatten (searched find (files.map Prod.fst).flatten (strides (files.map Prod.fst).flatten.length pitch start stop))).flatMap f.line)) := by
  have hc : Spec.cat (files.map fun f => Spec.alignTo 1 filler f.1) = (files.map Prod.fst).flatten := by simp only [alignTo_one, Spec.cat]
  have hwh := cat_whole B fuel filler files hB hfu
  have ha := cat_amply B fuel 1 filler files (by omega) (by decide) hne hfu
  have hfl := fills_le_enough 1 filler files (by decide)
  rw [hc] at ha
  obtain ⟨p, st, h1, h2, _, h3⟩ := width_serves .any ha (fun _ h => h) fuel' pitch m start stop hp hm hlt hstop hstart hf' (by simp only [ConstSlicer.Manner.need]; omega)
  have hsrc : st.src = CatStream.new B (rawStreams B 1 filler files) := by
    unfold ConstSlicer.new at h2
    split at h2
    · split at h2
      · cases h2
      · cases h2; rfl
    · cases h2
  have hw := ConstSlicer.whole h3.delivers (by rw [hsrc]; exact hwh)
  have hin : ∀ x ∈ strides (files.map Prod.fst).flatten.length pitch start stop, 0 < x.len ∧ x.tail ≤ (files.map Prod.fst).flatten.length := fun x hx => ⟨(strides_mem hx).1, (strides_mem hx).2.1⟩
  refine ⟨p, st, h1, h2, fun hd => ?_, fun hnz f => ?_⟩
  · exact (C26_regex_partial hf h3 rfl (fun _ _ => trivial) hw hin (strides_apart hd)).1
  · exact (C26_overlapping_partial hf hnz h3 rfl hw hin).2 f B fuel (by omega) (by omega) hlen

/-- A searcher: the places of one byte. -/
def byteSearch (b : Byte) (l : Bytes) : List Seg := ((List.range l.length).filter fun i => l[i]? == some b).map fun i => { pos := i, len := 1 }

theorem byteSearch_searcher (b : Byte) : Searcher (byteSearch b) := by
  constructor
  · intro l m hm
    obtain ⟨i, hi, rfl⟩ := List.mem_map.1 hm
    have := List.mem_range.1 (List.mem_filter.1 hi).1
    simp only [Seg.tail]
    omega
  · intro l
    unfold byteSearch
    rw [List.pairwise_map]
    exact (List.pairwise_lt_range.filter _).imp fun h => Nat.le_of_lt h

/-- Slices of four bytes of the files `1 2 3 4 5` and `3 3`, searched for `3`, with nd's block size. -/
example (sched sched' : Nat → Option Nat) : ∃ p st, ConstSlicerParams.fromRaw 2 4 (fromStart 0 4) = .ok p ∧
    ConstSlicer.new (CatStream.new (2 ^ 21) (rawStreams (2 ^ 21) 1 0 [([1, 2, 3, 4, 5], sched), ([3, 3], sched')])) p = .ok st ∧
    SegReads (RegexSlicer.segSrc (byteSearch 3) (ConstSlicer.segSrc (CatStream.byteSrc (RawStream.byteSrc (2 ^ 21) 100) (2 ^ 21) 100))) (IoErr [sched, sched']) (RegexSlicer.new st)
      [(2, [3]), (5, [3]), (6, [3])] := by
  obtain ⟨p, st, h1, h2, h3, _⟩ := C26_files_partial (byteSearch_searcher 3) (2 ^ 21) 100 2 0 [([1, 2, 3, 4, 5], sched), ([3, 3], sched')] (by simp) (by simp) (by simp [enough]) 4 (fromStart 0 4) 0 4
    (by decide) (by decide) (by decide) (by decide) (by decide) (by decide) (by decide) (by simp)
  have hx : slicesOf [1, 2, 3, 4, 5, 3, 3] (searched (byteSearch 3) [1, 2, 3, 4, 5, 3, 3] (strides 7 4 0 4)) = [(2, [3]), (5, [3]), (6, [3])] := by decide +kernel
  have := h3 (by decide)
  rw [← hx]
  exact ⟨p, st, h1, h2, this⟩

/-- The positions of the matches a client sees that consumes all it may in every one of `n` rounds. -/
def regexRun (B : Nat) (content : Bytes) (sched : Nat → Option Nat) (pitch : Nat) (b : Byte) (n : Nat) : Except Err (Bool × List Nat) :=
  match widthOf B content sched pitch (fromStart 0 pitch) with
  | .error e => .error e
  | .ok st =>
    match (SegClient.init (RegexSlicer.new st)).run (RegexSlicer.segSrc (byteSearch b) (ConstSlicer.segSrc (RawStream.byteSrc B 1000))) ((List.replicate n [none, some 1000]).flatten) with
    | .error e => .error e
    | .ok c => .ok (c.eof, (c.got ++ c.lent).map Prod.fst)

/-- **Counterexample**: in a file that is longer than a block the slices that are retained at the end of a block are not searched, and after every
block more of them.  Here all bytes of a 56-byte file match, in slices of four bytes and blocks of sixteen. -/
theorem C26_block_counterexample :
    regexRun 16 (List.replicate 56 7) (fun _ => some 16) 4 7 8 = .ok (true, List.range 12 ++ List.range' 16 12 ++ List.range' 36 8) ∧
    searched (byteSearch 7) (List.replicate 56 7) (strides 56 4 0 4) = (List.range 56).map fun i => { pos := i, len := 1 } := by
  decide +kernel

end Nd.Props
