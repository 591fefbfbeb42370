import Verif.Proof.FindAny
import Verif.Proof.Format
import Verif.Props.Map
import Verif.Props.Merge
import Verif.Props.Filter
/-!
# C21: `--find`
-/
namespace Nd.Props
open Nd Nd.Spec Nd.TextParser

/-- What the occurrences are. -/
theorem C21_occurrences_meaning (p c : Bytes) (hp : p ≠ []) :
    (occurrences p c).Pairwise (fun x y => x.pos < y.pos) ∧
    ∀ x : Seg, x ∈ occurrences p c ↔ x.len = p.length ∧ ∃ before after, c = before ++ p ++ after ∧ x.pos = before.length := by
  rw [occurrences_eq]
  refine ⟨occIn_sorted _ _ _ _, fun x => ?_⟩
  rw [mem_occIn]
  constructor
  · rintro ⟨_, h2, h3, _, t, ht⟩
    refine ⟨h3, c.take x.pos, t, ?_, by simp; omega⟩
    rw [List.append_assoc, ht, List.take_append_drop]
  · rintro ⟨h1, before, after, rfl, h2⟩
    have : 0 < p.length := List.length_pos_iff.2 hp
    refine ⟨Nat.zero_le _, by simp; omega, h1, hp, after, ?_⟩
    rw [h2, List.append_assoc, List.drop_left]

/-- The array is written as in the dump: two-digit columns separated by single spaces, at most 64. -/
theorem C21_array (I : Impl) (text p : Bytes) (h : StrictColumns text p) (hl : text.length < 192) (h1 : 10 ∉ text) (h2 : 124 ∉ text) :
    ExactMatchSlicer.parsePattern I text = .ok p := by
  unfold ExactMatchSlicer.parsePattern
  have hr : (text ++ List.replicate 256 10).take 256 = text ++ 10 :: List.replicate (255 - text.length) 10 := by
    rw [List.take_append, List.take_of_length_le (by omega), List.take_replicate, ← List.replicate_succ]
    congr 2
    omega
  have hu : upTo text = text := by simpa using upTo_append (t := []) h2 (Or.inl rfl)
  have hW : WINDOW = 192 := rfl
  rw [hr, I.body_cols text _ h1, hu, List.take_of_length_le (by omega), win_strict I h]
  simp only
  rw [if_neg (by omega)]

/-- Longer arrays are refused. -/
theorem C21_too_long (I : Impl) (text : Bytes) (hl : 192 ≤ text.length) (h1 : 10 ∉ text) (h2 : 124 ∉ text) :
    ExactMatchSlicer.parsePattern I text = .error .invalid := by
  unfold ExactMatchSlicer.parsePattern
  have hW : WINDOW = 192 := rfl
  have ht : ((text ++ List.replicate 256 10).take 256).take WINDOW = (text.take 192 ++ 10 :: []).take WINDOW := by
    rw [List.take_take, hW, show min 192 256 = 192 by decide, List.take_append_of_le_length hl,
      List.take_append_of_le_length (by simp; omega), List.take_take, Nat.min_self]
  have hu : upTo (text.take 192) = text.take 192 := by
    simpa using upTo_append (t := []) (fun hm => h2 (List.mem_of_mem_take hm)) (Or.inl rfl)
  rw [I.body_local ht, I.body_cols _ _ fun hm => h1 (List.mem_of_mem_take hm), hu]
  have hlen : (text.take 192).length = 192 := by simp; omega
  cases win I ((text.take 192).take WINDOW) with
  | none => rfl
  | some d =>
    simp only [hlen]
    rw [if_pos (by decide)]

/-- **C21** over every byte stream that lends enough before its end: for an array that does not overlap itself, `--find` delivers exactly
its occurrences in order, whatever the chunking and whatever the client does. -/
theorem C21_find_partial {I : Impl} {S : ByteSrc σ} {F M L} {s : σ} {w : Nat} {content : Bytes} (h : ServesAmply S F M L s w content) (hM : ∀ m, M m → AnyMargin m)
    (B : Nat) {text p : Bytes} (ht : ExactMatchSlicer.parsePattern I text = .ok p) (hp : Unbordered p) (hL : p.length ≤ L) (hL0 : 0 < L) (hlen : content.length < 2 ^ 64) :
    ∃ st, ExactMatchSlicer.new I s text = .ok st ∧
      SegServes (ExactMatchSlicer.segSrc S B) ExactMatchSlicer.kind F st w content (occurrences p content) ∧
      SegReads (ExactMatchSlicer.segSrc S B) F st (slicesOf content (occurrences p content)) ∧
      ∀ (f : Formatting) (fuel : Nat), 0 < B → w < fuel →
        Reads (ScatterDrain.byteSrc (ExactMatchSlicer.segSrc S B) f B fuel) F (ScatterDrain.through B st) ((slicesOf content (occurrences p content)).flatMap f.line) := by
  have hs := ExactMatchSlicer.serves hp h hM hL hL0 B
  refine ⟨_, by rw [ExactMatchSlicer.new, ht], hs, hs.delivers.reads fun _ _ => trivial, fun f fuel hB hf => ?_⟩
  exact C29_prints_every_slice_partial rfl f B fuel hB _ _ content _ hs.delivers hlen hf

theorem parsePattern_length {I : Impl} {text p : Bytes} (ht : ExactMatchSlicer.parsePattern I text = .ok p) : p.length ≤ 64 := by
  unfold ExactMatchSlicer.parsePattern at ht
  split at ht
  · cases ht
  · rename_i a parsed d heq
    split at ht
    · cases ht
    · cases ht
      exact I.body_length heq

/-- **C21** for a file, every `read()` schedule and every block size that is not tiny: `nd --find ARRAY` prints exactly the occurrences of an array
that does not overlap itself. -/
theorem C21_file_partial (I : Impl) (B fuel : Nat) (filler : Byte) (content : Bytes) (sched : Nat → Option Nat) (hB : 2400 ≤ B) (hf : content.length < fuel) (hlen : content.length < 2 ^ 64)
    (text p : Bytes) (ht : ExactMatchSlicer.parsePattern I text = .ok p) (hp : Unbordered p) (f : Formatting) :
    ∃ st, ExactMatchSlicer.new I (RawStream.new B (Reader.open content sched) 1 filler) text = .ok st ∧
      SegReads (ExactMatchSlicer.segSrc (RawStream.byteSrc B fuel) B) (IoErr [sched]) st (slicesOf content (occurrences p content)) ∧
      Reads (ScatterDrain.byteSrc (ExactMatchSlicer.segSrc (RawStream.byteSrc B fuel) B) f B fuel) (IoErr [sched]) (ScatterDrain.through B st)
        ((slicesOf content (occurrences p content)).flatMap f.line) := by
  have := parsePattern_length ht
  obtain ⟨st, h1, _, h2, h3⟩ := C21_find_partial (file_amply B fuel filler content sched (by omega) hf) (fun _ => NlMargin.any) B ht hp (by omega) (by omega) hlen
  exact ⟨st, h1, h2, h3 f fuel (by omega) hf⟩

/-- `--find "6f 78"` of `foxoxxo`. -/
example (I : Impl) (sched : Nat → Option Nat) :
    ∃ st, ExactMatchSlicer.new I (RawStream.new (2 ^ 21) (Reader.open [102, 111, 120, 111, 120, 120, 111] sched) 1 0) [54, 102, 32, 55, 56] = .ok st ∧
      SegReads (ExactMatchSlicer.segSrc (RawStream.byteSrc (2 ^ 21) 8) (2 ^ 21)) (IoErr [sched]) st [(1, [111, 120]), (3, [111, 120])] := by
  obtain ⟨st, h1, h2, _⟩ := C21_file_partial I (2 ^ 21) 8 0 [102, 111, 120, 111, 120, 120, 111] sched (by decide) (by decide) (by decide) [54, 102, 32, 55, 56] [111, 120]
    (C21_array I _ _ (.col 54 102 6 15 [55, 56] _ (by decide) (by decide) (.last 55 56 7 8 (by decide) (by decide))) (by decide) (by decide) (by decide)) (by
      intro k h1 h2
      obtain rfl : k = 1 := by simp at h2; omega
      decide) ⟨.binary, 0⟩
  exact ⟨st, h1, h2⟩

/-- What a client sees of `--find ARRAY` that consumes all it may, `n` times. -/
def findSeen (I : Impl) (B : Nat) (content : Bytes) (sched : Nat → Option Nat) (text : Bytes) (n : Nat) : Except Err (Bool × List Nat) :=
  match seen (ExactMatchSlicer.segSrc (RawStream.byteSrc B 1000) B) (ExactMatchSlicer.new I (RawStream.new B (Reader.open content sched) 1 0) text) n with
  | .error e => .error e
  | .ok (eof, l) => .ok (eof, l.map (·.1))

/-- **Counterexample** (an array that overlaps itself): which occurrences of `61 61` are found in a hundred `a`s depends on how many bytes
each `read()` returns, here with block size 64: pieces of 64 bytes give ..., 62, 63, 65, ..., pieces of 63 bytes give ..., 62, 64, 66, .... -/
theorem C21_chunking_counterexample (I : Impl) :
    findSeen I 64 (List.replicate 100 97) (fun _ => some 64) [54, 49, 32, 54, 49] 5 =
      .ok (true, (List.range 32).map (2 * ·) ++ (List.range 18).map (63 + 2 * ·)) ∧
    findSeen I 64 (List.replicate 100 97) (fun _ => some 63) [54, 49, 32, 54, 49] 5 = .ok (true, (List.range 50).map (2 * ·)) := by
  cases I <;> decide +kernel

/-- **C21** for arrays that may overlap themselves: whatever the client does, everything `--find` shows is an occurrence, in strictly ascending order,
and once the end is reported every occurrence overlaps one that has been shown; and a client that keeps filling and consuming is told the end. -/
theorem C21_overlapping_partial {I : Impl} {S : ByteSrc σ} {F M L} {s : σ} {w : Nat} {content : Bytes} (h : ServesAmply S F M L s w content)
    (B : Nat) {text p : Bytes} (ht : ExactMatchSlicer.parsePattern I text = .ok p) (hp : p ≠ []) (hL : p.length ≤ L) :
    ∃ st, ExactMatchSlicer.new I s text = .ok st ∧
      (∀ ops, (∃ e, F e ∧ (SegClient.init st).run (ExactMatchSlicer.segSrc S B) ops = .error e) ∨
        ∃ c, (SegClient.init st).run (ExactMatchSlicer.segSrc S B) ops = .ok c ∧
          (c.got ++ c.lent).Pairwise (fun x y => x.1 < y.1) ∧
          (∀ x ∈ c.got ++ c.lent, x.2 = p ∧ (⟨x.1, p.length⟩ : Seg) ∈ occurrences p content) ∧
          (c.eof = true → ∀ x ∈ occurrences p content, ∃ y ∈ c.got ++ c.lent, y.1 ≤ x.pos ∧ x.pos < y.1 + p.length)) ∧
      ∀ n k, w < n → (∃ e, F e ∧ (SegClient.init st).run (ExactMatchSlicer.segSrc S B) ((List.replicate n [none, some k]).flatten) = .error e) ∨
        ∃ c, (SegClient.init st).run (ExactMatchSlicer.segSrc S B) ((List.replicate n [none, some k]).flatten) = .ok c ∧ c.eof = true := by
  obtain ⟨R, E, hR, hA, hs, hE⟩ := h
  have hinit : ExactMatchSlicer.Seen p content R E S (SegClient.init ({ src := s, segments := [], scanned := 0, pattern := p } : ExactMatchSlicer _)) w := by
    refine ⟨rfl, by simp [SegClient.init], by simp [SegClient.init], rfl, ⟨by simp [SegClient.init], by simp [SegClient.init], by simp [SegClient.init]⟩, by simp [SegClient.init],
      by simp [SegClient.init], fun _ => ⟨1, L, hs, fun req n s' hf => (hA.fill _ _ _ _ _ _ _ _ hs hf).1 rfl, Or.inr ?_⟩⟩
    simp only [SegClient.init]
    omega
  have hmem : ∀ x : Seg, x ∈ occurrences p content ↔ x.pos < content.length ∧ x.len = p.length ∧ p <+: content.drop x.pos := by
    intro x
    rw [occurrences_eq, mem_occIn]
    simp [hp]
  refine ⟨_, by rw [ExactMatchSlicer.new, ht], fun ops => ?_, fun n k hn => ExactMatchSlicer.seen_rounds hp hR hA hL B k n _ w hinit rfl (Or.inl hn)⟩
  rcases ExactMatchSlicer.seen_run hp hR hA hL B ops _ w hinit with h | ⟨c, w', h1, h2⟩
  · exact Or.inl h
  · have hoff := h2.off
    refine Or.inr ⟨c, h1, h2.found.sorted, fun x hx => ?_, fun he x hx => ?_⟩
    · obtain ⟨g1, g2, g3⟩ := h2.found.real x hx
      exact ⟨g1, (hmem _).2 ⟨by simp only; omega, rfl, g2⟩⟩
    · obtain ⟨g1, g2, g3⟩ := (hmem x).1 hx
      exact h2.found.cover x.pos (by rw [(h2.eof he).1]; exact g1) g3

/-- `--find "61 61"` of `aaab`. -/
example (sched : Nat → Option Nat) (h0 : ∀ i, ∃ n, sched i = some n) :
    ∃ st, ExactMatchSlicer.new I (RawStream.new (2 ^ 21) (Reader.open [97, 97, 97, 98] sched) 1 0) [54, 49, 32, 54, 49] = .ok st ∧
      ∃ c, (SegClient.init st).run (ExactMatchSlicer.segSrc (RawStream.byteSrc (2 ^ 21) 5) (2 ^ 21)) ((List.replicate 9 [none, some 7]).flatten) = .ok c ∧ c.eof = true := by
  obtain ⟨st, h1, _, h3⟩ := C21_overlapping_partial (file_amply (2 ^ 21) 5 0 [97, 97, 97, 98] sched (by decide) (by decide)) (2 ^ 21)
    (text := [54, 49, 32, 54, 49]) (p := [97, 97])
    (C21_array I _ _ (.col 54 49 6 1 [54, 49] _ (by decide) (by decide) (.last 54 49 6 1 (by decide) (by decide))) (by decide) (by decide) (by decide)) (by decide) (by decide)
  rcases h3 9 7 (by decide) with ⟨e, hF, _⟩ | ⟨c, hc⟩
  · obtain ⟨_, s', hs', i, hi⟩ := hF
    simp only [List.mem_singleton] at hs'
    subst hs'
    obtain ⟨n, hn⟩ := h0 i
    rw [hn] at hi
    cases hi
  · exact ⟨st, h1, c, hc⟩

theorem occurrences_mem {p c : Bytes} {x : Seg} (hx : x ∈ occurrences p c) : x.len = p.length ∧ 0 < x.len ∧ x.tail ≤ c.length := by
  rw [occurrences_eq, mem_occIn] at hx
  obtain ⟨_, h2, h3, h4, h5⟩ := hx
  have h6 := h5.length_le
  have := List.length_pos_iff.2 h4
  simp only [List.length_drop] at h6
  simp only [Seg.tail]
  omega

/-- The stages behind `--find ARRAY`, for every file, every `read()` schedule and every client: `--merge N`, `--invert S..e-y`, `--extend S..e-y`, and
`--lines` with a range counted from the end, deliver what they mean for the occurrences of the array. -/
theorem C21_pipelines_partial (I : Impl) (B fuel : Nat) (filler : Byte) (content : Bytes) (sched : Nat → Option Nat) (hB : 2400 ≤ B) (hf : content.length < fuel) (hlen : content.length < 2 ^ 64)
    (text p : Bytes) (ht : ExactMatchSlicer.parsePattern I text = .ok p) (hp : Unbordered p) :
    ∃ st, ExactMatchSlicer.new I (RawStream.new B (Reader.open content sched) 1 filler) text = .ok st ∧
      (∀ n, SegReads (MergeStream.segSrc (ExactMatchSlicer.segSrc (RawStream.byteSrc B fuel) B)) (IoErr [sched]) (MergeStream.new st n)
        (slicesOf content (merge n (occurrences p content)))) ∧
      (∀ m : SegmentMapper, m.stop.anchor = 1 → m.stop.offset ≤ 0 →
        SegReads (MapStream.segSrc (ExactMatchSlicer.segSrc (RawStream.byteSrc B fuel) B) (Bridge.ops [m])) (IoErr [sched]) (Bridge.new st)
          (slicesOf content (invert [m.toSpec] (occurrences p content) content.length)) ∧
        SegReads (MapStream.segSrc (ExactMatchSlicer.segSrc (RawStream.byteSrc B fuel) B) (Extend.ops [m])) (IoErr [sched]) (Extend.new st)
          (slicesOf content (extend [m.toSpec] (occurrences p content) content.length))) ∧
      ∀ ms : List SegmentMapper, (∃ m ∈ ms, m.toSpec.1.fromEnd = true ∨ m.toSpec.2.fromEnd = true) →
        ∃ fl, FilterStream.new false st (ms.map RangeMapper.ofMapper) = .ok fl ∧
          SegReads (FilterStream.segSrc (ExactMatchSlicer.segSrc (RawStream.byteSrc B fuel) B)) (IoErr [sched]) fl
            (slicesOf content (pick (ms.map SegmentMapper.toSpec) (occurrences p content))) := by
  have hl := parsePattern_length ht
  have hs := ExactMatchSlicer.serves hp (file_amply B fuel filler content sched (by omega) hf) (fun _ => NlMargin.any) (by omega) (by omega) B
  have hlt : (occurrences p content).Pairwise fun x y => x.pos < y.pos := by rw [occurrences_eq]; exact occIn_sorted _ _ _ _
  have hso : Sorted (occurrences p content) := hlt.imp fun h => Nat.le_of_lt h
  refine ⟨_, by rw [ExactMatchSlicer.new, ht], fun n => ?_, fun m h1 h2 => ⟨?_, ?_⟩, fun ms hr => ?_⟩
  · exact (C22_merge_fold hs.delivers rfl rfl rfl (fun _ _ _ => trivial) hso hlen n).2.2 fun _ _ => trivial
  · refine (C23_invert_partial hs rfl rfl rfl rfl [m] (by simp) (max p.length (max (-m.stop.offset).toNat (-m.start.offset).toNat)) (fun _ _ _ => trivial) ?_ ?_ ?_ ?_ hlen).2.2 fun _ _ => trivial
    · intro m hm
      simp only [List.mem_singleton] at hm
      subst hm
      simp only [SegmentMapper.toSpec, RangeEnd.on, h1]
      constructor
      · split <;> omega
      · simp; omega
    · intro x hx
      have := occurrences_mem hx
      exact ⟨this.2.2, by omega⟩
    · intro g _ m hm
      simp only [List.mem_singleton] at hm
      subst hm
      simp only [SegmentMapper.toSpec, RangeEnd.on, h1]
      simp; omega
    · exact invert_one_sorted _ _ _ hso fun x hx => (occurrences_mem hx).2.1
  · refine (C24_extend_partial hs rfl rfl rfl rfl [m] (by simp) (p.length + (max (-m.stop.offset).toNat (-m.start.offset).toNat)) p.length (fun _ _ _ => trivial) ?_ (by omega) ?_ ?_ ?_ hlen).2.2 fun _ _ => trivial
    · intro m hm
      simp only [List.mem_singleton] at hm
      subst hm
      simp only [SegmentMapper.toSpec, RangeEnd.on, h1]
      constructor
      · split <;> omega
      · simp; omega
    · intro x hx
      have := occurrences_mem hx
      exact ⟨this.2.2, by omega, this.2.1⟩
    · intro g _ m hm
      simp only [List.mem_singleton] at hm
      subst hm
      simp only [SegmentMapper.toSpec, RangeEnd.on, h1]
      simp; omega
    · refine extend_one_sorted _ _ _ (hlt.imp_of_mem fun {a b} ha hb hab => ?_)
      have := (occurrences_mem ha).1
      have := (occurrences_mem hb).1
      simp only [Seg.tail]
      omega
  · obtain ⟨fl, hfl⟩ := C25_new_ok ({ src := RawStream.new B (Reader.open content sched) 1 filler, segments := [], scanned := 0, pattern := p } : ExactMatchSlicer _) (ms.map RangeMapper.ofMapper)
    refine ⟨fl, hfl, C25_lines_partial hs rfl rfl (fun _ _ => trivial) (hlt.imp fun h => ?_) hr hfl⟩
    simp only [Seg.Lt]
    omega

/-- `--find "6f 78" --extend s-1..e` of `foxoxxo`. -/
example (I : Impl) (sched : Nat → Option Nat) :
    ∃ st, ExactMatchSlicer.new I (RawStream.new (2 ^ 21) (Reader.open [102, 111, 120, 111, 120, 120, 111] sched) 1 0) [54, 102, 32, 55, 56] = .ok st ∧
      SegReads (MapStream.segSrc (ExactMatchSlicer.segSrc (RawStream.byteSrc (2 ^ 21) 8) (2 ^ 21)) (Extend.ops [⟨⟨0, -1⟩, ⟨1, 0⟩⟩])) (IoErr [sched]) (Extend.new st)
        [(0, [102, 111, 120]), (2, [120, 111, 120])] := by
  obtain ⟨st, h1, _, h2, _⟩ := C21_pipelines_partial I (2 ^ 21) 8 0 [102, 111, 120, 111, 120, 120, 111] sched (by decide) (by decide) (by decide) [54, 102, 32, 55, 56] [111, 120]
    (C21_array I _ _ (.col 54 102 6 15 [55, 56] _ (by decide) (by decide) (.last 55 56 7 8 (by decide) (by decide))) (by decide) (by decide) (by decide)) (by
      intro k h1 h2
      obtain rfl : k = 1 := by simp at h2; omega
      decide)
  exact ⟨st, h1, (h2 ⟨⟨0, -1⟩, ⟨1, 0⟩⟩ rfl (by decide)).2⟩

end Nd.Props
