import Verif.Proof.Walk
import Verif.Proof.WholeGrow
import Verif.Proof.CatGrow
import Verif.Props.Regex
/-!
# C27: `--walk`
-/
namespace Nd.Props
open Nd Nd.Spec Nd.Eval Nd.WalkSlicer

theorem mapM_ne_nil {f : α → Except Err β} : ∀ {l : List α} {r : List β}, l ≠ [] → l.mapM f = .ok r → r ≠ []
  | [], _, h, _ => absurd rfl h
  | a :: l, r, _, h => by
    rw [List.mapM_cons] at h
    cases hf : f a with
    | error e => rw [hf] at h; cases h
    | ok b =>
      cases hl : l.mapM f with
      | error e => rw [hf, hl] at h; cases h
      | ok bs =>
        rw [hf, hl] at h
        cases h
        simp

theorem splitComma_ne_nil : ∀ (l : List Char), splitComma l ≠ []
  | [] => by simp [splitComma]
  | c :: cs => by
    unfold splitComma
    split
    · simp
    · split <;> simp

/-- A new slicer. -/
theorem walk_new {s : σ} {exprs : List Char} {st : WalkSlicer σ} (h : WalkSlicer.new s exprs = .ok st) :
    st.fetchers ≠ [] ∧ st = { src := s, fetchers := st.fetchers, segments := [], pos := 0 } := by
  unfold WalkSlicer.new at h
  cases hm : (splitComma (stripComma exprs)).mapM (rpnNew vars) with
  | error e => rw [hm] at h; cases h
  | ok fs =>
    rw [hm] at h
    cases h
    exact ⟨mapM_ne_nil (splitComma_ne_nil _) hm, rfl⟩

/-- **C27** over every stream that lends `H` more bytes with every call, all expressions, and all contents: if the content is made up of groups of slices whose lengths
are the positive values of the expressions where the group starts, and the expressions look at the first `H` bytes there, every client sees exactly these slices, and the drain prints them.
`Lens` evaluates the expressions with `element` as the value of `b[i]`, `h[i]`, `i[i]` and `l[i]` (`value_eq`). -/
theorem C27_walk_partial {S : ByteSrc σ} {F M} {H : Nat} {s : σ} {w : Nat} {content : Bytes} (h : ServesGrowing S F M H s w content) (hM : ∀ m, M m → AnyMargin m)
    (exprs : List Char) (st : WalkSlicer σ) (hst : WalkSlicer.new s exprs = .ok st) (segs : List Seg) (hW : Walks (Lens H st.fetchers) 0 content segs) (B fuel : Nat) (hf : content.length < fuel) :
    SegReads (WalkSlicer.segSrc S B fuel) (Abort F) st (slicesOf content segs) ∧
    ∀ (f : Formatting) (fuel' : Nat), 0 < B → w < fuel' → content.length < 2 ^ 64 →
      Reads (ScatterDrain.byteSrc (WalkSlicer.segSrc S B fuel) f B fuel') (Abort F) (ScatterDrain.through B st) ((slicesOf content segs).flatMap f.line) := by
  obtain ⟨hne, heq⟩ := walk_new hst
  have hd := WalkSlicer.serves h hM hne hW B fuel hf
  rw [← heq] at hd
  exact ⟨hd.reads fun _ _ => trivial, fun f fuel' hB hw hlen => C29_prints_every_slice_partial rfl f B fuel' hB _ _ content _ hd hlen hw⟩

/-- A stream whose values are what `Lens` says they are. -/
theorem C27_lens_meaning {H : Nat} {rpns : List (List Tok)} {stream : Bytes} {ls : List Nat} (h : Lens H rpns stream ls) :
    List.Forall₂ (fun rpn (l : Nat) => ∃ v : Int64, evalRpn (fun size i => Int64.ofInt (element size i.toInt.toNat stream)) rpn = .ok v ∧ 0 < v ∧ v.toInt = Int.ofNat l) rpns ls := by
  refine List.Forall₂.imp ?_ h
  rintro rpn l ⟨v, h1, h2, h3⟩
  refine ⟨v, value_eq h1, h2, ?_⟩
  have : (0 : Int) < v.toInt := by
    have := Int64.lt_iff_toInt_lt.1 h2
    simpa using this
  simp only [Int.ofNat_eq_natCast]
  omega

/-- `CatStream` over one file, every `read()` of which returns at least `H` bytes as far as there are any. -/
theorem cat_growing (B fuel H : Nat) (filler : Byte) (content : Bytes) (sched : Nat → Option Nat) (hB : 0 < B) (hs : ∀ i k, sched i = some k → H ≤ min (max 1 k) B) (hf : enough 1 [(content, sched)] < fuel) :
    ServesGrowing (CatStream.byteSrc (RawStream.byteSrc B fuel) B fuel) (IoErr [sched]) AnyMargin H (CatStream.new B (rawStreams B 1 filler [(content, sched)])) (CatStream.fills [(content.length, content)]) content := by
  have hle := le_enough 1 [(content, sched)] (content, sched) (by simp)
  have hfl := fills_le_enough 1 filler [(content, sched)] (by decide)
  simp only [List.map_cons, List.map_nil, alignTo_one] at hfl
  have hd := raw_delivers B fuel 1 filler content sched hB (by decide) (by simp only at hle; omega)
  rw [alignTo_one] at hd
  exact CatStream.single_growing (RawStream.growing hB hd hs) (fun _ => NlMargin.any) hB (by omega)

/-- **C27** for a file of any size: `nd --walk EXPR,... FILE` cuts the file by the computed lengths, if they depend on the first `H` bytes of every group and every `read()` returns at least `H` bytes before
the end of the file.  With `H = 1` this holds for all schedules, with `H` up to a block for regular files. -/
theorem C27_file_partial (B fuel H : Nat) (filler : Byte) (content : Bytes) (sched : Nat → Option Nat) (hB : 0 < B) (hs : ∀ i k, sched i = some k → H ≤ min (max 1 k) B)
    (hf : enough 1 [(content, sched)] < fuel) (exprs : List Char) (st : WalkSlicer (CatStream (Buffered Reader))) (hst : WalkSlicer.new (CatStream.new B (rawStreams B 1 filler [(content, sched)])) exprs = .ok st)
    (segs : List Seg) (hW : Walks (Lens H st.fetchers) 0 content segs) :
    SegReads (WalkSlicer.segSrc (CatStream.byteSrc (RawStream.byteSrc B fuel) B fuel) B fuel) (Abort (IoErr [sched])) st (slicesOf content segs) ∧
    ∀ f : Formatting, content.length < 2 ^ 64 →
      Reads (ScatterDrain.byteSrc (WalkSlicer.segSrc (CatStream.byteSrc (RawStream.byteSrc B fuel) B fuel) B fuel) f B fuel) (Abort (IoErr [sched])) (ScatterDrain.through B st)
        ((slicesOf content segs).flatMap f.line) := by
  have hle := le_enough 1 [(content, sched)] (content, sched) (by simp)
  have hfl := fills_le_enough 1 filler [(content, sched)] (by decide)
  simp only [List.map_cons, List.map_nil, alignTo_one] at hfl
  obtain ⟨h1, h2⟩ := C27_walk_partial (cat_growing B fuel H filler content sched hB hs hf) (fun _ h => h) exprs st hst segs hW B fuel (by simp only at hle; omega)
  exact ⟨h1, fun f hlen => h2 f fuel hB (by omega) hlen⟩

/-- **C27** for any number of files that are shorter than a block in total, for all schedules and all expressions. -/
theorem C27_small_partial (B fuel H : Nat) (filler : Byte) (files : Files) (hB : (files.map Prod.fst).flatten.length < B) (hne : files ≠ []) (hf : enough 1 files < fuel)
    (exprs : List Char) (st : WalkSlicer (CatStream (Buffered Reader))) (hst : WalkSlicer.new (CatStream.new B (rawStreams B 1 filler files)) exprs = .ok st)
    (segs : List Seg) (hW : Walks (Lens H st.fetchers) 0 (files.map Prod.fst).flatten segs) :
    SegReads (WalkSlicer.segSrc (CatStream.byteSrc (RawStream.byteSrc B fuel) B fuel) B fuel) (Abort (IoErr (files.map Prod.snd))) st (slicesOf (files.map Prod.fst).flatten segs) ∧
    ∀ f : Formatting, (files.map Prod.fst).flatten.length < 2 ^ 64 →
      Reads (ScatterDrain.byteSrc (WalkSlicer.segSrc (CatStream.byteSrc (RawStream.byteSrc B fuel) B fuel) B fuel) f B fuel) (Abort (IoErr (files.map Prod.snd))) (ScatterDrain.through B st)
        ((slicesOf (files.map Prod.fst).flatten segs).flatMap f.line) := by
  have hc : Spec.cat (files.map fun f => Spec.alignTo 1 filler f.1) = (files.map Prod.fst).flatten := by simp only [alignTo_one, Spec.cat]
  have hwh := cat_whole B fuel filler files hB hf
  have ha := cat_amply B fuel 1 filler files (by omega) (by decide) hne hf
  have hfl := fills_le_enough 1 filler files (by decide)
  rw [hc] at ha
  have hlen : (files.map Prod.fst).flatten.length ≤ CatStream.fills (files.map fun f => (f.1.length, Spec.alignTo 1 filler f.1)) := by
    simp only [CatStream.fills, List.length_flatten, List.map_map, alignTo_one]
    clear * -
    induction files with
    | nil => simp
    | cons f fs ih => simp only [List.map_cons, List.sum_cons, Function.comp]; simp only [Function.comp_def] at ih ⊢; omega
  obtain ⟨h1, h2⟩ := C27_walk_partial (ha.whole hwh H) (fun _ h => h) exprs st hst segs hW B fuel (by omega)
  exact ⟨h1, fun f hlen => h2 f fuel (by omega) (by omega) hlen⟩

/-! ## Records that begin with their length -/

/-- `--walk b[0]` -/
def byteExpr : List Char := ['b', '[', '0', ']']
/-- `--walk 1,b[0]-1,`, as in the README. -/
def headTailExpr : List Char := ['1', ',', 'b', '[', '0', ']', '-', '1', ',']

/-- The compiled `b[0]`. -/
def byteRpn : List Tok := [(.val 0, 0), (.var 1 1, 1)]
/-- The compiled `b[0]-1`. -/
def tailRpn : List Tok := [(.val 0, 0), (.var 1 1, 1), (.val (-1), 0), (.op '+', 2)]

theorem new_byte (s : σ) : WalkSlicer.new s byteExpr = .ok { src := s, fetchers := [byteRpn], segments := [], pos := 0 } := by
  have : (splitComma (stripComma byteExpr)).mapM (rpnNew vars) = .ok [byteRpn] := by decide +kernel
  unfold WalkSlicer.new
  rw [this]
  rfl

theorem new_headTail (s : σ) : WalkSlicer.new s headTailExpr = .ok { src := s, fetchers := [[(.val 1, 0)], tailRpn], segments := [], pos := 0 } := by
  have : (splitComma (stripComma headTailExpr)).mapM (rpnNew vars) = .ok [[(.val 1, 0)], tailRpn] := by decide +kernel
  unfold WalkSlicer.new
  rw [this]
  rfl

theorem element_byte (b : Byte) (hb : b.toNat < 128) (rest : Bytes) : element 1 0 (b :: rest) = b.toNat := by
  simp only [element, List.length_cons, List.drop_zero, List.take_succ_cons, List.take_zero, leNat, Nat.zero_mul]
  rw [if_neg (by omega), if_pos (by omega)]
  simp

theorem value_byte (b : Byte) (hb : b.toNat < 128) (rest : Bytes) : value 1 (b :: rest) byteRpn = .ok (Int64.ofInt b.toNat) := by
  have := element_byte b hb rest
  simp [value, byteRpn, evalRpnM, evalLoopM, evalStepM, evalStep, lookAt, this, Except.map]

theorem applyOp_add (x y : Int64) : applyOp '+' x y = .ok (x + y) := by
  unfold applyOp
  rfl

theorem value_tail (b : Byte) (hb : b.toNat < 128) (rest : Bytes) : value 1 (b :: rest) tailRpn = .ok (Int64.ofInt (b.toNat - 1)) := by
  have := element_byte b hb rest
  have hx : ∀ x : Int64, x + -1 = x - 1 := fun x => (Int64.sub_eq_add_neg x 1).symm
  simp only [value, tailRpn, evalRpnM, evalLoopM, evalStepM, evalStep, lookAt]
  simp [this, Except.map, applyOp_add, hx]

/-- A record that begins with its length, which is at most 127. -/
def LengthByte (r : Bytes) : Prop := ∃ b rest, r = b :: rest ∧ b.toNat = r.length ∧ r.length < 128

/-- The records one after the other with their positions. -/
def placed : Nat → List Bytes → List (Nat × Bytes)
  | _, [] => []
  | p, r :: rs => (p, r) :: placed (p + r.length) rs

theorem adjacent_slices : ∀ (records : List Bytes) (done : Bytes), slicesOf (done ++ records.flatten) (Spec.adjacent done.length (records.map List.length)) = placed done.length records
  | [], done => rfl
  | r :: rs, done => by
    have := adjacent_slices rs (done ++ r)
    rw [List.length_append, List.append_assoc] at this
    simp only [List.map_cons, Spec.adjacent, List.flatten_cons, placed, slicesOf] at this ⊢
    rw [this]
    simp [Seg.bytes]

/-- Two pieces of every record. -/
def headTail : List Bytes → List Bytes
  | [] => []
  | r :: rs => r.take 1 :: r.drop 1 :: headTail rs

theorem walks_byte : ∀ (records : List Bytes) (p : Nat), (∀ r ∈ records, LengthByte r) → Walks (Lens 1 [byteRpn]) p records.flatten (Spec.adjacent p (records.map List.length))
  | [], p, _ => .nil p
  | r :: rs, p, h => by
    obtain ⟨b, rest, rfl, hb, hl⟩ := h _ (List.mem_cons_self ..)
    have hv := value_byte b (by omega) (rest ++ rs.flatten)
    have := Walks.cut (len := Lens 1 [byteRpn]) p (((b :: rest) :: rs).flatten) [(b :: rest).length] (Spec.adjacent (p + (b :: rest).length) (rs.map List.length)) (by simp) ?_ (by simp) ?_
    · simpa [Spec.adjacent] using this
    · refine .cons ⟨_, hv, ?_, ?_⟩ .nil
      · rw [Int64.lt_iff_toInt_lt, Int64.toInt_ofInt_of_le (by omega) (by omega)]
        simp only [List.length_cons] at hb
        have : (0 : Int64).toInt = 0 := rfl
        omega
      · rw [Int64.toInt_ofInt_of_le (by omega) (by omega)]
        omega
    · simp only [List.sum_cons, List.sum_nil, Nat.add_zero, List.flatten_cons, List.drop_left]
      exact walks_byte rs _ fun r hr => h r (List.mem_cons_of_mem _ hr)

theorem headTail_flatten : ∀ (records : List Bytes), (headTail records).flatten = records.flatten
  | [] => rfl
  | r :: rs => by simp only [headTail, List.flatten_cons, headTail_flatten rs, ← List.append_assoc, List.take_append_drop]

theorem walks_headTail : ∀ (records : List Bytes) (p : Nat), (∀ r ∈ records, LengthByte r ∧ 2 ≤ r.length) →
    Walks (Lens 1 [[(.val 1, 0)], tailRpn]) p records.flatten (Spec.adjacent p ((headTail records).map List.length))
  | [], p, _ => .nil p
  | r :: rs, p, h => by
    obtain ⟨⟨b, rest, rfl, hb, hl⟩, h2⟩ := h _ (List.mem_cons_self ..)
    have hv := value_tail b (by omega) (rest ++ rs.flatten)
    simp only [List.length_cons] at hb hl h2
    have := Walks.cut (len := Lens 1 [[(.val 1, 0)], tailRpn]) p (((b :: rest) :: rs).flatten) [1, rest.length] (Spec.adjacent (p + (1 + rest.length)) ((headTail rs).map List.length)) (by simp) ?_ (by simp; omega) ?_
    · simpa [Spec.adjacent, headTail, Nat.add_assoc] using this
    · refine .cons ⟨1, rfl, by decide, rfl⟩ (.cons ⟨_, hv, ?_, ?_⟩ .nil)
      · rw [Int64.lt_iff_toInt_lt, Int64.toInt_ofInt_of_le (by omega) (by omega)]
        have : (0 : Int64).toInt = 0 := rfl
        omega
      · rw [Int64.toInt_ofInt_of_le (by omega) (by omega)]
        omega
    · simp only [List.sum_cons, List.sum_nil, Nat.add_zero, List.flatten_cons]
      rw [List.drop_append_of_le_length (by simp; omega), show (b :: rest).drop (1 + rest.length) = [] from List.drop_eq_nil_of_le (by simp; omega), List.nil_append]
      exact walks_headTail rs _ fun r hr => h r (List.mem_cons_of_mem _ hr)

/-- **C27** for a file of records of at most 127 bytes whose first byte is their length, of any size, read in any portions: `nd --walk b[0] FILE` prints every record. -/
theorem C27_length_byte (B fuel : Nat) (filler : Byte) (records : List Bytes) (sched : Nat → Option Nat) (hB : 0 < B) (hf : enough 1 [(records.flatten, sched)] < fuel) (hr : ∀ r ∈ records, LengthByte r) :
    ∃ st, WalkSlicer.new (CatStream.new B (rawStreams B 1 filler [(records.flatten, sched)])) byteExpr = .ok st ∧
    SegReads (WalkSlicer.segSrc (CatStream.byteSrc (RawStream.byteSrc B fuel) B fuel) B fuel) (Abort (IoErr [sched])) st (placed 0 records) ∧
    ∀ f : Formatting, records.flatten.length < 2 ^ 64 →
      Reads (ScatterDrain.byteSrc (WalkSlicer.segSrc (CatStream.byteSrc (RawStream.byteSrc B fuel) B fuel) B fuel) f B fuel) (Abort (IoErr [sched])) (ScatterDrain.through B st)
        ((placed 0 records).flatMap f.line) := by
  have hsl : slicesOf records.flatten (Spec.adjacent 0 (records.map List.length)) = placed 0 records := adjacent_slices records []
  refine ⟨_, new_byte _, ?_⟩
  rw [← hsl]
  exact C27_file_partial B fuel 1 filler records.flatten sched hB (fun i k _ => by omega) hf byteExpr _ (new_byte _) _ (walks_byte records 0 hr)

/-- **C27** for the example of the README, `nd --walk 1,b[0]-1, FILE`: the length byte and the rest of every record, in any portions. -/
theorem C27_head_tail (B fuel : Nat) (filler : Byte) (records : List Bytes) (sched : Nat → Option Nat) (hB : 0 < B) (hf : enough 1 [(records.flatten, sched)] < fuel) (hr : ∀ r ∈ records, LengthByte r ∧ 2 ≤ r.length) :
    ∃ st, WalkSlicer.new (CatStream.new B (rawStreams B 1 filler [(records.flatten, sched)])) headTailExpr = .ok st ∧
    SegReads (WalkSlicer.segSrc (CatStream.byteSrc (RawStream.byteSrc B fuel) B fuel) B fuel) (Abort (IoErr [sched])) st (placed 0 (headTail records)) ∧
    ∀ f : Formatting, records.flatten.length < 2 ^ 64 →
      Reads (ScatterDrain.byteSrc (WalkSlicer.segSrc (CatStream.byteSrc (RawStream.byteSrc B fuel) B fuel) B fuel) f B fuel) (Abort (IoErr [sched])) (ScatterDrain.through B st)
        ((placed 0 (headTail records)).flatMap f.line) := by
  have hsl : slicesOf records.flatten (Spec.adjacent 0 ((headTail records).map List.length)) = placed 0 (headTail records) := by
    rw [← headTail_flatten records]
    exact adjacent_slices (headTail records) []
  refine ⟨_, new_headTail _, ?_⟩
  rw [← hsl]
  exact C27_file_partial B fuel 1 filler records.flatten sched hB (fun i k _ => by omega) hf headTailExpr _ (new_headTail _) _ (walks_headTail records 0 hr)

example (sched : Nat → Option Nat) :
    ∃ st, WalkSlicer.new (CatStream.new 4 (rawStreams 4 1 0 [([2, 7, 1, 3, 200, 9], sched)])) byteExpr = .ok st ∧
    SegReads (WalkSlicer.segSrc (CatStream.byteSrc (RawStream.byteSrc 4 100) 4 100) 4 100) (Abort (IoErr [sched])) st [(0, [2, 7]), (2, [1]), (3, [3, 200, 9])] := by
  obtain ⟨st, h1, h2, _⟩ := C27_length_byte 4 100 0 [[2, 7], [1], [3, 200, 9]] sched (by decide) (by simp [enough]) (by
    intro r hr
    simp only [List.mem_cons, List.not_mem_nil, or_false] at hr
    rcases hr with rfl | rfl | rfl <;> exact ⟨_, _, rfl, by decide, by decide⟩)
  exact ⟨st, h1, h2⟩

example (sched : Nat → Option Nat) :
    ∃ st, WalkSlicer.new (CatStream.new 4 (rawStreams 4 1 0 [([2, 7, 3, 200, 9], sched)])) headTailExpr = .ok st ∧
    SegReads (WalkSlicer.segSrc (CatStream.byteSrc (RawStream.byteSrc 4 100) 4 100) 4 100) (Abort (IoErr [sched])) st [(0, [2]), (1, [7]), (2, [3]), (3, [200, 9])] := by
  obtain ⟨st, h1, h2, _⟩ := C27_head_tail 4 100 0 [[2, 7], [3, 200, 9]] sched (by decide) (by simp [enough]) (by
    intro r hr
    simp only [List.mem_cons, List.not_mem_nil, or_false] at hr
    rcases hr with rfl | rfl <;> exact ⟨⟨_, _, rfl, by decide, by decide⟩, by decide⟩)
  exact ⟨st, h1, h2⟩

/-- The compiled `i[0]`. -/
def intRpn : List Tok := [(.val 0, 0), (.var 4 1, 1)]

theorem new_int (s : σ) : WalkSlicer.new s ['i', '[', '0', ']'] = .ok { src := s, fetchers := [intRpn], segments := [], pos := 0 } := by
  have : (splitComma (stripComma ['i', '[', '0', ']'])).mapM (rpnNew vars) = .ok [intRpn] := by decide +kernel
  unfold WalkSlicer.new
  rw [this]
  rfl

/-- Two files cut by 32-bit lengths, the second length beginning in the first file. -/
example (s1 s2 : Nat → Option Nat) :
    SegReads (WalkSlicer.segSrc (CatStream.byteSrc (RawStream.byteSrc 64 100) 64 100) 64 100) (Abort (IoErr [s1, s2]))
      { src := CatStream.new 64 (rawStreams 64 1 0 [([4, 0, 0, 0, 5], s1), ([0, 0, 0, 9], s2)]), fetchers := [intRpn], segments := [], pos := 0 } [(0, [4, 0, 0, 0]), (4, [5, 0, 0, 0, 9])] := by
  have hW : Walks (Lens 4 [intRpn]) 0 ([4, 0, 0, 0, 5, 0, 0, 0, 9] : Bytes) [⟨0, 4⟩, ⟨4, 5⟩] :=
    .cut 0 _ [4] [⟨4, 5⟩] (by decide) (.cons ⟨4, by decide +kernel, by decide, by decide⟩ .nil) (by decide)
      (.cut 4 _ [5] [] (by decide) (.cons ⟨5, by decide +kernel, by decide, by decide⟩ .nil) (by decide) (.nil _))
  exact (C27_small_partial 64 100 4 0 [([4, 0, 0, 0, 5], s1), ([0, 0, 0, 9], s2)] (by simp) (by simp) (by simp [enough]) ['i', '[', '0', ']'] _ (new_int _) _ hW).1

/-! ## Where the code disagrees -/

/-- What `n` rounds of the drain print for `--walk`, without headers. -/
def walkPrint (B : Nat) (content : Bytes) (sched : Nat → Option Nat) (exprs : List Char) (n : Nat) : Except Err Bytes :=
  match WalkSlicer.new (RawStream.new B (Reader.open content sched) 1 0) exprs with
  | .error e => .error e
  | .ok st => drainRounds (WalkSlicer.segSrc (RawStream.byteSrc B 1000) B 100) n (ScatterDrain.new st) []

/-- A slice that extends beyond the end of the stream is not clipped but not shown at all. -/
theorem C27_clipped_counterexample : walkPrint 64 [2, 7, 5, 1] (fun _ => some 64) byteExpr 3 = .ok [2, 7] := by decide +kernel

/-- With `--output` the program never ends in this case. -/
theorem scatter_stuck {ν : Type} [DecidableEq ν] {S : SegSrc σ} {f : Formatting} {d : ScatterDrain σ} {c : ScatterContext ν} {eof : Bool} {bytes : Nat} {s1 : σ}
    (hfill : S.fill d.src = .ok ((eof, bytes, 0, 0), s1)) (hb : bytes ≠ 0) (hd : d.srcConsumed = 0) (hc : S.consume s1 0 = .ok ((0, 0), d.src)) :
    ∀ fuel, ScatterDrain.scatter S f fuel d c = .error .diverge
  | 0 => rfl
  | fuel + 1 => by
    have ih := scatter_stuck (f := f) (c := c) hfill hb hd hc fuel
    obtain ⟨src, sc, off, ln⟩ := d
    simp only at hfill hd hc
    subst hd
    unfold ScatterDrain.scatter
    simp only [hfill]
    rw [if_neg (by simp [hb])]
    simp only [ScatterDrain.fresh, Nat.le_refl, Nat.zero_le, and_self, if_true, List.take_zero, List.drop_nil, ScatterDrain.dumpAll, ScatterDrain.advance, hc, ckSub, Nat.sub_self, Nat.add_zero]
    exact ih

/-- The slicer of `nd --walk b[0]` on the file `[2]`, after the file has been read. -/
def stuckState : WalkSlicer (Buffered Reader) :=
  { src := { inner := { data := [], sched := fun _ => some 64, calls := 2 }, buf := { StreamBuf.newWithAlign 64 1 0 with buf := 2 :: List.replicate 256 10, len := 1, isEof := true } },
    fetchers := [byteRpn], segments := [], pos := 0 }

/-- The slicer of `nd --walk b[0]` on the file `[2]`, before. -/
def stuckStart : WalkSlicer (Buffered Reader) := { src := RawStream.new 64 (Reader.open [2] fun _ => some 64) 1 0, fetchers := [byteRpn], segments := [], pos := 0 }

set_option maxRecDepth 8000 in
theorem stuck_first : (WalkSlicer.segSrc (RawStream.byteSrc 64 1000) 64 100).fill stuckStart = .ok ((true, 1, 0, 0), stuckState) := by rfl
set_option maxRecDepth 8000 in
theorem stuck_again : (WalkSlicer.segSrc (RawStream.byteSrc 64 1000) 64 100).fill stuckState = .ok ((true, 1, 0, 0), stuckState) := by rfl
set_option maxRecDepth 8000 in
theorem stuck_consume : (WalkSlicer.segSrc (RawStream.byteSrc 64 1000) 64 100).consume stuckState 0 = .ok ((0, 0), stuckState) := by rfl

/-- `nd --walk b[0] --output FILE` never ends if the last slice extends beyond the end of the stream. -/
theorem C27_output_counterexample (c : ScatterContext String) (f : Formatting) :
    WalkSlicer.new (RawStream.new 64 (Reader.open [2] fun _ => some 64) 1 0) byteExpr = .ok stuckStart ∧
    ∀ fuel, ScatterDrain.scatter (WalkSlicer.segSrc (RawStream.byteSrc 64 1000) 64 100) f fuel (ScatterDrain.new stuckStart) c = .error .diverge := by
  refine ⟨new_byte _, fun fuel => ?_⟩
  cases fuel with
  | zero => rfl
  | succ fuel =>
    have hst : (ScatterDrain.new stuckState).src = stuckState := rfl
    have ih := scatter_stuck (S := WalkSlicer.segSrc (RawStream.byteSrc 64 1000) 64 100) (f := f) (c := c) (d := ScatterDrain.new stuckState) (by rw [hst]; exact stuck_again) (by decide) rfl (by rw [hst]; exact stuck_consume) fuel
    unfold ScatterDrain.scatter
    simp only [ScatterDrain.new, stuck_first]
    rw [if_neg (by simp)]
    simp only [ScatterDrain.fresh, Nat.le_refl, Nat.zero_le, and_self, if_true, List.take_zero, List.drop_nil, ScatterDrain.dumpAll, ScatterDrain.advance, stuck_consume, ckSub,
      Nat.sub_self, Nat.add_zero]
    exact ih

/-- If a length spans the end of what has been read so far, and the next `read()` returns less than the rest of it, as from a pipe, it counts as zero and the program panics; -/
theorem C27_short_reads_counterexample :
    walkPrint 64 ([4, 0, 0, 0] ++ [64, 0, 0, 0] ++ List.replicate 60 9 ++ [4, 0, 0, 0]) (fun i => if i = 0 then some 64 else some 1) ['i', '[', '0', ']'] 2 = .error .panic := by decide +kernel

/-- it does not if the file is read in whole blocks. -/
theorem C27_full_reads :
    walkPrint 64 ([4, 0, 0, 0] ++ [64, 0, 0, 0] ++ List.replicate 60 9 ++ [4, 0, 0, 0]) (fun _ => some 64) ['i', '[', '0', ']'] 2 =
      .ok ([4, 0, 0, 0] ++ [64, 0, 0, 0] ++ List.replicate 60 9 ++ [4, 0, 0, 0]) := by decide +kernel

end Nd.Props
