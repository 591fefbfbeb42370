import Verif.Proof.Utf8
import Verif.Props.Simd
import Verif.Conformance.Host
/-!
# Raw memory (C44)

`src/byte/zip.rs`, `src/filluninit.rs` and `src/text/parser` copy, load and store through raw pointers without any check.  `none` is an access outside of the memory that
it belongs to, or bytes taken for text that are none.  `m` is what memory that has not been written contains.  The stores of the formatters are in `Verif/Props/SimdFormat.lean`.
-/
namespace Nd.Props
open Nd Nd.Spec TextParser Format Conformance

/-- **C44** (`Vec::fill_uninit` reserves enough): whatever is asked for, there is room for it, as long as a `Vec` can be that long. -/
theorem C44_reserve (len cap need : Nat) (h : len + need < 2 ^ 63) : ∃ c, growRaw len cap need = some c ∧ len + need ≤ c := growRaw_spec h

/-- Room for 300 bytes behind 700 when there was room for 800 in all. -/
example : growRaw 700 800 300 = some 1024 := by decide +kernel

theorem minLen_const {k : Nat} : ∀ (cs : List Bytes), cs ≠ [] → (∀ c ∈ cs, c.length = k) → minLen cs = k
  | [], h, _ => absurd rfl h
  | [c], _, h => h c (by simp)
  | c :: d :: cs, _, h => by
    rw [minLen, h c (by simp), minLen_const (d :: cs) (by simp) (fun x hx => h x (by simp [hx])), Nat.min_self]

/-- **C44** (`Zipper::gather`): copying `n` words of `w` bytes from every input, with the function selected for `w`, stays within the inputs and the region, and all of the region that is kept
afterwards has been written: what it contained before does not matter. -/
theorem C44_gather (w n : Nat) (slices : List Bytes) (buf : Bytes) (m : Vec) (hw : 0 < w) (hne : slices ≠ []) (hl : ∀ s ∈ slices, n * w ≤ s.length) :
    fillUninit buf (slices.length * (n * w)) m (Zipper.storeGather w slices (n * w) (slices.length * (n * w))) =
      some (buf ++ Spec.zip w (slices.map (List.take (n * w)))) := by
  obtain ⟨m', h1, h2⟩ := Zipper.storeRows_spec w (slices.length * (n * w)) n (slices.map fun s => (s, 0)) 0 m (by
    intro x hx
    obtain ⟨s, hs, rfl⟩ := List.mem_map.1 hx
    simpa using hl s hs) (by simp)
  unfold fillUninit Zipper.storeGather
  rw [Zipper.stepOf_eq hw, Nat.mul_div_cancel _ hw, h1]
  simp only
  rw [if_pos (Nat.le_refl _)]
  rw [List.length_map, Nat.zero_add] at h2
  rw [h2, Zipper.gather_eq]
  have hm : minLen (slices.map (List.take (n * w))) = n * w := minLen_const _ (by simpa using hne) fun c hc => by
    obtain ⟨s, hs, rfl⟩ := List.mem_map.1 hc
    rw [List.length_take, Nat.min_eq_left (hl s hs)]
  have hz : (Vec.toBytes m 0) = [] := rfl
  rw [hz, List.nil_append, Spec.zip, hm, Nat.mul_div_cancel _ hw]
  congr 2
  refine List.flatMap_congr fun i hi => ?_
  rw [List.mem_range] at hi
  have hi' : i * w + w ≤ n * w := by
    rw [← Nat.succ_mul]
    exact Nat.mul_le_mul_right w hi
  rw [List.flatMap_map, List.flatMap_map, List.flatMap_map]
  refine List.flatMap_congr fun s _ => ?_
  simp only [List.drop_zero, List.drop_take, List.take_take]
  rw [Nat.min_eq_left (by omega)]

/-- Two words of nine bytes from two inputs, one of which is longer. -/
example (m : Vec) : fillUninit [7] 36 m (Zipper.storeGather 9 [List.replicate 18 1, List.replicate 30 2] 18 36) =
    some ([7] ++ (List.replicate 9 1 ++ List.replicate 9 2 ++ List.replicate 9 1 ++ List.replicate 9 2)) :=
  C44_gather 9 2 [List.replicate 18 1, List.replicate 30 2] [7] m (by decide) (by simp) (by decide)

/-- **C44** (`--zip`): whatever the inputs lend, `ZipStream::fill_buf` accesses only what they lend and what it has reserved, and gives what the model on lists gives. -/
theorem C44_zip_in_bounds {S : ByteSrc σ} {F M R} (hR : Serves S F M R) (B : Nat) (m : Vec) (z : Zipper σ) (req : Nat) (buf : Bytes) (hw : 0 < z.wordSize)
    (hs : ∀ s ∈ z.srcs, ∃ ph w rem, R s ph w rem) : Zipper.feedRaw S B m z req buf = Zipper.feed S B z req buf := by
  unfold Zipper.feedRaw Zipper.feed
  simp only
  cases hf : Zipper.fillAll S ((B + z.srcs.length - 1) / z.srcs.length) z.srcs true usizeMax with
  | error e => rfl
  | ok r =>
    obtain ⟨eof, len, srcs⟩ := r
    simp only
    obtain ⟨h1, _, h3⟩ := Zipper.fillAll_lends hR _ _ _ _ _ _ _ hs hf
    obtain ⟨m', g1, g2⟩ := Zipper.storeRows_spec z.wordSize (srcs.length * (len / z.wordSize * z.wordSize)) (len / z.wordSize) ((srcs.map S.slice).map fun s => (s, 0)) 0 m (by
      intro x hx
      obtain ⟨s, hs', rfl⟩ := List.mem_map.1 hx
      obtain ⟨t, ht, rfl⟩ := List.mem_map.1 hs'
      have := h3 t ht
      have := Nat.div_mul_le_self len z.wordSize
      show 0 + _ ≤ (S.slice t).length
      omega) (by simp)
    have hg : fillUninit buf (srcs.length * (len / z.wordSize * z.wordSize)) m (Zipper.storeGather z.wordSize (srcs.map S.slice) (len / z.wordSize * z.wordSize)
        (srcs.length * (len / z.wordSize * z.wordSize))) = some (buf ++ Zipper.gather z.wordSize (len / z.wordSize) (srcs.map S.slice)) := by
      unfold fillUninit Zipper.storeGather
      rw [Zipper.stepOf_eq hw, Nat.mul_div_cancel _ hw, g1]
      simp only [List.length_map]
      rw [if_pos (Nat.le_refl _)]
      rw [List.length_map, List.length_map, Nat.zero_add] at g2
      rw [g2]
      simp only [List.map_map]
      rfl
    rw [hg, Nat.mul_div_cancel _ hw]
    rfl

theorem zrel_mem {R : σ → Phase → Nat → Bytes → Prop} : ∀ {srcs : List σ} {μ : Nat} {rs : List Bytes}, Zipper.ZRel R srcs μ rs → ∀ s ∈ srcs, ∃ ph w rem, R s ph w rem
  | [], _, _, _, s, hs => absurd hs (by simp)
  | t :: srcs, _, _, h, s, hs => by
    obtain ⟨ph, w, r, rs, μ', _, hr, hz, _⟩ := h
    rcases List.mem_cons.1 hs with rfl | hs
    · exact ⟨_, w, r, hr⟩
    · exact zrel_mem hz s hs

/-- **C44** with C03: `--zip` with its raw copies, whatever the memory contains, carries the word-wise interleaving of the inputs. -/
theorem C44_zip_interleaves {S : ByteSrc σ} {F M} (B fuel word : Nat) (m : Vec) (hB : 0 < B) (hw : 0 < word) (srcs : List σ) (cs : List (Nat × Bytes))
    (h : List.Forall₂ (fun s c => Delivers S F M s c.1 c.2) srcs cs) (hne : srcs ≠ []) (hlen : ∀ c ∈ cs, c.2.length ≤ usizeMax) (hf : (cs.map Prod.fst).sum < fuel) :
    Reads (bufferedSrc B fuel (Zipper.feedRaw S B m)) F (ZipStream.new B srcs word) (Spec.zip word (cs.map Prod.snd)) := by
  have h' : List.Forall₂ (fun s c => Live S F M s (.idle 1) c.1 c.2) srcs cs := h
  have hp : Produces (Zipper.feedRaw S B m) F (fun z _ => Zipper.P (Live S F M) word z) (fun _ => True) := by
    intro z μ p req buf hz
    rw [C44_zip_in_bounds Live.faithful.serves B m z req buf (by rw [hz.1]; exact hw) (by
      obtain ⟨rs, hr, _⟩ := hz.2.2
      exact zrel_mem hr)]
    exact Zipper.feed_produces Live.faithful B word hw z μ p req buf hz
  refine (buffered_delivers' hp hB ⟨rfl, hne, _, Zipper.zrel_of_forall h', rfl, ?_⟩ hf).reads
  intro r hr
  simp only [List.mem_map] at hr
  obtain ⟨c, hc, rfl⟩ := hr
  exact hlen c hc

/-- Two inputs of three and six bytes, words of two bytes. -/
example (m : Vec) : Reads (bufferedSrc 2 100 (Zipper.feedRaw (RawStream.byteSrc 2 100) 2 m)) (IoErr [fun _ => some 1, fun _ => some 2])
    (ZipStream.new 2 (rawStreams 2 2 0 [([1, 2, 3], fun _ => some 1), ([4, 5, 6, 7, 8, 9], fun _ => some 2)]) 2) [1, 2, 4, 5, 3, 0, 6, 7] :=
  C44_zip_interleaves 2 100 2 m (by decide) (by decide) _ _
    (rawStreams_deliver 2 100 2 0 [([1, 2, 3], fun _ => some 1), ([4, 5, 6, 7, 8, 9], fun _ => some 2)] (by decide) (by decide) (by decide)) (by decide) (by decide) (by decide)

/-! ### The array parsers -/

/-- **C44** (the array parsers): on a text of at least 208 bytes, whatever it is, every build loads bytes of the text only and stores within the 64 bytes reserved, and all of what is kept has been
written. -/
theorem C44_array_stores (I : Impl) (isInTail : Bool) (src buf : Bytes) (m : Vec) (h : 208 ≤ src.length) :
    I.fillBody isInTail src buf m = some ((I.body isInTail src).map fun r => (r.1, buf ++ r.2)) := by
  cases I with
  | portable =>
    unfold Impl.fillBody Impl.storeBody
    show _ = some ((parseHexBody isInTail src).map _)
    cases hb : parseHexBody isInTail src with
    | none => rfl
    | some r =>
      obtain ⟨r, d⟩ := r
      have hlen : d.length ≤ 64 := by
        unfold parseHexBody at hb
        simp only at hb
        split at hb
        · cases hb; simp
        · split at hb
          · cases hb
          · rename_i d' hd'
            cases hb
            have h1 := parseCols_length _ _ hd'
            have hq : ∀ q : Byte → Bool, List.findIdx q (List.take WINDOW src) ≤ 192 := fun q =>
              Nat.le_trans List.findIdx_le_length (by rw [List.length_take]; exact Nat.min_le_left _ _)
            rw [List.length_take] at h1
            have h2 := Nat.le_trans h1 (Nat.add_le_add_right (Nat.le_trans (Nat.min_le_left _ _) (Nat.le_trans (Nat.min_le_right _ _) (hq _))) 2)
            omega
      simp only
      rw [put_some _ _ (show 0 + d.length ≤ 64 by omega)]
      simp only
      rw [if_pos hlen]
      simp only [Option.map_some]
      congr 4
      apply List.ext_getElem?
      intro i
      by_cases hi : i < d.length
      · simp [Vec.toBytes, hi, Vec.const]
      · rw [List.getElem?_eq_none (by simp [Vec.toBytes]; omega), List.getElem?_eq_none (by omega)]
  | avx2 =>
    have hl : ∀ p k i, Vec.load src (p + k) i = chunk src p (k + i) := fun p k i => by
      show src.getD _ _ = src.getD _ _
      rw [Nat.add_assoc]
    have hm := fun p n => Avx2.multiRaw_eq (Vec.load src p) (Vec.load src (p + 12)) (Vec.load src (p + 24)) (Vec.load src (p + 36)) n
    have key := simdStores_spec (src := src) (reach := 52) (cap := 64) (find := fun p => Avx2.findDelim (Vec.load src p) (Vec.load src (p + 12)) (Vec.load src (p + 24)) (Vec.load src (p + 36)))
      (fun p c => ?_) hm (fun p n d hn hs => ?_) 4 0 isInTail 0 0 0 m (fun _ => by omega) (by omega)
    · unfold Impl.fillBody Impl.storeBody
      show _ = some ((Avx2.parseBody isInTail src).map _)
      unfold Avx2.parseBody
      simp only
      rcases key with ⟨h1, h2⟩ | ⟨r, k, m', h0, h1, h2⟩
      · rw [show (Vec.toBytes m 0) = [] from rfl] at h1
        rw [h1, h2]
        rfl
      · rw [show (Vec.toBytes m 0) = [] from rfl] at h1
        rw [h1, h2]
        simp only
        rw [if_pos (by omega)]
        rfl
    · rw [Avx2.findDelim_eq (Vec.load src p) _ _ _ (chunk src p) c (fun i _ => rfl) (fun i _ => hl p 12 i) (fun i _ => hl p 24 i) (fun i _ => hl p 36 i)]
      exact (refFind_spec _ c).1
    · rw [Avx2.parseMulti_eq (Vec.load src p) _ _ _ (chunk src p) n hn (fun i _ => rfl) (fun i _ => hl p 12 i) (fun i _ => hl p 24 i) (fun i _ => hl p 36 i)] at hs
      exact refMulti_length _ _ _ hs
  | neon =>
    have hl : ∀ p k i, Neon.loadN 3 src p k i = chunk src p (3 * i + k) := fun p k i => by
      show src.getD _ _ = src.getD _ _
      rw [Nat.add_assoc]
    have hm := fun p n => Neon.multiRaw_eq (Neon.loadN 3 src p 0) (Neon.loadN 3 src p 1) (Neon.loadN 3 src p 2) n
    have key := simdStores_spec (src := src) (reach := 48) (cap := 64) (find := fun p => Neon.findDelim (Neon.loadN 3 src p 0) (Neon.loadN 3 src p 1) (Neon.loadN 3 src p 2))
      (fun p c => ?_) hm (fun p n d hn hs => ?_) 4 0 isInTail 0 0 0 m (fun _ => by omega) (by omega)
    · unfold Impl.fillBody Impl.storeBody
      show _ = some ((Neon.parseBody isInTail src).map _)
      unfold Neon.parseBody
      simp only
      rcases key with ⟨h1, h2⟩ | ⟨r, k, m', h0, h1, h2⟩
      · rw [show (Vec.toBytes m 0) = [] from rfl] at h1
        rw [h1, h2]
        rfl
      · rw [show (Vec.toBytes m 0) = [] from rfl] at h1
        rw [h1, h2]
        simp only
        rw [if_pos (by omega)]
        rfl
    · rw [Neon.findDelim_eq _ _ _ (chunk src p) c (fun i _ => hl p 0 i) (fun i _ => hl p 1 i) (fun i _ => hl p 2 i)]
      exact (refFind_spec _ c).1
    · rw [Neon.parseMulti_eq _ _ _ (chunk src p) n hn (fun i _ => hl p 0 i) (fun i _ => hl p 1 i) (fun i _ => hl p 2 i)] at hs
      exact refMulti_length _ _ _ hs

/-- Two bytes. -/
example (I : Impl) (m : Vec) : I.fillBody false ([52, 56, 32, 98, 49] ++ List.replicate 203 10) [1] m = some (some ((5, 5), [1, 0x48, 0xb1])) := by
  rw [C44_array_stores I _ _ _ m (by decide +kernel)]
  cases I <;> decide +kernel

/-- With less than 196 bytes the loads of AVX2 are outside of the text. -/
example : Impl.avx2.fillBody true (List.replicate 195 32) [] (Vec.const []) = none := by decide +kernel

/-- **C44** (lines): while the array of a line is parsed, every access is within the bytes that are lent with their margin of 256 and within the memory reserved: an array parser that does anything
at all (`g`) when an access is not gives the same result. -/
theorem C44_lines_in_bounds (I : Impl) (m : Vec) (g : Option ((Nat × Nat) × Bytes)) (fuel : Nat) (stream : Bytes) (len : Nat) (isInTail : Bool) (buf : Bytes) (h : len + 256 ≤ stream.length) :
    bodyLoop (fun t src => (I.fillBody t src [] m).getD g) fuel stream len isInTail buf = bodyLoop I.body fuel stream len isInTail buf := by
  refine C35_array_in_bounds I _ (fun t src hs => ?_) fuel stream len isInTail buf h
  rw [C44_array_stores I t src [] m hs]
  cases I.body t src <;> rfl

/-- A text with its margin. -/
example (I : Impl) (m : Vec) (text : Bytes) (fuel : Nat) (isInTail : Bool) : bodyLoop (fun t src => (I.fillBody t src [] m).getD (some ((0, 0), [66]))) fuel (text ++ List.replicate 256 10) text.length isInTail [] =
    bodyLoop I.body fuel (text ++ List.replicate 256 10) text.length isInTail [] :=
  C44_lines_in_bounds I m _ fuel _ _ isInTail [] (by rw [List.length_append, List.length_replicate]; exact Nat.le_refl _)

/-! ### The lines of error messages -/

/-- **C44** (`LineCache::append`): whenever the text parser has something to read, the 32 bytes that are copied are lent. -/
theorem C44_append {S : ByteSrc σ} {F R} (hR : Serves S F AnyMargin R) (s s' : σ) (ph : Phase) (w : Nat) (rem : Bytes) (req : Nat) (eof : Bool) (n : Nat) (c : LineCache) (hr : R s ph w rem)
    (hf : S.fill s req = .ok ((eof, n), s')) (hn : ¬ (eof = true ∧ n = 0)) : ∃ c', c.append (S.slice s') = some c' := by
  rcases hR.fill s ph w rem req hr with ⟨e, _, he⟩ | ⟨x, n', w', t, he, _, _, hsl, _, hlb, _⟩
  · rw [hf] at he
    cases he
  · rw [hf] at he
    cases he
    have h0 : 0 < n := by
      cases eof
      · exact (hlb rfl).1
      · have : ¬ n = 0 := fun h => hn ⟨rfl, h⟩
        omega
    obtain ⟨m, hm, hs⟩ := hsl h0
    have : 256 ≤ m.length := hm
    exact c.append_some (by rw [hs, List.length_append]; omega)

/-- What a message says of a line `l` the first 32 bytes of which are the characters `cs`. -/
def shown (l : Bytes) (cs : List Char) : Bytes :=
  if l = [] then bytes! "(none)"
  else if l.length < 32 then bytes! "\"" ++ l ++ bytes! "\""
  else bytes! "\"" ++ utf8 cs.dropLast ++ bytes! "...\""

theorem quote_shown {l rest : Bytes} {cs : List Char} (hl : 10 ∉ l) (h32 : 32 ≤ (l ++ 10 :: rest).length) (hcs : l.take 32 = utf8 cs) :
    LineCache.quote ((l ++ 10 :: rest).take 32) = some (shown l cs) := by
  rw [LineCache.quote_line hl h32]
  unfold shown
  split
  · rfl
  · rename_i h0
    rw [hcs, utf8Valid_utf8, if_pos rfl]
    by_cases hc : 32 ≤ l.length
    · rw [if_pos hc, if_neg (by omega)]
      have hne : cs ≠ [] := by
        intro h
        rw [h] at hcs
        have := congrArg List.length hcs
        rw [List.length_take, Nat.min_eq_left hc] at this
        exact absurd this (by decide)
      have hp := LineCache.pop_utf8 [34] cs.dropLast (cs.getLast hne)
      rw [List.dropLast_append_getLast hne] at hp
      rw [hp]
      simp
    · rw [if_neg hc, if_pos (by omega)]

/-- **C44, partial** (`LineCache::format`): if the first 32 bytes of a line are UTF-8, a message shows the line, or all but the last of the characters in its first 32 bytes, and with the line before
it if that is asked for.

Missing: if they are not, what the message contains is undefined (`C44_utf8_counterexample`). -/
theorem C44_message_partial (c c1 c2 : LineCache) (l1 l2 rest1 rest2 : Bytes) (cs1 cs2 : List Char) (h1 : 10 ∉ l1) (h2 : 10 ∉ l2) (hcs1 : l1.take 32 = utf8 cs1) (hcs2 : l2.take 32 = utf8 cs2)
    (ha1 : c.append (l1 ++ 10 :: rest1) = some c1) (ha2 : c1.append (l2 ++ 10 :: rest2) = some c2) :
    c1.format false = some (shown l1 cs1) ∧ c2.format false = some (shown l2 cs2) ∧ c2.format true = some (shown l1 cs1 ++ bytes! " and " ++ shown l2 cs2) := by
  have hlen : ∀ {c c' : LineCache} {s : Bytes}, c.append s = some c' → 32 ≤ s.length := fun h => by
    unfold LineCache.append at h
    split at h
    · assumption
    · cases h
  have g1 := (LineCache.format_append ha1).1
  have g2 := LineCache.format_append ha2
  rw [quote_shown h1 (hlen ha1) hcs1] at g1
  rw [quote_shown h2 (hlen ha2) hcs2, g1] at g2
  exact ⟨g1, g2.1, g2.2⟩

/-- A line of printable ASCII characters, as the text of a patch should be, meets the condition. -/
theorem C44_ascii (l : Bytes) (h : ∀ b ∈ l, b < 128) : ∃ cs, l.take 32 = utf8 cs := ⟨_, (utf8_ascii _ fun b hb => h b (List.mem_of_mem_take hb)).symm⟩

/-- A short line and one of 40 bytes. -/
example : ∃ c1 c2, LineCache.new.append ((bytes! "0 1 ! zz") ++ 10 :: List.replicate 256 10) = some c1 ∧ c1.append (List.replicate 40 97 ++ 10 :: List.replicate 256 10) = some c2 ∧
    c2.format true = some (bytes! "\"0 1 ! zz\" and \"aaaaaaaaaaaaaaaaaaaaaaaaaaaaaaa...\"") := by
  obtain ⟨c1, h1⟩ := LineCache.new.append_some (s := (bytes! "0 1 ! zz") ++ 10 :: List.replicate 256 10) (by decide +kernel)
  obtain ⟨c2, h2⟩ := c1.append_some (s := List.replicate 40 97 ++ 10 :: List.replicate 256 10) (by decide +kernel)
  refine ⟨c1, c2, h1, h2, ?_⟩
  exact (C44_message_partial LineCache.new c1 c2 _ _ _ _ (chars! "0 1 ! zz") (List.replicate 32 'a') (by decide +kernel) (by decide +kernel) (by decide +kernel) (by decide +kernel) h1 h2).2.2

/-- **Counterexample** (messages): the line `0 1 ! aaaaaaaaaaaaaaaaaaaaaaaaaé` is UTF-8 but its 32nd byte is the first of the two of `é`; `0 1 ! ` and the byte `ff` is not UTF-8.  Parsing fails with a
message in both cases, and `from_utf8_unchecked` gets bytes that are not UTF-8. -/
theorem C44_utf8_counterexample :
    ∃ l1 l2 : Bytes, l1 = (bytes! "0 1 ! aaaaaaaaaaaaaaaaaaaaaaaaa") ++ utf8 ['é'] ∧ utf8Valid l1 = true ∧ l2 = (bytes! "0 1 ! ") ++ [0xff] ∧
    ∀ l ∈ [l1, l2], (∀ I : Impl, readAll (fileParser I 2000 1000 .hex .hex) 5 (openText 2000 0 (l ++ [10]) fun _ => some 2000) = ([], some .parse)) ∧
      (LineCache.new.append (l ++ 10 :: List.replicate 256 10)).map (fun c => c.format false) = some none := by
  refine ⟨_, _, rfl, by decide +kernel, rfl, ?_⟩
  intro l hl
  rcases List.mem_cons.1 hl with rfl | hl
  · exact ⟨fun I => by cases I <;> decide +kernel, by decide +kernel⟩
  · rcases List.mem_cons.1 hl with rfl | hl
    · exact ⟨fun I => by cases I <;> decide +kernel, by decide +kernel⟩
    · exact absurd hl (by simp)

/-! ### The tests of `LineCache` -/

/-- `test_line_cache` (`src/text/parser/mod.rs` 303-334): the lines appended, and what is formatted then without and with the line before. -/
def cacheTests : List (Bytes × Bytes × Bytes) :=
  [(bytes! "abcde\n                          ", bytes! "\"abcde\"", bytes! "(none) and \"abcde\""),
   (bytes! "fghij\n                          ", bytes! "\"fghij\"", bytes! "\"abcde\" and \"fghij\""),
   (bytes! "abcde\n                          ", bytes! "\"abcde\"", bytes! "\"fghij\" and \"abcde\""),
   (bytes! "fghij\n                          ", bytes! "\"fghij\"", bytes! "\"abcde\" and \"fghij\""),
   (bytes! "abcdefghijklmnopqrstuvwxyz01234\n", bytes! "\"abcdefghijklmnopqrstuvwxyz01234\"", bytes! "\"fghij\" and \"abcdefghijklmnopqrstuvwxyz01234\""),
   (bytes! "abcdefghijklmnopqrstuvwxyz012345\n", bytes! "\"abcdefghijklmnopqrstuvwxyz01234...\"",
    bytes! "\"abcdefghijklmnopqrstuvwxyz01234\" and \"abcdefghijklmnopqrstuvwxyz01234...\"")]

/-- The tests pass. -/
def cachePasses : List (Bytes × Bytes × Bytes) → LineCache → Bool
  | [], _ => true
  | (s, a, b) :: rest, c =>
    match c.append s with
    | none => false
    | some c => decide (c.format false = some a) && decide (c.format true = some b) && cachePasses rest c

example : LineCache.new.format false = some (bytes! "(none)") ∧ LineCache.new.format true = some (bytes! "(none) and (none)") ∧ cachePasses cacheTests LineCache.new = true := by decide +kernel

end Nd.Props
