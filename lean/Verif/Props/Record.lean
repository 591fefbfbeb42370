import Verif.Props.Bytes
import Verif.Proof.Patch
/-!
# C06 (hex input) and C07 (binary patch)

Both are stated for every record source; C10-C13 are about the text parser that provides the records.
-/
namespace Nd.Props
open Nd Nd.Spec

/-- A source that yields a given list of records, then an error if `bad`. -/
def listSrc (bad : Bool) : RecSrc (List Rec) where
  read l := if bad = true ∧ l = [] then .error .parse else .ok (l.head?, l.tail)

def ParseErr : Err → Prop := fun e => e = .parse

theorem listSrc_yields (bad : Bool) (recs : List Rec) : Yields (listSrc bad) ParseErr bad recs recs := by
  refine ⟨Eq, rfl, ?_⟩
  rintro t _ rfl
  by_cases h : bad = true ∧ t = []
  · left; exact ⟨.parse, rfl, by simp [listSrc, h]⟩
  · right; exact ⟨h, t.tail, by simp only [listSrc, if_neg h], rfl⟩

/-! ## What `place` and `splice` mean byte by byte -/

/-- Every record's array has the length its header says. -/
def Exact (recs : List Rec) : Prop := ∀ r ∈ recs, r.data.length = r.span

/-- The byte that the records prescribe for position `i`. -/
def recordByte (recs : List Rec) (i : Nat) : Option Byte :=
  recs.findSome? fun r => if r.offset ≤ i ∧ i < r.offset + r.span then r.data[i - r.offset]? else none

/-- The end of the last record. -/
def recordsEnd (recs : List Rec) : Nat := match recs.getLast? with
  | some r => r.offset + r.span
  | none => 0

theorem ordered_le : ∀ (recs : List Rec) (pos : Nat), Ordered pos recs → ∀ r ∈ recs, pos ≤ r.offset
  | [], _, _, _, h => by simp at h
  | a :: as, pos, ⟨h1, h2⟩, r, hr => by
    rcases List.mem_cons.1 hr with rfl | hr
    · exact h1
    · have := ordered_le as _ h2 r hr; omega

theorem recordByte_none {recs : List Rec} {i : Nat} (h : ∀ r ∈ recs, i < r.offset) : recordByte recs i = none := by
  unfold recordByte
  rw [List.findSome?_eq_none_iff]
  intro r hr
  have := h r hr
  rw [if_neg (by omega)]

theorem recordByte_cons (r : Rec) (rs : List Rec) (i : Nat) (h : r.data.length = r.span) :
    recordByte (r :: rs) i = if r.offset ≤ i ∧ i < r.offset + r.span then r.data[i - r.offset]? else recordByte rs i := by
  unfold recordByte
  rw [List.findSome?_cons]
  by_cases hi : r.offset ≤ i ∧ i < r.offset + r.span
  · rw [if_pos hi]
    rw [List.getElem?_eq_getElem (by omega), if_pos hi]
  · rw [if_neg hi, if_neg hi]

theorem recordsEnd_cons (r : Rec) (rs : List Rec) : recordsEnd (r :: rs) = if rs = [] then r.offset + r.span else recordsEnd rs := by
  cases rs with
  | nil => simp [recordsEnd]
  | cons a as => simp [recordsEnd, List.getLast?_cons_cons]

theorem place_length (filler : Byte) : ∀ (recs : List Rec) (pos : Nat), Ordered pos recs → Exact recs →
    pos + (place filler pos recs).length = if recs = [] then pos else recordsEnd recs
  | [], pos, _, _ => by simp [place]
  | r :: rs, pos, ⟨h1, h2⟩, he => by
    have ih := place_length filler rs (r.offset + r.span) h2 (fun x hx => he x (List.mem_cons_of_mem _ hx))
    have hr := he r (by simp)
    simp only [place, List.length_append, List.length_replicate, reduceCtorEq, if_false, recordsEnd_cons]
    rw [← ih]; omega

theorem place_getElem (filler : Byte) : ∀ (recs : List Rec) (pos i : Nat), Ordered pos recs → Exact recs →
    i < (place filler pos recs).length → (place filler pos recs)[i]? = some ((recordByte recs (pos + i)).getD filler)
  | [], pos, i, _, _, hi => by simp [place] at hi
  | r :: rs, pos, i, ⟨h1, h2⟩, he, hi => by
    have hr := he r (by simp)
    have he' : Exact rs := fun x hx => he x (List.mem_cons_of_mem _ hx)
    have hle := ordered_le rs _ h2
    rw [recordByte_cons _ _ _ hr]
    simp only [place] at hi ⊢
    simp only [List.length_append, List.length_replicate] at hi
    by_cases ha : i < r.offset - pos
    · rw [List.getElem?_append_left (by simpa using ha), List.getElem?_replicate, if_pos ha, if_neg (by omega),
        recordByte_none (fun x hx => by have := hle x hx; omega)]
      rfl
    · rw [List.getElem?_append_right (by simp; omega), List.length_replicate]
      by_cases hb : i - (r.offset - pos) < r.data.length
      · rw [List.getElem?_append_left hb, if_pos (by omega)]
        have : pos + i - r.offset = i - (r.offset - pos) := by omega
        rw [this, List.getElem?_eq_getElem hb]
        rfl
      · rw [List.getElem?_append_right (by omega), if_neg (by omega),
          place_getElem filler rs (r.offset + r.span) _ h2 he' (by omega)]
        congr 3
        omega

/-- **C06**: in the specified stream every record's bytes are at the record's offset ... -/
theorem C06_place_record (filler : Byte) (recs : List Rec) (ho : Ordered 0 recs) (he : Exact recs) (r : Rec) (hr : r ∈ recs)
    (j : Nat) (hj : j < r.span) : (place filler 0 recs)[r.offset + j]? = r.data[j]? := by
  have key : ∀ (recs : List Rec) (pos : Nat), Ordered pos recs → Exact recs → r ∈ recs →
      recordByte recs (r.offset + j) = r.data[j]? ∧ r.offset + r.span ≤ recordsEnd recs := by
    intro recs
    induction recs with
    | nil => intro _ _ _ h; simp at h
    | cons a as ih =>
      intro pos ho he hr
      have ha := he a (by simp)
      rw [recordByte_cons _ _ _ ha, recordsEnd_cons]
      rcases List.mem_cons.1 hr with rfl | hm
      · rw [if_pos (by omega)]
        refine ⟨by congr 1; omega, ?_⟩
        split
        · omega
        · rename_i hne
          have hL := ordered_le as _ ho.2
          have hp := place_length 0 as (r.offset + r.span) ho.2 (fun x hx => he x (List.mem_cons_of_mem _ hx))
          rw [if_neg hne] at hp; omega
      · have := ordered_le as _ ho.2 r hm
        obtain ⟨h1, h2⟩ := ih _ ho.2 (fun x hx => he x (List.mem_cons_of_mem _ hx)) hm
        rw [if_neg (by omega), if_neg (by rintro rfl; simp at hm)]
        exact ⟨h1, h2⟩
  obtain ⟨h1, h2⟩ := key recs 0 ho he hr
  have hlen := place_length filler recs 0 ho he
  rw [if_neg (by rintro rfl; simp at hr)] at hlen
  rw [place_getElem filler recs 0 _ ho he (by omega), Nat.zero_add, h1, List.getElem?_eq_getElem (by have := he r hr; omega)]
  rfl

/-- ... the stream ends where the last record ends, and every other byte is the filler. -/
theorem C06_place_gaps (filler : Byte) (recs : List Rec) (ho : Ordered 0 recs) (he : Exact recs) :
    (place filler 0 recs).length = recordsEnd recs ∧
    ∀ i, i < recordsEnd recs → (∀ r ∈ recs, ¬ (r.offset ≤ i ∧ i < r.offset + r.span)) → (place filler 0 recs)[i]? = some filler := by
  have hlen := place_length filler recs 0 ho he
  have hl : (place filler 0 recs).length = recordsEnd recs := by
    split at hlen
    · rename_i h; subst h; simpa [recordsEnd] using hlen
    · omega
  refine ⟨hl, fun i hi hgap => ?_⟩
  rw [place_getElem filler recs 0 i ho he (by omega)]
  have : recordByte recs (0 + i) = none := by
    unfold recordByte
    rw [List.findSome?_eq_none_iff]
    intro r hr
    rw [Nat.zero_add, if_neg (hgap r hr)]
  rw [this]; rfl

example : place 0 0 [⟨2, 3, [7, 8, 9]⟩, ⟨5, 0, []⟩, ⟨6, 1, [1]⟩] = [0, 0, 7, 8, 9, 0, 1] ∧
    Ordered 0 [⟨2, 3, [7, 8, 9]⟩, ⟨5, 0, []⟩, ⟨6, 1, [1]⟩] ∧ Exact [⟨2, 3, [7, 8, 9]⟩, ⟨5, 0, []⟩, ⟨6, 1, [1]⟩] :=
  ⟨by decide, by decide, by unfold Exact; decide⟩

/-! ## C06: the streams -/

/-- Opening succeeds unless the first line cannot be read. -/
theorem C06_open {P : RecSrc τ} {F bad} (B align : Nat) (filler : Byte) (t : τ) (recs : List Rec) (h : Yields P F bad t recs) :
    (∃ s, TextStream.new P B t align filler = .ok s) ∨ (∃ e, F e ∧ P.read t = .error e) := by
  unfold TextStream.new
  rcases TextStream.fill_holds (f := Feeder.new t) h with ⟨e, he, heq⟩ | ⟨_, f', heq, _⟩
  · right
    rcases h.read with ⟨e, he, h'⟩ | ⟨_, t', h', _⟩
    · exact ⟨e, he, h'⟩
    · simp only [Feeder.fill, Feeder.new, h'] at heq
      split at heq <;> simp_all
  · left; rw [heq]; exact ⟨_, rfl⟩

/-- **C06**: `--in-format x`: the records are placed at their offsets over filler bytes, and the whole is
padded to the alignment, for every record source, block size and client. -/
theorem C06_hex_input {P : RecSrc τ} {F} (B fuel align : Nat) (filler : Byte) (hB : 0 < B) (ha : 0 < align) (t : τ) (recs : List Rec)
    (h : Yields P F false t recs) (ho : Ordered 0 recs) (hm : ∀ r ∈ recs, r.offset < usizeMax)
    (s : Buffered (TextState τ)) (hs : TextStream.new P B t align filler = .ok s) (hf : TextStream.steps 0 recs < fuel) :
    Reads (TextStream.byteSrc P B fuel filler) F s (Spec.alignTo align filler (place filler 0 recs)) := by
  have := (TextStream.delivers hB ha h ho hm hs hf).reads
  rwa [padLen_eq _ _ ha] at this

/-- **C06**: a record that starts before the previous one ended, or a malformed line after any number of
good ones: the copy loop ends with an error, whatever the block size. -/
theorem C06_rejects_overlap {P : RecSrc τ} {F bad} (B fuel align : Nat) (filler : Byte) (hB : 0 < B) (t : τ) (recs : List Rec)
    (h : Yields P F bad t recs) (hbad : bad = true ∨ ¬ Ordered 0 recs) (hm : ∀ r ∈ recs, r.offset < usizeMax)
    (s : Buffered (TextState τ)) (hs : TextStream.new P B t align filler = .ok s) (hf : TextStream.steps 0 recs < fuel) :
    ∃ e out, (F e ∨ e = .overlap) ∧ consumeStream (TextStream.byteSrc P B fuel filler) B fuel s = (out, some e) :=
  Rejects.consumeStream B fuel s _ (TextStream.rejects hB h hbad hm hs hf) hf

/-- **C06**: with headers without offsets the arrays are concatenated. -/
theorem C06_gapless {P : RecSrc τ} {F} (B fuel align : Nat) (filler : Byte) (hB : 0 < B) (ha : 0 < align) (t : τ) (recs : List Rec)
    (h : Yields P F false t recs) (hf : recs.length < fuel) :
    Reads (GaplessTextStream.byteSrc P B fuel) F (GaplessTextStream.new B t align filler)
      (Spec.alignTo align filler (recs.map Rec.data).flatten) := by
  have := (GaplessTextStream.delivers (filler := filler) hB ha h hf).reads
  rwa [padLen_eq _ _ ha] at this

example : ∃ s, TextStream.new (listSrc false) 2 [⟨1, 2, [7, 8]⟩, ⟨7, 1, [9]⟩] 4 0 = .ok s ∧
    Reads (TextStream.byteSrc (listSrc false) 2 100 0) ParseErr s [0, 7, 8, 0, 0, 0, 0, 9] :=
  ⟨_, rfl, C06_hex_input 2 100 4 0 (by decide) (by decide) _ _ (listSrc_yields false [⟨1, 2, [7, 8]⟩, ⟨7, 1, [9]⟩])
    (by decide) (by decide) _ rfl (by decide)⟩

/-- Overlapping records: an error after the first one. -/
example : consumeStream (TextStream.byteSrc (listSrc false) 2 100 0) 2 100
    (match TextStream.new (listSrc false) 2 [⟨1, 2, [7, 8]⟩, ⟨2, 1, [9]⟩] 4 0 with | .ok s => s | .error _ => ⟨⟨Feeder.new [], 0⟩, StreamBuf.new 2⟩)
    = ([], some .overlap) := by decide +kernel

/-- A malformed first line aborts the program instead of reporting an error. -/
theorem C06_first_line_panics : TextStream.new (listSrc true) 2 [] 4 0 = .error .panic := rfl

/-! ## C07 -/

/-- **C07**: `--patch FILE`: for every stream and every record source whose records that start inside the
stream do not overlap, the result is the original with every target interval replaced, for every chunking. -/
theorem C07_patch {S : ByteSrc σ} {P : RecSrc τ} {F M bad} (B fuel : Nat) (hB : 0 < B) (src : σ) (w : Nat) (content : Bytes)
    (patch : τ) (recs : List Rec) (hsrc : Delivers S F M src w content) (hlen : content.length ≤ usizeMax)
    (h : Yields P F bad patch recs) (hok : PatchOk content.length bad 0 recs) (hm : ∀ r ∈ recs, r.offset + r.span < usizeMax)
    (s : Buffered (PatchState σ τ)) (hs : PatchStream.new P B src patch = .ok s) (hf : recs.length + w + 4 ≤ fuel) :
    Reads (PatchStream.byteSrc S P B fuel) F s (splice 0 content recs) :=
  (PatchStream.delivers hB hsrc hlen h hok hm hs hf).reads

/-- **C07**: overlapping records (or a malformed line that is reached) end the copy loop with an error. -/
theorem C07_rejects_overlap {S : ByteSrc σ} {P : RecSrc τ} {F M bad} (B fuel : Nat) (src : σ) (w : Nat) (content : Bytes)
    (patch : τ) (recs : List Rec) (hsrc : Delivers S F M src w content) (hlen : content.length ≤ usizeMax)
    (h : Yields P F bad patch recs) (hok : ¬ PatchOk content.length bad 0 recs) (hm : ∀ r ∈ recs, r.offset + r.span < usizeMax)
    (s : Buffered (PatchState σ τ)) (hs : PatchStream.new P B src patch = .ok s) (hf : recs.length + w + 4 ≤ fuel) :
    ∃ e out, (F e ∨ e = .overlap) ∧ consumeStream (PatchStream.byteSrc S P B fuel) B fuel s = (out, some e) :=
  Rejects.consumeStream B fuel s _ (PatchStream.rejects hsrc hlen h hok hm hs hf) (by omega)

/-- Records in order are acceptable, whatever their position relative to the stream. -/
theorem C07_ordered_ok (total : Nat) : ∀ (recs : List Rec) (pos : Nat), Ordered pos recs → PatchOk total false pos recs
  | [], _, _ => rfl
  | _ :: rs, _, ⟨h1, h2⟩ => ⟨h1, fun _ => C07_ordered_ok total rs _ h2⟩

/-- Two records inside the stream that overlap (or are out of order) are not acceptable. -/
theorem C07_overlap_not_ok (total : Nat) (bad : Bool) : ∀ (recs : List Rec) (pos : Nat), ¬ Ordered pos recs →
    (∀ r ∈ recs, r.offset < total) → ¬ PatchOk total bad pos recs
  | [], _, h, _ => absurd trivial h
  | r :: rs, pos, h, hin => by
    rintro ⟨h1, h2⟩
    by_cases ho : Ordered (r.offset + r.span) rs
    · exact h ⟨h1, ho⟩
    · exact C07_overlap_not_ok total bad rs _ ho (fun x hx => hin x (List.mem_cons_of_mem _ hx)) (h2 (hin r (by simp)))

/-- One record inside the stream: its interval, and nothing else, is replaced. -/
theorem C07_single (c : Bytes) (r : Rec) (h : r.offset < c.length) :
    splice 0 c [r] = c.take r.offset ++ r.data ++ c.drop (r.offset + r.span) := by
  simp [splice, h, List.append_assoc]

/-- When every array has the length of its target interval, the length does not change and the byte at
every position is the one the records prescribe, or the original one. -/
theorem C07_same_length : ∀ (recs : List Rec) (pos : Nat) (c : Bytes), Ordered pos recs → Exact recs →
    (∀ r ∈ recs, r.offset + r.span ≤ pos + c.length) →
    (splice pos c recs).length = c.length ∧ ∀ i, i < c.length → (splice pos c recs)[i]? = (recordByte recs (pos + i)).or c[i]?
  | [], pos, c, _, _, _ => ⟨rfl, fun i _ => by simp [splice, recordByte]⟩
  | r :: rs, pos, c, ⟨h1, h2⟩, he, hb => by
    have hr := he r (by simp)
    have hbr := hb r (by simp)
    have hle := ordered_le rs _ h2
    have he' : Exact rs := fun x hx => he x (List.mem_cons_of_mem _ hx)
    have hb' : ∀ x ∈ rs, x.offset + x.span ≤ r.offset + r.span + (c.drop (r.offset - pos + r.span)).length := by
      intro x hx; have := hb x (List.mem_cons_of_mem _ hx); simp; omega
    obtain ⟨ihl, ihg⟩ := C07_same_length rs (r.offset + r.span) (c.drop (r.offset - pos + r.span)) h2 he' hb'
    simp only [splice]
    by_cases hc : r.offset - pos < c.length
    · rw [if_pos hc]
      rw [List.length_drop] at ihl ihg
      refine ⟨by simp [ihl, hr]; omega, fun i hi => ?_⟩
      rw [recordByte_cons _ _ _ hr]
      by_cases ha : i < r.offset - pos
      · rw [List.getElem?_append_left (by simp; omega), List.getElem?_take_of_lt ha, if_neg (by omega),
          recordByte_none (fun x hx => by have := hle x hx; omega)]
        rfl
      · have hlt : (c.take (r.offset - pos)).length = r.offset - pos := by simp; omega
        rw [List.getElem?_append_right (by omega), hlt]
        by_cases hd : i - (r.offset - pos) < r.data.length
        · rw [List.getElem?_append_left hd, if_pos (by omega)]
          have : pos + i - r.offset = i - (r.offset - pos) := by omega
          rw [this, List.getElem?_eq_getElem hd]; rfl
        · rw [List.getElem?_append_right (by omega), if_neg (by omega), ihg _ (by omega), List.getElem?_drop]
          have e1 : r.offset + r.span + (i - (r.offset - pos) - r.data.length) = pos + i := by omega
          have e2 : r.offset - pos + r.span + (i - (r.offset - pos) - r.data.length) = i := by omega
          rw [e1, e2]
    · rw [if_neg hc]
      refine ⟨rfl, fun i hi => ?_⟩
      rw [recordByte_cons _ _ _ hr, if_neg (by omega), recordByte_none (fun x hx => by have := hle x hx; omega)]
      rfl

/-- Outside the target intervals nothing changes: the part of the stream before a record is kept as it is. -/
theorem C07_prefix_kept (c : Bytes) (r : Rec) (rs : List Rec) :
    (splice 0 c (r :: rs)).take r.offset = c.take r.offset := by
  simp only [splice, Nat.sub_zero]
  split
  · rw [List.take_append_of_le_length (by simp; omega), List.take_take, Nat.min_self]
  · rfl

/-- A replacement, an insertion, a deletion and a record beyond the end, applied to eight bytes that are read three at
a time. -/
example : ∃ s, PatchStream.new (listSrc false) 3 (RawStream.new 3 (Reader.open [0, 1, 2, 3, 4, 5, 6, 7] fun _ => some 3) 1 0)
      [⟨1, 2, [11, 12, 13]⟩, ⟨4, 0, [44]⟩, ⟨5, 2, []⟩, ⟨9, 1, [9]⟩] = .ok s ∧
    Reads (PatchStream.byteSrc (RawStream.byteSrc 3 100) (listSrc false) 3 100) (fun e => e = .io ∨ e = .parse) s [0, 11, 12, 13, 3, 44, 4, 7] := by
  refine ⟨_, rfl, C07_patch (M := NlMargin) (bad := false) 3 100 (by decide) _ 8 [0, 1, 2, 3, 4, 5, 6, 7]
    [⟨1, 2, [11, 12, 13]⟩, ⟨4, 0, [44]⟩, ⟨5, 2, []⟩, ⟨9, 1, [9]⟩]
    [⟨1, 2, [11, 12, 13]⟩, ⟨4, 0, [44]⟩, ⟨5, 2, []⟩, ⟨9, 1, [9]⟩]
    ((raw_delivers 3 100 1 0 [0, 1, 2, 3, 4, 5, 6, 7] (fun _ => some 3) (by decide) (by decide) (by decide)).mono (fun e h => Or.inl h.1) (fun _ h => h))
    (by decide) ?_ (C07_ordered_ok _ _ _ (by decide)) (by decide) _ rfl (by decide)⟩
  obtain ⟨R, h1, h2⟩ := listSrc_yields false [⟨1, 2, [11, 12, 13]⟩, ⟨4, 0, [44]⟩, ⟨5, 2, []⟩, ⟨9, 1, [9]⟩]
  refine ⟨R, h1, fun t recs h => ?_⟩
  rcases h2 t recs h with ⟨e, he, h'⟩ | h'
  · exact Or.inl ⟨e, Or.inr he, h'⟩
  · exact Or.inr h'

/-- The documentation does not mention that a record that starts at or after the end of the stream is
dropped; in particular nothing can be appended with `--patch`. -/
theorem C07_append_counterexample : splice 0 [1, 2, 3] [⟨3, 0, [4]⟩] = [1, 2, 3] := by decide

/-- Overlapping records are only noticed if the first of them starts inside the stream. -/
theorem C07_overlap_beyond_end_counterexample :
    ¬ Ordered 0 [⟨3, 2, [4]⟩, ⟨4, 1, [5]⟩] ∧ PatchOk 3 false 0 [⟨3, 2, [4]⟩, ⟨4, 1, [5]⟩] :=
  ⟨by decide, by simp [PatchOk]⟩

end Nd.Props
