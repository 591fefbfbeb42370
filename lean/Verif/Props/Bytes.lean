import Verif.Proof.Byte
import Verif.Proof.Cat
import Verif.Proof.Zip
import Verif.Proof.Clip
/-!
# C01–C04, C08: byte streams

Each theorem is of the form "the component's stream `Reads` the specified byte list": every client sees
exactly that list (safety) and gets all of it in finitely many rounds (liveness).
`B` is `BLOCK_SIZE`, `fuel` bounds the loops of the model; the hypotheses on `fuel` only say that it is
large enough, so the theorems include termination of those loops.
-/
namespace Nd.Props
open Nd

/-- The errors a set of input files can cause: an I/O error, if some `read()` call fails. -/
def IoErr (scheds : List (Nat → Option Nat)) : Err → Prop := fun e => e = .io ∧ ∃ s ∈ scheds, ∃ i, s i = none

theorem padLen_eq (n len : Nat) (hn : 0 < n) : padLen n len = (n - len % n) % n := by
  unfold padLen
  have h1 := Nat.div_add_mod len n
  have h2 := Nat.mod_lt len hn
  generalize hq : len / n = q at h1
  generalize hr : len % n = r at h1 h2
  have hc : n * q = q * n := Nat.mul_comm n q
  by_cases h0 : r = 0
  · subst h0
    have : (len + n - 1) / n = q := by
      have : len + n - 1 = (n - 1) + q * n := by omega
      rw [this, Nat.add_mul_div_right _ _ hn, Nat.div_eq_of_lt (by omega)]; omega
    rw [this, Nat.sub_zero, Nat.mod_self]; omega
  · have : (len + n - 1) / n = q + 1 := by
      have : len + n - 1 = (r - 1) + (q + 1) * n := by rw [Nat.succ_mul]; omega
      rw [this, Nat.add_mul_div_right _ _ hn, Nat.div_eq_of_lt (by omega)]; omega
    rw [this, Nat.mod_eq_of_lt (by omega : n - r < n), Nat.succ_mul]; omega

theorem raw_delivers (B fuel align : Nat) (filler : Byte) (content : Bytes) (sched : Nat → Option Nat)
    (hB : 0 < B) (ha : 0 < align) (hf : content.length < fuel) :
    Delivers (RawStream.byteSrc B fuel) (IoErr [sched]) NlMargin
      (RawStream.new B (Reader.open content sched) align filler) content.length (Spec.alignTo align filler content) := by
  have := buffered_delivers (raw_produces B hB sched) (B := B) (fuel := fuel) (align := align) (filler := filler)
    (t := Reader.open content sched) (w := content.length) (p := content) hB ha ⟨rfl, rfl, Nat.le_refl _⟩ hf
  rw [padLen_eq _ _ ha] at this
  exact this.mono (fun e h => ⟨h.1, sched, by simp, h.2⟩) (fun _ h => h)

/-- **C01**: one input file, whatever the sizes `read()` returns (`sched`), is read back exactly and padded
with filler bytes to a multiple of `align`. -/
theorem C01_file_read_exactly (B fuel align : Nat) (filler : Byte) (content : Bytes) (sched : Nat → Option Nat)
    (hB : 0 < B) (ha : 0 < align) (hf : content.length < fuel) :
    Reads (RawStream.byteSrc B fuel) (IoErr [sched]) (RawStream.new B (Reader.open content sched) align filler)
      (Spec.alignTo align filler content) :=
  (raw_delivers B fuel align filler content sched hB ha hf).reads

/-- Five bytes read two at a time with block size 3, aligned to 4. -/
example : Reads (RawStream.byteSrc 3 6) (IoErr [fun _ => some 2])
    (RawStream.new 3 (Reader.open [1, 2, 3, 4, 5] fun _ => some 2) 4 0xff) [1, 2, 3, 4, 5, 0xff, 0xff, 0xff] :=
  C01_file_read_exactly 3 6 4 0xff [1, 2, 3, 4, 5] _ (by decide) (by decide) (by decide)

/-- The padded length is a multiple of the alignment and fewer than `align` bytes are added. -/
theorem C01_alignment (align : Nat) (filler : Byte) (content : Bytes) (ha : 0 < align) :
    align ∣ (Spec.alignTo align filler content).length ∧
    (Spec.alignTo align filler content).length < content.length + align := by
  have h2 := Nat.mod_lt content.length ha
  have h1 := Nat.div_add_mod content.length align
  simp only [Spec.alignTo, List.length_append, List.length_replicate]
  by_cases h0 : content.length % align = 0
  · rw [h0, Nat.sub_zero, Nat.mod_self]
    exact ⟨Nat.dvd_of_mod_eq_zero h0, by omega⟩
  · rw [Nat.mod_eq_of_lt (by omega : align - content.length % align < align)]
    refine ⟨⟨content.length / align + 1, ?_⟩, by omega⟩
    rw [Nat.mul_succ]; omega

/-- Inputs given as (content, read schedule). -/
abbrev Files := List (Bytes × (Nat → Option Nat))

/-- The raw streams nd opens for the inputs (`build_sources` and `Pipeline::spawn_stream`,
`src/main.rs` 192-203 and `src/pipeline.rs` 343-361). -/
def rawStreams (B align : Nat) (filler : Byte) (files : Files) : List (Buffered Reader) :=
  files.map fun f => RawStream.new B (Reader.open f.1 f.2) align filler

theorem rawStreams_deliver (B fuel align : Nat) (filler : Byte) (files : Files) (hB : 0 < B) (ha : 0 < align)
    (hf : ∀ f ∈ files, f.1.length < fuel) :
    List.Forall₂ (fun s c => Delivers (RawStream.byteSrc B fuel) (IoErr (files.map Prod.snd)) NlMargin s c.1 c.2)
      (rawStreams B align filler files) (files.map fun f => (f.1.length, Spec.alignTo align filler f.1)) := by
  unfold rawStreams
  rw [List.forall₂_map_left_iff, List.forall₂_map_right_iff, List.forall₂_same]
  intro f hm
  refine (raw_delivers B fuel align filler f.1 f.2 hB ha (hf f hm)).mono ?_ (fun _ h => h)
  rintro e ⟨h1, s, hs, h2⟩
  simp only [List.mem_singleton] at hs
  exact ⟨h1, s, by rw [hs]; exact List.mem_map.2 ⟨f, hm, rfl⟩, h2⟩

/-- How much fuel is enough for reading `files` (a bound, not tight). -/
def enough (align : Nat) (files : Files) : Nat := (files.map fun f => 2 * f.1.length + align + 1).sum

theorem le_enough (align : Nat) (files : Files) : ∀ f ∈ files, f.1.length ≤ enough align files := by
  induction files with
  | nil => simp
  | cons g files ih =>
    intro f hf
    simp only [enough, List.map_cons, List.sum_cons] at ih ⊢
    rcases List.mem_cons.1 hf with h | h
    · subst h; omega
    · have := ih f h; omega

theorem cat_delivers (B fuel align : Nat) (filler : Byte) (files : Files) (hB : 0 < B) (ha : 0 < align)
    (hf : enough align files < fuel) :
    Delivers (CatStream.byteSrc (RawStream.byteSrc B fuel) B fuel) (IoErr (files.map Prod.snd)) AnyMargin
      (CatStream.new B (rawStreams B align filler files)) (enough align files)
      (Spec.cat (files.map fun f => Spec.alignTo align filler f.1)) := by
  have hle : CatStream.fills (files.map fun f => (f.1.length, Spec.alignTo align filler f.1)) ≤ enough align files := by
    simp only [CatStream.fills, enough, List.map_map]
    clear hf
    induction files with
    | nil => simp
    | cons g files ih =>
      have := (C01_alignment align filler g.1 ha).2
      simp only [List.map_cons, List.sum_cons, Function.comp] at ih ⊢
      omega
  have := CatStream.delivers (fun _ => NlMargin.any) hB
    (rawStreams_deliver B fuel align filler files hB ha (fun f h => Nat.lt_of_le_of_lt (le_enough align files f h) hf)) (fuel := fuel) (by omega)
  have := this.weaken hle
  simpa [Spec.cat, Function.comp_def] using this

/-- **C02**: `--cat N` carries the concatenation of all (aligned) inputs, for every number of inputs, every
content and every read schedule. -/
theorem C02_cat_concatenates (B fuel align : Nat) (filler : Byte) (files : Files) (hB : 0 < B) (ha : 0 < align)
    (hf : enough align files < fuel) :
    Reads (CatStream.byteSrc (RawStream.byteSrc B fuel) B fuel) (IoErr (files.map Prod.snd))
      (CatStream.new B (rawStreams B align filler files))
      (Spec.cat (files.map fun f => Spec.alignTo align filler f.1)) :=
  (cat_delivers B fuel align filler files hB ha hf).reads

/-- **C02** for arbitrary sources that respect the protocol. -/
theorem C02_cat_any_sources {S : ByteSrc σ} {F M} (hM : ∀ m, M m → AnyMargin m) (B fuel : Nat) (hB : 0 < B)
    (srcs : List σ) (cs : List (Nat × Bytes)) (h : List.Forall₂ (fun s c => Delivers S F M s c.1 c.2) srcs cs)
    (hf : CatStream.fills cs < fuel) :
    Reads (CatStream.byteSrc S B fuel) F (CatStream.new B srcs) (Spec.cat (cs.map Prod.snd)) :=
  (CatStream.delivers hM hB h hf).reads

/-- Three inputs, one of them empty, read one and two bytes at a time. -/
example : Reads (CatStream.byteSrc (RawStream.byteSrc 2 100) 2 100) (IoErr [fun _ => some 1, fun _ => some 2, fun _ => some 1])
    (CatStream.new 2 (rawStreams 2 2 0 [([1, 2, 3], fun _ => some 1), ([], fun _ => some 2), ([4], fun _ => some 1)]))
    [1, 2, 3, 0, 4, 0] :=
  C02_cat_concatenates 2 100 2 0 [([1, 2, 3], fun _ => some 1), ([], fun _ => some 2), ([4], fun _ => some 1)] (by decide) (by decide) (by decide)

theorem zip_delivers (B fuel word : Nat) (filler : Byte) (files : Files) (hB : 0 < B) (hw : 0 < word) (hne : files ≠ [])
    (hlen : ∀ f ∈ files, f.1.length + word ≤ usizeMax) (hf : enough word files < fuel) :
    Delivers (ZipStream.byteSrc (RawStream.byteSrc B fuel) B fuel) (IoErr (files.map Prod.snd)) NlMargin
      (ZipStream.new B (rawStreams B word filler files) word) (enough word files)
      (Spec.zip word (files.map fun f => Spec.alignTo word filler f.1)) := by
  have hle : ((files.map fun f => (f.1.length, Spec.alignTo word filler f.1)).map Prod.fst).sum ≤ enough word files := by
    simp only [enough, List.map_map]
    clear hf hlen hne
    induction files with
    | nil => simp
    | cons g files ih =>
      simp only [List.map_cons, List.sum_cons, Function.comp] at ih ⊢
      omega
  have := ZipStream.delivers hB hw
    (rawStreams_deliver B fuel word filler files hB hw (fun f h => Nat.lt_of_le_of_lt (le_enough word files f h) hf)) (fuel := fuel)
    (by simpa [rawStreams] using hne) (by
      intro c hc
      simp only [List.mem_map] at hc
      obtain ⟨f, hf, rfl⟩ := hc
      have h1 := hlen f hf
      have h2 := (C01_alignment word filler f.1 hw).2
      simp only; omega) (by omega)
  have := this.weaken hle
  simpa [Function.comp_def] using this

/-- **C03**: `--zip N` carries the word-wise interleaving of the (aligned) inputs up to the shortest one. -/
theorem C03_zip_interleaves (B fuel word : Nat) (filler : Byte) (files : Files) (hB : 0 < B) (hw : 0 < word) (hne : files ≠ [])
    (hlen : ∀ f ∈ files, f.1.length + word ≤ usizeMax) (hf : enough word files < fuel) :
    Reads (ZipStream.byteSrc (RawStream.byteSrc B fuel) B fuel) (IoErr (files.map Prod.snd))
      (ZipStream.new B (rawStreams B word filler files) word)
      (Spec.zip word (files.map fun f => Spec.alignTo word filler f.1)) :=
  (zip_delivers B fuel word filler files hB hw hne hlen hf).reads

/-- **C03** for arbitrary sources that respect the protocol. -/
theorem C03_zip_any_sources {S : ByteSrc σ} {F M} (B fuel word : Nat) (hB : 0 < B) (hw : 0 < word)
    (srcs : List σ) (cs : List (Nat × Bytes)) (h : List.Forall₂ (fun s c => Delivers S F M s c.1 c.2) srcs cs)
    (hne : srcs ≠ []) (hlen : ∀ c ∈ cs, c.2.length ≤ usizeMax) (hf : (cs.map Prod.fst).sum < fuel) :
    Reads (ZipStream.byteSrc S B fuel) F (ZipStream.new B srcs word) (Spec.zip word (cs.map Prod.snd)) :=
  (ZipStream.delivers hB hw h hne hlen hf).reads

/-- Two inputs of three and six bytes, words of two bytes. -/
example : Reads (ZipStream.byteSrc (RawStream.byteSrc 2 100) 2 100) (IoErr [fun _ => some 1, fun _ => some 2])
    (ZipStream.new 2 (rawStreams 2 2 0 [([1, 2, 3], fun _ => some 1), ([4, 5, 6, 7, 8, 9], fun _ => some 2)]) 2)
    [1, 2, 4, 5, 3, 0, 6, 7] := by
  have := C03_zip_interleaves 2 100 2 0 [([1, 2, 3], fun _ => some 1), ([4, 5, 6, 7, 8, 9], fun _ => some 2)]
    (by decide) (by decide) (by decide) (by decide) (by decide)
  exact this

/-- The parameters the pipeline uses for `--pad N,M` (`src/pipeline.rs` 220-224). -/
theorem C04_pad_params (h t : Nat) (hh : h ≤ usizeMax) :
    ClipperParams.fromRaw (some (h, t)) (some 0) (some (0, usizeMax)) =
      .ok { pad := (h, t), clip := (0, 0), len := usizeMax } := by
  simp only [ClipperParams.fromRaw, Option.getD_some, Nat.sub_zero, Nat.add_zero, Nat.not_lt_zero, if_false,
    gt_iff_lt, ne_eq, not_true, if_neg (Nat.not_lt.2 hh)]
  simp

/-- **C04** (protocol form): the pad stage on top of any stream that respects the protocol. -/
theorem pad_delivers {S : ByteSrc σ} {F M} (hM : ∀ m, M m → AnyMargin m) (B fuel : Nat) (hB : 0 < B) (src : σ) (w : Nat)
    (content : Bytes) (hsrc : Delivers S F M src w content) (h t : Nat) (filler : Byte)
    (hlen : h + content.length + t ≤ usizeMax) (hf : ClipStream.fills w content h t + 1 < fuel)
    (params : ClipperParams) (hp : ClipperParams.fromRaw (some (h, t)) (some 0) (some (0, usizeMax)) = .ok params) :
    Delivers (ClipStream.byteSrc (ClipStream.paddedSrc S B fuel) B fuel) F AnyMargin (ClipStream.new B src params filler)
      (ClipStream.fills w content h t) (Spec.pad h t filler content) := by
  rw [C04_pad_params h t (by omega)] at hp
  cases hp
  have := ClipStream.delivers hM hB hsrc { pad := (h, t), clip := (0, 0), len := usizeMax } rfl filler hf
  simp only [List.drop_zero] at this
  rwa [List.take_of_length_le (by simp [Spec.pad]; omega)] at this

/-- **C04**: `--pad N,M` puts exactly `N` filler bytes before and `M` after the stream. -/
theorem C04_pad_exact {S : ByteSrc σ} {F M} (hM : ∀ m, M m → AnyMargin m) (B fuel : Nat) (hB : 0 < B) (src : σ) (w : Nat)
    (content : Bytes) (hsrc : Delivers S F M src w content) (h t : Nat) (filler : Byte)
    (hlen : h + content.length + t ≤ usizeMax) (hf : ClipStream.fills w content h t + 1 < fuel)
    (params : ClipperParams) (hp : ClipperParams.fromRaw (some (h, t)) (some 0) (some (0, usizeMax)) = .ok params) :
    Reads (ClipStream.byteSrc (ClipStream.paddedSrc S B fuel) B fuel) F (ClipStream.new B src params filler)
      (Spec.pad h t filler content) :=
  (pad_delivers hM B fuel hB src w content hsrc h t filler hlen hf params hp).reads

/-- Padding a two-byte file with 3 and 1 bytes. -/
example : ∃ params, ClipperParams.fromRaw (some (3, 1)) (some 0) (some (0, usizeMax)) = .ok params ∧
    Reads (ClipStream.byteSrc (ClipStream.paddedSrc (RawStream.byteSrc 2 100) 2 100) 2 100) (IoErr [fun _ => some 1])
      (ClipStream.new 2 (RawStream.new 2 (Reader.open [7, 8] fun _ => some 1) 1 0) params 0x20) [0x20, 0x20, 0x20, 7, 8, 0x20] :=
  ⟨_, C04_pad_params 3 1 (by decide),
    C04_pad_exact (fun _ => NlMargin.any) 2 100 (by decide) _ 2 [7, 8]
      (raw_delivers 2 100 1 0 [7, 8] (fun _ => some 1) (by decide) (by decide) (by decide)) 3 1 0x20 (by decide) (by decide) _
      (C04_pad_params 3 1 (by decide))⟩

/-- The documented meaning of pad, then seek, then range (`src/byte/clip.rs` 42-71). -/
def clipSpec (pad : Nat × Nat) (seek : Nat) (range : Nat × Nat) (filler : Byte) (c : Bytes) : Bytes :=
  (((Spec.pad pad.1 pad.2 filler c).drop seek).drop range.1).take (range.2 - range.1)

/-- **C04**, the general clip stage: whatever `from_raw` accepts, a `ClipStream` with those parameters
carries exactly the pad/drop/take of its parameters. -/
theorem C04_clip_stream {S : ByteSrc σ} {F M} (hM : ∀ m, M m → AnyMargin m) (B fuel : Nat) (hB : 0 < B) (src : σ) (w : Nat)
    (content : Bytes) (hsrc : Delivers S F M src w content) (filler : Byte)
    (pad : Option (Nat × Nat)) (seek : Option Nat) (range : Option (Nat × Nat)) (params : ClipperParams)
    (hp : ClipperParams.fromRaw pad seek range = .ok params)
    (hf : ClipStream.fills w content params.pad.1 params.pad.2 + 1 < fuel) :
    Reads (ClipStream.byteSrc (ClipStream.paddedSrc S B fuel) B fuel) F (ClipStream.new B src params filler)
      (((Spec.pad params.pad.1 params.pad.2 filler content).drop params.clip.1).take params.len) := by
  refine (ClipStream.delivers hM hB hsrc params ?_ filler hf).reads
  simp only [ClipperParams.fromRaw] at hp
  generalize hh : (if seek.getD 0 + (range.getD (0, usizeMax)).1 > (pad.getD (0, 0)).1 then _ else _ : Nat × Nat) = a at hp
  generalize hl : (if a.1 > _ then _ else _ : Nat × Nat) = b at hp
  split at hp
  · cases hp
  · split at hp
    · cases hp
    · cases hp; rfl

/-- **C04**, parameters, partial: `from_raw` implements pad/seek/range provided no head padding remains or
the range is unlimited.  What is missing is false: see `C04_from_raw_counterexample`. -/
theorem C04_from_raw_partial (pad : Nat × Nat) (seek : Nat) (range : Nat × Nat) (filler : Byte) (params : ClipperParams)
    (hp : ClipperParams.fromRaw (some pad) (some seek) (some range) = .ok params)
    (hcond : params.pad.1 = 0 ∨ params.len = usizeMax) (c : Bytes) (hlen : pad.1 + c.length + pad.2 ≤ usizeMax)
    (hr : range.2 ≤ usizeMax) :
    ((Spec.pad params.pad.1 params.pad.2 filler c).drop params.clip.1).take params.len = clipSpec pad seek range filler c := by
  obtain ⟨h, t⟩ := pad
  obtain ⟨a, b⟩ := range
  simp only [ClipperParams.fromRaw, Option.getD_some] at hp
  have drop_pad : ∀ k ≤ h, (Spec.pad h t filler c).drop k = Spec.pad (h - k) t filler c := by
    intro k hk
    unfold Spec.pad
    rw [List.append_assoc, List.append_assoc, List.drop_append_of_le_length (by simp; exact hk), List.drop_replicate]
  unfold clipSpec
  simp only [List.drop_drop]
  simp only at hlen hr
  by_cases h1 : seek + a > h
  · rw [if_pos h1] at hp
    simp only at hp
    have hcore : (Spec.pad h t filler c).drop (seek + a) = (Spec.pad 0 t filler c).drop (seek + a - h) := by
      have := drop_pad h (Nat.le_refl _)
      rw [Nat.sub_self] at this
      rw [← this, List.drop_drop]; congr 1; omega
    by_cases h2 : 0 > b - a
    · omega
    · rw [if_neg h2] at hp
      by_cases h3 : b - a ≠ usizeMax
      · rw [if_pos h3] at hp
        split at hp
        · cases hp
        · split at hp
          · cases hp
          · cases hp; rw [hcore]; rfl
      · rw [if_neg h3] at hp
        simp only [ne_eq, Decidable.not_not] at h3
        split at hp
        · cases hp
        · split at hp
          · cases hp
          · cases hp; rw [hcore, h3]
  · rw [if_neg h1] at hp
    simp only at hp
    rw [drop_pad (seek + a) (by omega)]
    by_cases h2 : h - (seek + a) > b - a
    · rw [if_pos h2] at hp
      split at hp
      · cases hp
      · split at hp
        · cases hp
        · cases hp
          simp only at hcond ⊢
          have : b - a = 0 := by
            rcases hcond with h0 | h0
            · exact h0
            · simp [usizeMax] at h0
          rw [this]; simp
    · rw [if_neg h2] at hp
      by_cases h3 : b - a ≠ usizeMax
      · rw [if_pos h3] at hp
        split at hp
        · cases hp
        · split at hp
          · cases hp
          · cases hp
            simp only at hcond
            rcases hcond with h0 | h0
            · simp only [h0, Nat.sub_zero, List.drop_zero]
            · omega
      · rw [if_neg h3] at hp
        simp only [ne_eq, Decidable.not_not] at h3
        split at hp
        · cases hp
        · split at hp
          · cases hp
          · cases hp; rw [h3]; rfl

/-- `Some((0, 0)), Some(15), Some(100..200)` on a long stream (cf. the unit test in `clip.rs` 132). -/
example : ∃ p, ClipperParams.fromRaw (some (40, 0)) (some 50) (some (100, 200)) = .ok p ∧
    p = { pad := (0, 0), clip := (110, 0), len := 100 } := ⟨_, rfl, by decide⟩

/-- When head padding remains in front of a limited range, `from_raw` subtracts the padding from the
length although `ClipStream` counts it: `pad 4`, range `0..6` of `"abcdefgh"` should be four fillers and
`ab`, but only two bytes in total are delivered. (Not reachable from the command line, where
`from_raw` is only used for `--pad`.) -/
theorem C04_from_raw_counterexample :
    ∃ (params : ClipperParams) (c : Bytes),
      ClipperParams.fromRaw (some (4, 0)) (some 0) (some (0, 6)) = .ok params ∧
      clipSpec (4, 0) 0 (0, 6) 0 c = [0, 0, 0, 0, 0x61, 0x62] ∧
      ((Spec.pad params.pad.1 params.pad.2 0 c).drop params.clip.1).take params.len = [0, 0] :=
  ⟨{ pad := (4, 0), clip := (0, 0), len := 2 }, [0x61, 0x62, 0x63, 0x64, 0x65, 0x66, 0x67, 0x68], by decide, by decide, by decide⟩

/-- **C08**: the copy loop writes exactly the content and stops; on failure it has written a prefix and
reports the failure. -/
theorem C08_copy_exact {S : ByteSrc σ} {F M} (B fuel : Nat) (s : σ) (w : Nat) (content : Bytes)
    (h : Delivers S F M s w content) (hf : w + 1 < fuel) :
    (consumeStream S B fuel s = (content, none)) ∨
    (∃ e out, F e ∧ consumeStream S B fuel s = (out, some e) ∧ out <+: content) := by
  obtain ⟨R, hF, hR⟩ := h
  obtain ⟨h1, h2⟩ := consumeStream_rel hF B fuel s 1 w content (Nat.le_refl _) hR (by split <;> omega)
  rcases h2 with ⟨h3, h4⟩ | ⟨e, he, h3⟩
  · left; exact Prod.ext h4 h3
  · right; exact ⟨e, _, he, Prod.ext rfl h3, h1⟩

/-- **C08**: a stream that cannot fail is copied completely. -/
theorem C08_copy_all {S : ByteSrc σ} {M} (B fuel : Nat) (s : σ) (w : Nat) (content : Bytes)
    (h : Delivers S NoErr M s w content) (hf : w + 1 < fuel) : consumeStream S B fuel s = (content, none) := by
  rcases C08_copy_exact B fuel s w content h hf with h | ⟨_, _, he, _⟩
  · exact h
  · exact he.elim

/-- Copying `--cat` of two files without read errors writes their concatenation. -/
example : consumeStream (CatStream.byteSrc (RawStream.byteSrc 2 100) 2 100) 2 100
    (CatStream.new 2 (rawStreams 2 1 0 [([1, 2, 3], fun _ => some 1), ([4], fun _ => some 7)])) = ([1, 2, 3, 4], none) := by
  refine C08_copy_all (M := AnyMargin) 2 100 _ 12 [1, 2, 3, 4] ((cat_delivers 2 100 1 0 [([1, 2, 3], fun _ => some 1), ([4], fun _ => some 7)] (by decide) (by decide) (by decide)).mono ?_ (fun _ h => h)) (by decide)
  rintro e ⟨_, s, hs, i, hi⟩
  simp only [List.map_cons, List.map_nil, List.mem_cons, List.not_mem_nil, or_false] at hs
  rcases hs with h | h <;> subst h <;> cases hi

/-- A read error in the middle of the second file: the first file and the part read before it are
written, then the error is reported. -/
example : consumeStream (CatStream.byteSrc (RawStream.byteSrc 2 100) 2 100) 2 100
    (CatStream.new 2 (rawStreams 2 1 0 [([1, 2, 3, 4], fun _ => some 2), ([5, 6], fun i => if i = 1 then none else some 1)]))
    = ([1, 2, 3, 4], some .io) := by decide +kernel

end Nd.Props
