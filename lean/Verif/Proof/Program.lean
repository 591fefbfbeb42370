import Verif.Model.Program
import Verif.Proof.ClipAmple
import Verif.Proof.Shot
import Verif.Proof.WholeClip
import Verif.Props.Filter
import Verif.Props.Find
import Verif.Props.Guide
import Verif.Props.Map
import Verif.Props.Merge
import Verif.Props.Pipeline
import Verif.Props.Range
import Verif.Props.OptionText
import Verif.Props.Text
import Verif.Props.WalkText
import Verif.Spec.Program
/-!
# The stages of the program
-/
namespace Nd
open Spec Props

/-- A result: an error that `F` allows, or a value with the property `P`. -/
def Results (F : Err → Prop) (r : Except Err α) (P : α → Prop) : Prop := (∃ e, F e ∧ r = .error e) ∨ ∃ x, r = .ok x ∧ P x

theorem Results.ok {F : Err → Prop} {x : α} {P : α → Prop} (h : P x) : Results F (.ok x) P := Or.inr ⟨x, rfl, h⟩

theorem Results.attempt {α : Type u} {β : Type v} {F : Err → Prop} {r : Except Err α} {P : α → Prop} {f : α → Except Err β} {Q : β → Prop} (h : Results F r P)
    (hf : ∀ x, P x → Results F (f x) Q) : Results F (Nd.attempt r f) Q := by
  rcases h with ⟨e, he, rfl⟩ | ⟨x, rfl, hx⟩
  · exact Or.inl ⟨e, he, rfl⟩
  · exact hf x hx

theorem Results.mono {F : Err → Prop} {r : Except Err α} {P Q : α → Prop} (h : Results F r P) (hPQ : ∀ x, P x → Q x) : Results F r Q := by
  rcases h with h | ⟨x, hx, hP⟩
  · exact Or.inl h
  · exact Or.inr ⟨x, hx, hPQ x hP⟩

/-- A fresh byte stream, with blocks of `B` bytes, delivers `c`, lends about an eighth of a block before its end, what it is asked for with the first fill, and everything at once if it is shorter than a block. -/
structure Carries (S : ByteSrc σ) (s : σ) (F : Err → Prop) (B w : Nat) (c : Bytes) : Prop where
  delivers : ∃ w' ≤ w, Delivers S F AnyMargin s w' c
  amply : ∃ w' ≤ w, ServesAmply S F AnyMargin ((B - 1784) / 8) s w' c
  whole : c.length < B → Whole S F s
  prompt : Prompt S B s

theorem ServesAmply.margin {S : ByteSrc σ} {F M M' L s w c} (hM : ∀ m, M m → M' m) (h : ServesAmply S F M L s w c) : ServesAmply S F M' L s w c := by
  obtain ⟨R, E, h1, h2, h3⟩ := h
  refine ⟨R, E, ⟨fun s ph w rem req hR => ?_, h1.consume⟩, h2, h3⟩
  rcases h1.fill s ph w rem req hR with he | ⟨eof, n, w', s', heq, hR', hn, hm, h1⟩
  · exact Or.inl he
  · exact Or.inr ⟨eof, n, w', s', heq, hR', hn, fun h => (hm h).imp fun m h => ⟨hM m h.1, h.2⟩, h1⟩

/-- A fresh stream with a buffer lends an eighth of a block. -/
theorem Carries.buffered {f : StreamBuf.Closure τ} {F M} (hM : ∀ m, M m → AnyMargin m) {B fuel align w : Nat} {filler : Byte} {s : Buffered τ} {c : Bytes} (hB : 0 < B)
    (hs : s.buf = StreamBuf.newWithAlign B align filler) (h : Delivers (bufferedSrc B fuel f) F M s w c) : Carries (bufferedSrc B fuel f) s F B w c := by
  obtain ⟨t, buf⟩ := s
  simp only at hs
  subst hs
  exact ⟨⟨w, Nat.le_refl _, h.mono (fun _ h => h) hM⟩, ⟨w, Nat.le_refl _, (Delivers.amply hB h).margin hM⟩, fun hl => Delivers.whole hl h, buffered_prompt B fuel align filler f t⟩

theorem Carries.le {S : ByteSrc σ} {s F B w w' c} (h : Carries S s F B w c) (hw : w ≤ w') : Carries S s F B w' c :=
  ⟨h.delivers.imp fun _ h => ⟨by omega, h.2⟩, h.amply.imp fun _ h => ⟨by omega, h.2⟩, h.whole, h.prompt⟩

/-! ## The input -/

/-- The inputs, with the number of fills and the content of each. -/
def Opened (f : StreamBuf.Closure τ) (B fuel align : Nat) (filler : Byte) (F : Err → Prop) (srcs : List (Buffered τ)) (cs : List (Nat × Bytes)) : Prop :=
  List.Forall₂ (fun s c => s.buf = StreamBuf.newWithAlign B align filler ∧ Delivers (bufferedSrc B fuel f) F NlMargin s c.1 c.2) srcs cs

/-- How often the joined stream fills, at most. -/
def joinFills (cs : List (Nat × Bytes)) : Nat := (cs.map fun c => c.1 + c.2.length + 1).sum

theorem Opened.map {f : StreamBuf.Closure τ} {B fuel align filler F srcs cs} (h : Opened f B fuel align filler F srcs cs) :
    List.Forall₂ (fun s c => Delivers (bufferedSrc B fuel f) F NlMargin s c.1 c.2) srcs cs := h.imp fun _ _ h => h.2

theorem fills_le_joinFills (cs : List (Nat × Bytes)) : CatStream.fills cs ≤ joinFills cs ∧ (cs.map Prod.fst).sum ≤ joinFills cs := by
  unfold joinFills CatStream.fills
  induction cs with
  | nil => simp
  | cons c cs ih =>
    simp only [List.map_cons, List.sum_cons] at ih ⊢
    omega

theorem sum_le_of_mem {f : α → Nat} : ∀ {l : List α} {x : α}, x ∈ l → f x ≤ (l.map f).sum
  | y :: l, x, h => by
    simp only [List.map_cons, List.sum_cons]
    rcases List.mem_cons.1 h with rfl | h
    · omega
    · have := sum_le_of_mem (f := f) h
      omega

theorem forall₂_left {P : α → β → Prop} {as : List α} {bs : List β} (h : List.Forall₂ P as bs) : ∀ a ∈ as, ∃ b ∈ bs, P a b := by
  induction h with
  | nil => simp
  | cons h _ ih =>
    intro a ha
    rcases List.mem_cons.1 ha with rfl | ha
    · exact ⟨_, List.mem_cons_self, h⟩
    · obtain ⟨b, hb, hp⟩ := ih a ha
      exact ⟨b, List.mem_cons_of_mem _ hb, hp⟩

theorem cat_carries {f : StreamBuf.Closure τ} {B fuel align : Nat} {filler : Byte} {F srcs cs} (h : Opened f B fuel align filler F srcs cs) (hB : 0 < B)
    (hne : srcs ≠ []) (hf : joinFills cs < fuel) :
    Carries (CatStream.byteSrc (bufferedSrc B fuel f) B fuel) (CatStream.new B srcs) F B (joinFills cs) (Spec.cat (cs.map Prod.snd)) := by
  have hle := (fills_le_joinFills cs).1
  have hdel := CatStream.delivers (fun _ => NlMargin.any) hB h.map (fuel := fuel) (by omega)
  refine ⟨⟨_, hle, hdel⟩, ⟨_, hle, ?_⟩, fun hl => CatStream.whole hl hdel fun s hs => ?_, ?_⟩
  rotate_left 2
  · cases srcs with
    | nil => exact absurd rfl hne
    | cons s rest =>
      obtain ⟨c, hc, h1, h2⟩ := forall₂_left h s List.mem_cons_self
      obtain ⟨t, buf⟩ := s
      simp only at h1
      subst h1
      exact CatStream.prompt (buffered_prompt B fuel align filler f t)
  rotate_left
  · obtain ⟨c, hc, h1, h2⟩ := forall₂_left h s hs
    obtain ⟨t, buf⟩ := s
    simp only at h1
    subst h1
    refine Delivers.whole (Nat.lt_of_le_of_lt ?_ hl) h2
    unfold Spec.cat
    rw [List.length_flatten, List.map_map]
    exact sum_le_of_mem (f := List.length ∘ Prod.snd) hc
  have := CatStream.amply (buffered_ample (f := f) (fuel := fuel) (F := F) (M := NlMargin) hB).1 (buffered_ample hB).2 (fun _ => NlMargin.any) hB
    (srcs := srcs) (cs := cs) (fuel := fuel) hne (h.imp fun s c ⟨h1, h2⟩ => ⟨h2, by rw [h1]; exact StreamBuf.Ready.new B align filler⟩) (by omega)
  rwa [Nat.min_self] at this

theorem zip_carries {f : StreamBuf.Closure τ} {B fuel align word : Nat} {filler : Byte} {F srcs cs} (h : Opened f B fuel align filler F srcs cs) (hB : 0 < B)
    (hne : srcs ≠ []) (hw : 0 < word) (hlen : ∀ c ∈ cs, c.2.length ≤ usizeMax) (hf : joinFills cs < fuel) :
    Carries (ZipStream.byteSrc (bufferedSrc B fuel f) B fuel) (ZipStream.new B srcs word) F B (joinFills cs) (Spec.zip word (cs.map Prod.snd)) := by
  have hle := (fills_le_joinFills cs).2
  have := ZipStream.delivers hB hw h.map hne hlen (fuel := fuel) (by omega)
  exact (Carries.buffered (fun _ => NlMargin.any) hB rfl this).le hle

/-- A documented text in a file gives its records. -/
theorem file_yields (I : Impl) (B fuel : Nat) (filler : Byte) (f : Field) (text : Bytes) (sched : Nat → Option Nat) (hB : 0 < B) (hf : text.length < fuel)
    (hs : ShortLines B text) (recs : List Rec) (hr : Reading (Line StrictColumns f f) (lines text) recs false) :
    Yields (fileParser I B fuel f f) (IoErr [sched]) false (openText B filler text sched) recs := by
  obtain ⟨R, h, hR⟩ := file_roomy B fuel filler text sched hB hf
  obtain ⟨R', h1', h2'⟩ := TextParser.yields h I fuel (by omega) f f _ text hR hs _ false (hr.windows I)
  refine ⟨R', h1', fun t recs ht => ?_⟩
  rcases h2' t recs ht with ⟨e, he | he, h⟩ | h
  · exact Or.inl ⟨e, he, h⟩
  · simp at he
  · exact Or.inr h

/-- The same for a file that is padded to a multiple of `align`, if its length is one. -/
theorem aligned_yields (I : Impl) (B fuel align : Nat) (filler : Byte) (f : Field) (text : Bytes) (sched : Nat → Option Nat) (hB : 0 < B) (ha : 0 < align) (hf : text.length < fuel)
    (hal : text.length % align = 0) (hs : ShortLines B text) (recs : List Rec) (hr : Reading (Line StrictColumns f f) (lines text) recs false) :
    Yields (fileParser I B fuel f f) (IoErr [sched]) false (RawStream.new B (Reader.open text sched) align filler) recs := by
  obtain ⟨R, h, hR⟩ : ∃ R, TextParser.Roomy (RawStream.byteSrc B fuel) (IoErr [sched]) B ((B - 1777) / 8) R ∧ R (RawStream.new B (Reader.open text sched) align filler) text := by
    refine ⟨_, TextParser.buffered_roomy, ?_, ?_⟩
    · have := raw_delivers B fuel align filler text sched hB ha hf
      rw [show alignTo align filler text = text by simp [alignTo, hal]] at this
      obtain ⟨R, hf, hR⟩ := this
      exact ⟨.idle 1, text.length, R, hf, hR⟩
    · exact StreamBuf.Room.new B align filler hB
  obtain ⟨R', h1', h2'⟩ := TextParser.yields h I fuel (by omega) f f _ text hR hs _ false (hr.windows I)
  refine ⟨R', h1', fun t recs ht => ?_⟩
  rcases h2' t recs ht with ⟨e, he | he, h⟩ | h
  · exact Or.inl ⟨e, he, h⟩
  · simp at he
  · exact Or.inr h

theorem forall_triples {P : α → β → ρ → Prop} {as : List α} {bs : List β} (h : List.Forall₂ (fun a b => ∃ r, P a b r) as bs) :
    ∃ ts : List (α × β × ρ), as = ts.map (·.1) ∧ bs = ts.map (·.2.1) ∧ ∀ t ∈ ts, P t.1 t.2.1 t.2.2 := by
  induction h with
  | nil => exact ⟨[], rfl, rfl, by simp⟩
  | @cons a b _ _ h _ ih =>
    obtain ⟨r, hr⟩ := h
    obtain ⟨ts, h1, h2, h3⟩ := ih
    exact ⟨(a, b, r) :: ts, by rw [h1]; rfl, by rw [h2]; rfl, by
      intro t ht
      rcases List.mem_cons.mp ht with rfl | ht
      exacts [hr, h3 t ht]⟩

theorem Results.mapM {α β γ : Type} {F : Err → Prop} {g : α → Except Err β} {P : β → γ → Prop} : ∀ {as : List α} {cs : List γ},
    List.Forall₂ (fun a c => Results F (g a) fun b => P b c) as cs → Results F (as.mapM g) fun bs => List.Forall₂ P bs cs
  | _, _, .nil => .ok .nil
  | _, _, .cons h hs => by
    rw [List.mapM_cons]
    rcases h with ⟨e, he, h⟩ | ⟨b, h, hb⟩
    · exact Or.inl ⟨e, he, by rw [h]; rfl⟩
    · rcases Results.mapM hs with ⟨e, he, h'⟩ | ⟨bs, h', hbs⟩
      · exact Or.inl ⟨e, he, by rw [h, h']; rfl⟩
      · exact Or.inr ⟨b :: bs, by rw [h, h']; rfl, .cons hb hbs⟩

/-- The errors of a program whose `read()` fails: the error itself, or the `unwrap()` of the first record of a text. -/
def Failing (scheds : List (Nat → Option Nat)) (e : Err) : Prop := (e = .io ∨ e = .panic) ∧ ∃ s ∈ scheds, ∃ i, s i = none

theorem Failing.io {scheds : List (Nat → Option Nat)} {s : Nat → Option Nat} (h : s ∈ scheds) {e : Err} (he : IoErr [s] e) : Failing scheds e := by
  obtain ⟨rfl, s', hs, i, hi⟩ := he
  simp only [List.mem_singleton] at hs
  subst hs
  exact ⟨Or.inl rfl, s', h, i, hi⟩

theorem Failing.panic {scheds : List (Nat → Option Nat)} {e : Err} (h : Failing scheds e) : Failing scheds .panic := ⟨Or.inr rfl, h.2⟩

/-- An input: its content and the sizes of the reads it serves. -/
abbrev InFile := Bytes × (Nat → Option Nat)

/-- The first node. -/
def _root_.Nd.Spec.Joint.node : Joint → Node
  | .cat _ => .cat
  | .zip _ => .zip
  | .alone => .inplace

theorem forall₂_last {P : α → β → Prop} {as : List α} {bs : List β} (h : List.Forall₂ P as bs) (hne : as ≠ []) : ∃ a b, as.getLast? = some a ∧ bs.getLast? = some b ∧ P a b := by
  induction h with
  | nil => exact absurd rfl hne
  | @cons a b as bs h hs ih =>
    cases hs with
    | nil => exact ⟨a, b, rfl, rfl, h⟩
    | cons h' hs' =>
      obtain ⟨x, y, h1, h2, h3⟩ := ih (by simp)
      exact ⟨x, y, by simpa using h1, by simpa using h2, h3⟩

theorem join_carries {f : StreamBuf.Closure τ} {h : Host} {p : Pipeline InoutFormat} {j : Joint} {filler : Byte} {F srcs} {cs : List (Nat × Bytes)}
    (hw : p.wordSize = j.word) (hw0 : 0 < j.word) (hB : 0 < h.block) (hne : srcs ≠ [])
    (ho : Opened f h.block h.fuel j.word filler F srcs (cs.map fun c => (c.1, alignTo j.word filler c.2)))
    (hlen : ∀ c ∈ cs, (alignTo j.word filler c.2).length ≤ usizeMax)
    (hf : joinFills (cs.map fun c => (c.1, alignTo j.word filler c.2)) < h.fuel) :
    Results F (h.join p (bufferedSrc h.block h.fuel f) srcs j.node) fun d =>
      Carries d.src d.st F h.block (joinFills (cs.map fun c => (c.1, alignTo j.word filler c.2))) (j.join filler (cs.map Prod.snd)) := by
  cases j with
  | cat n =>
    refine .ok ?_
    have := cat_carries ho hB hne hf
    rw [List.map_map] at this
    simpa only [Joint.join, Joint.word, List.map_map, Function.comp_def] using this
  | zip n =>
    simp only [Host.join, Joint.node]
    rw [if_neg (by simp [hne])]
    refine .ok ?_
    have := zip_carries ho hB hne hw0 (by
      intro c hc
      obtain ⟨x, hx, rfl⟩ := List.mem_map.1 hc
      exact hlen x hx) hf
    rw [List.map_map] at this
    rw [hw]
    simpa only [Joint.join, Joint.word, List.map_map, Function.comp_def] using this
  | alone =>
    obtain ⟨s, c, h1, h2, h3, h4⟩ := forall₂_last ho hne
    simp only [Host.join, Joint.node]
    rw [h1]
    refine .ok ?_
    have hc : Joint.alone.join filler (cs.map Prod.snd) = c.2 := by
      rw [List.getLast?_map] at h2
      simp only [Joint.join, List.getLastD_eq_getLast?, List.getLast?_map]
      cases hl : cs.getLast? with
      | none => rw [hl] at h2; cases h2
      | some x =>
        rw [hl] at h2
        simp only [Option.map_some, Option.some.injEq] at h2
        rw [← h2]
        simp [Joint.word, alignTo_one]
    rw [hc]
    refine (Carries.buffered (fun _ => NlMargin.any) hB h3 h4).le ?_
    have := sum_le_of_mem (f := Prod.fst) (List.mem_of_getLast? h2)
    exact Nat.le_trans this (fills_le_joinFills _).2

/-- What the format of the inputs means. -/
def _root_.Nd.InoutFormat.Reads (f : InoutFormat) : Coding → Prop
  | .binary => f.isBinary = true
  | .located k => f.isBinary = false ∧ f.isGapless = false ∧ f.fields = .ok (k, k)
  | .gapless => f.isBinary = false ∧ f.isGapless = true ∧ f.fields = .ok (.hex, .hex)

/-- The same host with a different bound on the loops. -/
def Host.withFuel (h : Host) (n : Nat) : Host := { h with fuel := n }

theorem forall₂_maps {P : β → γ → Prop} {f : α → β} {g : α → γ} : ∀ {l : List α}, (∀ x ∈ l, P (f x) (g x)) → List.Forall₂ P (l.map f) (l.map g)
  | [], _ => .nil
  | x :: l, h => .cons (h x (by simp)) (forall₂_maps fun y hy => h y (by simp [hy]))

theorem input_carries (h : Host) (p : Pipeline InoutFormat) (j : Joint) (coding : Coding) (filler : Byte) (files : List InFile) (contents : List Bytes)
    (scheds : List (Nat → Option Nat)) (hB : 0 < h.block) (hne : files ≠ []) (hsub : ∀ f ∈ files, f.2 ∈ scheds) (hfmt : p.inFormat.Reads coding)
    (hw : p.wordSize = j.word) (hw0 : 0 < j.word) (hfi : UInt8.ofNat p.filler = filler)
    (hdec : List.Forall₂ (fun f c => coding.Decodes filler f.1 c) files contents) (hlen : ∀ c ∈ contents, (alignTo j.word filler c).length ≤ usizeMax)
    (htext : coding ≠ .binary → ∀ f ∈ files, f.1.length % j.word = 0 ∧ ShortLines h.block f.1) :
    ∃ w, ∀ fuel, w < fuel → Results (Failing scheds) ((h.withFuel fuel).input p (files.map fun f => Reader.open f.1 f.2) j.node) fun d =>
      Carries d.src d.st (Failing scheds) h.block w (j.join filler contents) := by
  cases coding with
  | binary =>
    have hc : contents = files.map Prod.fst := by
      clear hlen hsub htext hne
      induction hdec with
      | nil => rfl
      | cons h _ ih =>
        rw [List.map_cons, ih]
        exact congrArg (· :: _) h
    subst hc
    let cs := files.map fun f => (f.1.length, f.1)
    refine ⟨joinFills (cs.map fun c => (c.1, alignTo j.word filler c.2)), fun fuel hf => ?_⟩
    unfold Host.input
    simp only
    rw [if_pos (show p.inFormat.isBinary = true from hfmt)]
    have hcs : files.map Prod.fst = cs.map Prod.snd := by simp [cs]
    rw [hcs]
    refine join_carries (h := h.withFuel fuel) (f := RawStream.feed h.block) hw hw0 hB ?_ ?_ ?_ hf
    · simpa using hne
    · simp only [List.map_map, cs, Opened]
      refine forall₂_maps fun f hfm => ⟨by simp [RawStream.new, hfi, hw, Host.withFuel], ?_⟩
      have hle : f.1.length < fuel := by
        refine Nat.lt_of_le_of_lt ?_ hf
        simp only [joinFills, cs, List.map_map]
        refine Nat.le_trans ?_ (sum_le_of_mem hfm)
        simp only [Function.comp]
        omega
      have := raw_delivers h.block fuel j.word filler f.1 f.2 hB hw0 hle
      simp only [Function.comp, hw, hfi]
      exact this.mono (fun e he => Failing.io (hsub f hfm) he) (fun _ h => h)
    · intro c hc
      simp only [cs, List.mem_map] at hc
      obtain ⟨f, hf, rfl⟩ := hc
      exact hlen _ (List.mem_map_of_mem hf)
  | located k =>
    obtain ⟨h1, h2, h3⟩ := hfmt
    have hsl := htext (by simp)
    obtain ⟨ts, rfl, rfl, hts⟩ := forall_triples hdec
    let cs := ts.map fun t => (TextStream.steps 0 t.2.2, t.2.1)
    refine ⟨joinFills (cs.map fun c => (c.1, alignTo j.word filler c.2)) + (ts.map fun t => t.1.1.length).sum, fun fuel hf => ?_⟩
    unfold Host.input
    rw [if_neg (by simp [h1]), h3]
    simp only [attempt]
    rw [if_neg (by simp [h2])]
    have hcs : ts.map (·.2.1) = cs.map Prod.snd := by simp [cs]
    rw [hcs]
    refine Results.attempt (P := fun srcs => Opened (TextStream.feed ((h.withFuel fuel).parser (k, k)) h.block filler) h.block fuel j.word filler (Failing scheds) srcs
      (cs.map fun c => (c.1, alignTo j.word filler c.2))) (.mapM ?_) ?_
    · simp only [List.map_map, cs]
      refine forall₂_maps fun t ht => ?_
      obtain ⟨⟨hr, hm⟩, ho, hcon⟩ := hts t ht
      have hle : t.1.1.length < fuel ∧ TextStream.steps 0 t.2.2 < fuel := by
        have := sum_le_of_mem (f := fun t => t.1.1.length) ht
        have h4 : TextStream.steps 0 t.2.2 ≤ joinFills (cs.map fun c => (c.1, alignTo j.word filler c.2)) := by
          simp only [joinFills, cs, List.map_map]
          refine Nat.le_trans ?_ (sum_le_of_mem ht)
          simp only [Function.comp]
          omega
        omega
      obtain ⟨ha, hsl⟩ := hsl _ (List.mem_map_of_mem ht)
      have hy := aligned_yields h.impl h.block fuel j.word filler k t.1.1 t.1.2 hB hw0 hle.1 ha hsl _ hr
      have hy := hy.mono (fun e he => Failing.io (scheds := scheds) (hsub _ (List.mem_map_of_mem ht)) he)
      simp only [Function.comp, hw, hfi]
      rcases TextStream.fill_holds (f := Feeder.new (RawStream.new h.block (Reader.open t.1.1 t.1.2) j.word filler)) hy with ⟨e, he, heq⟩ | ⟨_, f', heq, _⟩
      · refine Or.inl ⟨.panic, he.panic, ?_⟩
        show TextStream.new (fileParser h.impl h.block fuel k k) h.block (RawStream.new h.block (Reader.open t.1.1 t.1.2) j.word filler) j.word filler = _
        unfold TextStream.new
        rw [heq]
      · have hs : TextStream.new (fileParser h.impl h.block fuel k k) h.block (RawStream.new h.block (Reader.open t.1.1 t.1.2) j.word filler) j.word filler =
            .ok { inner := { line := f', offset := 0 }, buf := StreamBuf.newWithAlign h.block j.word filler } := by
          unfold TextStream.new
          rw [heq]
        refine Or.inr ⟨_, hs, rfl, ?_⟩
        have := TextStream.delivers (B := h.block) (fuel := fuel) (align := j.word) (filler := filler) hB hw0 hy ho (fun r hr => by
          have := hm r hr
          unfold usizeMax
          omega) hs hle.2
        rw [padLen_eq _ _ hw0] at this
        rw [hcon]
        exact this
    · intro srcs ho
      have hn : srcs ≠ [] := by
        rintro rfl
        cases ts with
        | nil => exact hne rfl
        | cons => simp [Opened, cs] at ho
      have := join_carries (h := h.withFuel fuel) (f := TextStream.feed ((h.withFuel fuel).parser (k, k)) h.block filler) hw hw0 hB hn ho ?_ ?_
      · rw [← hfi] at this ⊢
        exact this.mono fun d hd => hd.le (Nat.le_add_right _ _)
      · intro c hc
        simp only [cs, List.mem_map] at hc
        obtain ⟨f, hf, rfl⟩ := hc
        exact hlen _ (List.mem_map_of_mem hf)
      · show _ < fuel
        omega
  | gapless =>
    obtain ⟨h1, h2, h3⟩ := hfmt
    have hsl := htext (by simp)
    obtain ⟨ts, rfl, rfl, hts⟩ := forall_triples hdec
    let cs := ts.map fun t => (t.2.2.length, t.2.1)
    refine ⟨joinFills (cs.map fun c => (c.1, alignTo j.word filler c.2)) + (ts.map fun t => t.1.1.length).sum, fun fuel hf => ?_⟩
    unfold Host.input
    rw [if_neg (by simp [h1]), h3]
    simp only [attempt]
    rw [if_pos h2]
    have hcs : ts.map (·.2.1) = cs.map Prod.snd := by simp [cs]
    rw [hcs]
    have := join_carries (h := h.withFuel fuel) (p := p) (j := j) (filler := filler) (F := Failing scheds) (cs := cs)
      (srcs := (((ts.map (·.1)).map fun f => Reader.open f.1 f.2).map fun r => RawStream.new (h.withFuel fuel).block r p.wordSize (UInt8.ofNat p.filler)).map
        fun s => GaplessTextStream.new (h.withFuel fuel).block s p.wordSize (UInt8.ofNat p.filler))
      (f := GaplessTextStream.feed ((h.withFuel fuel).parser (.hex, .hex))) hw hw0 hB ?_ ?_ ?_ ?_
    · exact this.mono fun d hd => hd.le (Nat.le_add_right _ _)
    · simpa using hne
    · simp only [List.map_map, cs, Opened]
      refine forall₂_maps fun t ht => ?_
      obtain ⟨⟨hr, hm⟩, hcon⟩ := hts t ht
      have hle : t.1.1.length < fuel ∧ t.2.2.length < fuel := by
        have := sum_le_of_mem (f := fun t => t.1.1.length) ht
        have h4 : t.2.2.length ≤ joinFills (cs.map fun c => (c.1, alignTo j.word filler c.2)) := by
          simp only [joinFills, cs, List.map_map]
          refine Nat.le_trans ?_ (sum_le_of_mem ht)
          simp only [Function.comp]
          omega
        omega
      obtain ⟨ha, hsl⟩ := hsl _ (List.mem_map_of_mem ht)
      have hy := aligned_yields h.impl h.block fuel j.word filler .hex t.1.1 t.1.2 hB hw0 hle.1 ha hsl _ hr
      have hy := hy.mono (fun e he => Failing.io (scheds := scheds) (hsub _ (List.mem_map_of_mem ht)) he)
      simp only [Function.comp, hw, hfi]
      refine ⟨rfl, ?_⟩
      have := GaplessTextStream.delivers (B := h.block) (fuel := fuel) (align := j.word) (filler := filler) hB hw0 hy hle.2
      rw [padLen_eq _ _ hw0] at this
      rw [hcon]
      exact this
    · intro c hc
      simp only [cs, List.mem_map] at hc
      obtain ⟨f, hf, rfl⟩ := hc
      exact hlen _ (List.mem_map_of_mem hf)
    · show _ < fuel
      omega

/-! ## The slices -/

/-- The node of a slicer. -/
def _root_.Nd.Spec.Slicer.Node (h : Host) (scheds : List (Nat → Option Nat)) : Slicer → Nd.Node → Prop
  | .width n r, .width params => ∃ m fuel, 1 < fuel ∧ ConstSlicerParams.fromRaw fuel n m = .ok params ∧ m.evaluate (0, n) (0, n) = (r.1.at n, r.2.at n)
  | .slice rs, .slice text => ∃ ms : List SegmentMapper, parseRanges text.toList = .ok (ms.map RangeMapper.ofMapper) ∧ ms.map SegmentMapper.toSpec = rs
  | .find p, .find text => ExactMatchSlicer.parsePattern h.impl text.toUTF8.toList = .ok p
  | .walk es, .walk text => Listed es text.toList ∧ ∃ st, WalkSlicer.new () text.toList = .ok st
  | .guide recs, .guide file => ∃ text sched, h.files file = some (text, sched) ∧ sched ∈ scheds ∧ Records .hex text recs ∧ ShortLines h.block text
  | _, _ => False

/-- The texts of `--cut` and `--lines`. -/
def RangesNode (rs : Option (List (RangeEnd × RangeEnd))) (text : Option String) : Prop :=
  match rs, text with
  | none, none => True
  | some rs, some text => ∃ ms : List SegmentMapper, parseRanges text.toList = .ok (ms.map RangeMapper.ofMapper) ∧ ms.map SegmentMapper.toSpec = rs
  | _, _ => False

/-- The texts of `--invert` and `--extend`. -/
def MappersNode (rs : Option (List (RangeEnd × RangeEnd))) (text : Option String) : Prop :=
  match rs, text with
  | none, none => True
  | some rs, some text => ∃ ms : List SegmentMapper, parseMappers text.toList = .ok ms ∧ ms.map SegmentMapper.toSpec = rs
  | _, _ => False

/-- The pattern of `--regex`. -/
def RegexNode (h : Host) (find : Option (Bytes → List Seg)) (text : Option String) : Prop :=
  match find, text with
  | none, none => True
  | some find, some text => h.regex text = .ok find
  | _, _ => False

theorem distinct_spec (ms : List SegmentMapper) (h : Job.DistinctStarts (ms.map SegmentMapper.toSpec)) : RangeSlicer.Distinct ms := by
  unfold Job.DistinctStarts at h
  unfold RangeSlicer.Distinct
  rw [List.filter_map, List.pairwise_map] at h
  refine (h.imp fun h => h).sublist ?_
  have : (fun m : SegmentMapper => m.start.anchor == 0 && m.stop.anchor == 0) = (fun r : RangeEnd × RangeEnd => !r.1.fromEnd && !r.2.fromEnd) ∘ SegmentMapper.toSpec := by
    funext m
    simp [SegmentMapper.toSpec, bne]
  rw [this]

/-- The slices are delivered in such a way that they can be merged. -/
structure Mergeable (g : DynSeg) (F : Err → Prop) (w : Nat) (content : Bytes) (segs : List Seg) : Prop where
  delivers : ∃ K : SegKind, SegDelivers g.src K F g.st w content segs ∧ K.exact = true ∧ K.snap = true ∧ K.honest = true ∧ K.steady = true ∧ K.early = true ∧
    K.strict = false ∧ ∀ lent k, (∃ x ∈ lent, x.pos = k) → K.policy lent k
  sorted : Sorted segs

theorem slicer_mergeable (h : Host) {scheds : List (Nat → Option Nat)} (p : Pipeline InoutFormat) (j : Job) {content : Bytes} {raw : List Seg} (hf : j.Fits ((h.block - 1784) / 8)) {node : Node}
    (hn : j.slicer.Node h scheds node) (hc : h.checks = false) (hs : j.slicer.Cuts content raw) (hlen : content.length < usizeMax) {d : DynByte} {F w}
    (hd : Carries d.src d.st F h.block w content) : ∃ g, h.slicer p node d = .ok g ∧ ∃ w' ≤ w, Mergeable g F w' content raw := by
  obtain ⟨_, ⟨w', hw', ha⟩, _⟩ := hd
  replace hf := hf.2
  cases hsl : j.slicer with
  | walk => rw [hsl] at hf; exact hf.elim
  | guide => rw [hsl] at hf; exact hf.elim
  | width n r =>
    rw [hsl] at hf hn hs
    cases node <;> simp only [Slicer.Node] at hn
    obtain ⟨m, fuel, h1, h2, h3⟩ := hn
    simp only at hf
    obtain ⟨hp, f1, f2, f3, f4, _⟩ := hf
    obtain ⟨p', st, g1, g2, _, g3⟩ := width_delivers .polite ha (fun _ h => h) fuel n m _ _ hp h3 (by omega) f1 f2 h1 (by
      simp only [ConstSlicer.Manner.need]
      omega)
    rw [h2] at g1
    cases g1
    simp only [Host.slicer, attempt, g2]
    simp only [Slicer.Cuts] at hs
    subst hs
    exact ⟨_, rfl, w', hw', ⟨_, g3, by simp [ConstSlicer.kind]; omega, rfl, rfl, rfl, rfl, rfl, fun _ _ h => h⟩, strides_sorted _ _ _ _⟩
  | slice rs =>
    rw [hsl] at hf hn hs
    cases node <;> simp only [Slicer.Node] at hn
    obtain ⟨ms, h1, h2⟩ := hn
    obtain ⟨st, hst⟩ := C20_new_ok d.st (ms.map RangeMapper.ofMapper)
    simp only [Slicer.Cuts] at hs
    subst h2
    have := RangeSlicer.delivers ha (fun _ h => h) h.block hst hlen hs
    simp only [Host.slicer, attempt, h1, hc, hst]
    refine ⟨_, rfl, w', hw', ⟨_, this, by simp [RangeSlicer.kind, distinct_spec ms hf.1], rfl, rfl, rfl, rfl, rfl, fun _ _ _ => trivial⟩, hs.1.imp fun h => ?_⟩
    rcases h with h | h <;> omega
  | find q =>
    rw [hsl] at hf hn hs
    cases node <;> simp only [Slicer.Node] at hn
    have hl := parsePattern_length hn
    simp only at hf
    have := ExactMatchSlicer.serves hf.1 ha (fun _ h => h) (by omega) (by omega) h.block
    simp only [Host.slicer, attempt, ExactMatchSlicer.new, hn]
    simp only [Slicer.Cuts] at hs
    subst hs
    refine ⟨_, rfl, w', hw', ⟨_, this.delivers, rfl, rfl, rfl, rfl, rfl, rfl, fun _ _ _ => trivial⟩, ?_⟩
    rw [occurrences_eq]
    exact (occIn_sorted _ _ _ _).imp fun h => Nat.le_of_lt h

/-- `--width N --lines ...` -/
theorem lines_deliver (h : Host) {scheds : List (Nat → Option Nat)} (p : Pipeline InoutFormat) {n : Nat} {r : RangeEnd × RangeEnd} {content : Bytes} (hp : 0 < n) (h0 : r.1.at n = 0) (h1 : r.2.at n = n)
    (hL : 4 * n < (h.block - 1784) / 8) {node : Node} (hn : (Slicer.width n r).Node h scheds node) (hc : h.checks = false) {rs : List (RangeEnd × RangeEnd)} {text : String}
    (hln : RangesNode (some rs) (some text)) {d : DynByte} {F w} (hd : Carries d.src d.st F h.block w content) :
    ∃ g g', h.slicer p node d = .ok g ∧ h.manipulate (.lines text) g = .ok g' ∧ ∃ w' ≤ w, ∃ K : SegKind, K.exact = true ∧
      SegDelivers g'.src K F g'.st w' content (pick rs (strides content.length n 0 n)) := by
  obtain ⟨_, ⟨w', hw', ha⟩, _⟩ := hd
  cases node <;> simp only [Slicer.Node] at hn
  obtain ⟨m, fuel, k1, k2, k3⟩ := hn
  obtain ⟨ms, l1, l2⟩ := hln
  rw [h0, h1] at k3
  obtain ⟨R, E, hR, hA, hs, hE⟩ := ha
  have hpr : ConstSlicerParams.fromRaw fuel n m = .ok ⟨0, 1 - n, n, n⟩ := by
    unfold ConstSlicerParams.fromRaw
    rw [k3]
    simp only [Int.sub_zero]
    rw [if_neg (by omega), if_pos (by omega), if_neg (by omega)]
    simp
  have hcomb := (ConstSlicerParams.fromRaw_comb hp hpr content.length 0 n k3).2.2.2.2.2.2.2.2.2.2
  rw [hpr] at k2
  cases k2
  have ok : ConstSlicer.ParamsOk ⟨0, 1 - n, n, n⟩ := by
    constructor <;> simp only <;> omega
  have hneed : ConstSlicer.Manner.any.need n n (ConstSlicer.escape ⟨0, 1 - n, n, n⟩) ≤ (h.block - 1784) / 8 := by
    simp only [ConstSlicer.Manner.need, ConstSlicer.escape]
    simp
    omega
  obtain ⟨st, hst, hrel⟩ := ConstSlicer.new_spec (Src := d.src) .any ⟨0, 1 - n, n, n⟩ ok d.st _ content hs hE hneed
  rw [hcomb] at hrel
  obtain ⟨fl, hfl⟩ := C25_new_ok st (ms.map RangeMapper.ofMapper)
  have htiles := strides_tiles content.length n hp
  have := FilterStream.delivers (ConstSlicer.faithful hR hA (fun _ h => h) .any n n _ _ hneed)
    (ConstSlicer.lands .any n _ _ (by simp [ConstSlicer.escape])) rfl (fun _ _ => trivial) hrel htiles.1 htiles.2 hfl
  rw [coverAny_lines, l2] at this
  refine ⟨{ src := ConstSlicer.segSrc d.src, st := st, cache := fun t => d.cache t.src },
    { src := FilterStream.segSrc (ConstSlicer.segSrc d.src), st := fl, cache := fun t => d.cache t.src.src }, ?_, ?_, w', hw', _, rfl, this⟩
  · simp only [Host.slicer, attempt, hst]
  · simp only [Host.manipulate, attempt, l1, hc, hfl]

theorem occurrences_mem {p content : Bytes} {x : Seg} (hx : x ∈ occurrences p content) : x.len = p.length ∧ 0 < x.len ∧ x.tail ≤ content.length := by
  rw [occurrences_eq] at hx
  obtain ⟨_, h2, h3, h4, h5⟩ := mem_occIn.1 hx
  have hl := h5.length_le
  have hp : 0 < p.length := List.length_pos_iff.2 h4
  rw [List.length_drop] at hl
  simp only [Seg.tail]
  omega

theorem occurrences_sorted (p content : Bytes) : (occurrences p content).Pairwise (fun a b => a.pos < b.pos) := by
  rw [occurrences_eq]
  exact occIn_sorted _ _ _ _

/-- What becomes of the slices of a job that fits. -/
theorem _root_.Nd.Spec.Job.Fits.cases {j : Job} {L : Nat} (hf : j.Fits L) {content : Bytes} {raw ext : List Seg} (h1 : j.slicer.Cuts content raw)
    (h2 : j.Extended content.length (j.inverted content.length (j.searched content raw)) ext) :
    (j.invert = none ∧ j.extend = none ∧ ext = raw) ∨ ∃ p, j.slicer = .find p ∧ raw = occurrences p content ∧
      ((∃ r, j.invert = some [r] ∧ j.extend = none ∧ r.1.fromEnd = false ∧ 0 ≤ r.1.off ∧ r.2.fromEnd = true ∧ r.2.off ≤ 0 ∧ ext = Spec.invert [r] raw content.length) ∨
       (∃ r, j.invert = none ∧ j.extend = some [r] ∧ r.1.fromEnd = false ∧ r.1.off ≤ 0 ∧ p.length - r.1.off < L ∧ r.1.off ≤ r.2.on (0, 1) ∧
         (∀ x ∈ raw, r.2.on ((x.pos : Int), (x.tail : Int)) ≤ x.tail) ∧ (raw.Pairwise fun a b => a.pos ≤ b.pos ∧ a.tail ≤ b.tail) ∧ ext = Spec.extend [r] raw content.length)) := by
  obtain ⟨⟨f1, f2⟩, _⟩ := hf
  unfold Job.Extended Job.inverted Job.searched at h2
  rcases f2 with ⟨f2, f3⟩ | ⟨p, r, hp, f2, f3, f4⟩ | ⟨p, r, hp, f2, f3, f4, f5, f6, f7, f8⟩
  · rw [f1, f2, f3] at h2
    exact Or.inl ⟨f2, f3, h2⟩
  · rw [f1, f2, f3] at h2
    rw [hp] at h1
    exact Or.inr ⟨p, hp, h1, Or.inl ⟨r, f2, f3, f4.1, f4.2.1, f4.2.2.1, f4.2.2.2, h2⟩⟩
  · rw [f1, f2, f3] at h2
    rw [hp] at h1
    simp only [Slicer.Cuts] at h1
    have hm : raw.Pairwise fun a b => a.pos ≤ b.pos ∧ a.tail ≤ b.tail := by
      rw [h1]
      refine (occurrences_sorted p content).imp_of_mem fun {a b} ha hb hab => ?_
      have h3 := (occurrences_mem ha).1
      have h4 := (occurrences_mem hb).1
      simp only [Seg.tail]
      omega
    refine Or.inr ⟨p, hp, h1, Or.inr ⟨r, f2, f3, f4, f5, f6, f7, fun x hx => ?_, hm, ?_⟩⟩
    · have := (occurrences_mem (h1 ▸ hx)).1
      simp only [RangeEnd.on, RangeEnd.at, Seg.tail] at f8 ⊢
      split at f8
      · simp_all
        omega
      · simp_all
    · refine List.Perm.eq_of_pairwise (le := Seg.Le) ?_ h2.2 (extend_one_sorted r raw content.length hm) h2.1
      rintro ⟨a, b⟩ ⟨c, d⟩ _ _ h1 h2
      simp only [Seg.Le, Seg.tail, Seg.mk.injEq] at *
      omega

/-- The slices of a job that fits are sorted. -/
theorem _root_.Nd.Spec.Job.Fits.sorted {j : Job} {L : Nat} (hf : j.Fits L) {content : Bytes} {raw ext : List Seg} (h1 : j.slicer.Cuts content raw)
    (h2 : j.Extended content.length (j.inverted content.length (j.searched content raw)) ext) : Sorted ext := by
  rcases hf.cases h1 h2 with ⟨_, _, rfl⟩ | ⟨p, _, rfl, ⟨r, _, _, _, _, _, _, rfl⟩ | ⟨r, _, _, _, _, _, _, _, hm, rfl⟩⟩
  · have hf := hf.2
    cases hj : j.slicer with
    | walk => rw [hj] at hf; exact hf.elim
    | guide => rw [hj] at hf; exact hf.elim
    | width n r =>
      rw [hj] at h1
      simp only [Slicer.Cuts] at h1
      subst h1
      exact strides_sorted _ _ _ _
    | slice rs =>
      rw [hj] at h1
      simp only [Slicer.Cuts] at h1
      exact h1.1.imp fun h => by rcases h with h | h <;> omega
    | find p =>
      rw [hj] at h1
      simp only [Slicer.Cuts] at h1
      subst h1
      exact (occurrences_sorted _ _).imp fun h => Nat.le_of_lt h
  · exact invert_one_sorted r _ _ ((occurrences_sorted _ _).imp fun h => Nat.le_of_lt h) fun x hx => (occurrences_mem hx).2.1
  · exact Seg.Le.pairwise_sorted (extend_one_sorted r _ _ hm)

/-- What the drains make of a stream of slices: they print the slices `xs`, and if `pours` they write them to files. -/
structure Drains (g : DynSeg) (F : Err → Prop) (B w : Nat) (xs : List (Nat × Bytes)) (pours : Prop) : Prop where
  prints : ∀ (f : Formatting) fuel, w < fuel → Delivers (ScatterDrain.byteSrc g.src f B fuel) F NlMargin (ScatterDrain.through B g.st) w (xs.flatMap f.line)
  writes : pours → ∀ (f : Formatting) fuel (c : ScatterContext (List Char)), w + 1 < fuel →
    (∃ e, F e ∧ ScatterDrain.scatter g.src f fuel (ScatterDrain.new g.st) c = .error e) ∨
    ScatterDrain.scatter g.src f fuel (ScatterDrain.new g.st) c = ScatterDrain.dumpSlices f 0 xs c

/-! ## The stream -/

theorem keep_length_le (P : Nat → Bool) : ∀ (i : Nat) (l : List α), (keep P i l).length ≤ l.length
  | _, [] => by simp [keep]
  | i, _ :: l => by
    have := keep_length_le P (i + 1) l
    unfold keep
    split <;> simp <;> omega

theorem cut_carries (h : Host) (p : Pipeline InoutFormat) {rs : List (RangeEnd × RangeEnd)} {text : String} (hn : RangesNode (some rs) (some text)) (hc : h.checks = false)
    (hB : 0 < h.block) {d : DynByte} {F w} {content : Bytes} (hd : Carries d.src d.st F h.block w content) (hf : w < h.fuel) :
    ∃ d', h.filter p (.cut text) d = .ok d' ∧ Carries d'.src d'.st F h.block w (Spec.cut rs content) := by
  obtain ⟨ms, h1, h2⟩ := hn
  obtain ⟨⟨w', hw', hd⟩, _⟩ := hd
  obtain ⟨s, hs⟩ := C05_new_ok h.block d.st (ms.map RangeMapper.ofMapper)
  have := CutStream.delivers hB hd (fuel := h.fuel) hs (by omega)
  rw [coverAny_spec, h2] at this
  simp only [Host.filter, attempt, h1, hc, hs]
  refine ⟨_, rfl, (Carries.buffered (align := 1) (filler := 0) (fun _ => NlMargin.any) hB ?_ this).le hw'⟩
  unfold CutStream.new at hs
  split at hs
  · cases hs
  · cases hs
    rfl

theorem pad_carries (h : Host) (p : Pipeline InoutFormat) (a b : Nat) (hB : 0 < h.block) {filler : Byte} (hfi : UInt8.ofNat p.filler = filler) {d : DynByte} {F w}
    {content : Bytes} (hd : Carries d.src d.st F h.block w content) (ha : a ≤ h.block) (hb : b ≤ h.block) (hlen : a + content.length + b < usizeMax)
    (hf : ClipStream.fills w content a b + 1 < h.fuel) :
    ∃ d', h.filter p (.clipper { pad := (a, b), clip := (0, 0), len := usizeMax }) d = .ok d' ∧
      Carries d'.src d'.st F h.block (ClipStream.fills w content a b) (Spec.pad a b filler content) := by
  obtain ⟨⟨w1, hw1, h1⟩, ⟨w2, hw2, h2⟩, h3, h4⟩ := hd
  have hm : ∀ w' ≤ w, ClipStream.fills w' content a b ≤ ClipStream.fills w content a b := by
    intro w' hw'
    unfold ClipStream.fills
    omega
  have e1 := hm w1 hw1
  have e2 := hm w2 hw2
  subst hfi
  refine ⟨_, rfl, ⟨_, e1, pad_delivers (fun _ h => h) h.block h.fuel hB d.st w1 content h1 a b _ (by omega) (by omega) _ (C04_pad_params a b (by omega))⟩, ?_, fun hl => ?_, ClipStream.prompt h4 (by omega) ha _⟩
  rotate_left
  · simp only [Spec.pad, List.length_append, List.length_replicate] at hl
    exact ClipStream.whole (fun _ h => h) h1 (h3 (by omega)) (by omega) _ (by omega)
  obtain ⟨w', hw', h3⟩ := ClipStream.amply (fun _ h => h) hB h2 ha hb hlen (UInt8.ofNat p.filler) (fuel := h.fuel) (by omega)
  rw [Nat.min_self] at h3
  exact ⟨w', by omega, h3⟩

/-- The file of `--patch`. -/
def PatchFile (h : Host) (scheds : List (Nat → Option Nat)) (recs : Option (List Rec)) (file : Option String) : Prop :=
  match recs, file with
  | none, none => True
  | some recs, some file => ∃ text sched, h.files file = some (text, sched) ∧ sched ∈ scheds ∧ Records .hex text recs ∧ Ordered 0 recs ∧ ShortLines h.block text
  | _, _ => False

theorem patch_carries (h : Host) (p : Pipeline InoutFormat) {scheds : List (Nat → Option Nat)} {recs : List Rec} {file : String} (hn : PatchFile h scheds (some recs) (some file))
    (hp : p.patchFormat.fields = .ok (.hex, .hex)) (hB : 0 < h.block) (w : Nat) (content : Bytes) (hlen : content.length ≤ usizeMax) :
    ∃ w', ∀ fuel, w' < fuel → ∀ d : DynByte, Carries d.src d.st (Failing scheds) h.block w content →
      Results (Failing scheds) ((h.withFuel fuel).filter p (.patch file) d) fun d' =>
        Carries d'.src d'.st (Failing scheds) h.block w' (splice 0 content recs) := by
  obtain ⟨text, sched, h1, h2, ⟨h3, h4⟩, h5, h6⟩ := hn
  refine ⟨recs.length + w + text.length + 4, fun fuel hf d hd => ?_⟩
  obtain ⟨⟨w', hw', hd⟩, _⟩ := hd
  have hy := (file_yields h.impl h.block fuel (UInt8.ofNat p.filler) .hex text sched hB (by omega) h6 _ h3).mono (fun e he => Failing.io h2 he)
  have ho : (h.withFuel fuel).openFile p file = .ok (openText h.block (UInt8.ofNat p.filler) text sched) := by
    unfold Host.openFile Host.openReader
    rw [show (h.withFuel fuel).files file = some (text, sched) from h1]
    rfl
  simp only [Host.filter, ho, hp, attempt]
  rcases TextStream.fill_holds (f := Feeder.new (openText h.block (UInt8.ofNat p.filler) text sched)) hy with ⟨e, he, heq⟩ | ⟨_, f', heq, _⟩
  · have hs : PatchStream.new ((h.withFuel fuel).parser (.hex, .hex)) (h.withFuel fuel).block d.st (openText h.block (UInt8.ofNat p.filler) text sched) = .error .panic := by
      show PatchStream.new (fileParser h.impl h.block fuel .hex .hex) h.block d.st (openText h.block (UInt8.ofNat p.filler) text sched) = _
      unfold PatchStream.new
      rw [heq]
    rw [hs]
    exact Or.inl ⟨_, he.panic, rfl⟩
  · have hs : PatchStream.new ((h.withFuel fuel).parser (.hex, .hex)) (h.withFuel fuel).block d.st (openText h.block (UInt8.ofNat p.filler) text sched) =
        .ok { inner := { src := d.st, patch := f', skip := 0, offset := 0 }, buf := StreamBuf.new h.block } := by
      show PatchStream.new (fileParser h.impl h.block fuel .hex .hex) h.block d.st (openText h.block (UInt8.ofNat p.filler) text sched) = _
      unfold PatchStream.new
      rw [heq]
    have := PatchStream.delivers hB hd hlen hy (C07_ordered_ok _ _ _ h5) (fun r hr => by
      have := h4 r hr
      unfold usizeMax
      omega) hs (fuel := fuel) (by omega)
    rw [hs]
    exact .ok ((Carries.buffered (align := 1) (filler := 0) (fun _ => NlMargin.any) hB rfl this).le (by omega))

/-- The first half of the pipeline behind the input. -/
theorem filters_carry (h : Host) (p : Pipeline InoutFormat) (srcs : List Reader) (j : Job) (scheds : List (Nat → Option Nat)) (hB : 0 < h.block) (hc : h.checks = false)
    (hfi : UInt8.ofNat p.filler = j.filler) (hp : p.patchFormat.fields = .ok (.hex, .hex)) {cut patch : Option String} (hcut : RangesNode j.cut cut)
    (hpatch : PatchFile h scheds j.patch patch) (hpad : j.pad.1 ≤ h.block ∧ j.pad.2 ≤ h.block) (w : Nat) (content : Bytes)
    (hlen : j.pad.1 + content.length + j.pad.2 < usizeMax) :
    ∃ w', ∀ fuel, w' < fuel → ∀ d : DynByte, Carries d.src d.st (Failing scheds) h.block w content →
      ∀ (rest : List Node) (Q : Except Err (NodeInstance DynByte DynSeg) → Prop), (∀ e, Failing scheds e → Q (.error e)) →
      (∀ d', Carries d'.src d'.st (Failing scheds) h.block w' (j.filtered content) → Q (((h.withFuel fuel).stages p srcs).loop rest (none, .byte d'))) →
      Q (((h.withFuel fuel).stages p srcs).loop (optNode .cut cut ++
        (if j.pad = (0, 0) then [] else [.clipper { pad := j.pad, clip := (0, 0), len := usizeMax }]) ++ optNode .patch patch ++ rest) (none, .byte d)) := by
  have hpatch' : ∀ (w : Nat) (content : Bytes), content.length ≤ usizeMax → ∃ w', ∀ fuel, w' < fuel → ∀ d : DynByte,
      Carries d.src d.st (Failing scheds) h.block w content → ∀ (rest : List Node) (Q : Except Err (NodeInstance DynByte DynSeg) → Prop), (∀ e, Failing scheds e → Q (.error e)) →
      (∀ d', Carries d'.src d'.st (Failing scheds) h.block w' (match j.patch with | none => content | some recs => splice 0 content recs) →
        Q (((h.withFuel fuel).stages p srcs).loop rest (none, .byte d'))) →
      Q (((h.withFuel fuel).stages p srcs).loop (optNode .patch patch ++ rest) (none, .byte d)) := by
    intro w content hlen
    cases hj : j.patch with
    | none =>
      rw [hj] at hpatch
      cases patch with
      | some => exact absurd hpatch (by simp [PatchFile])
      | none => exact ⟨w, fun fuel _ d hd rest Q hE hQ => hQ d hd⟩
    | some recs =>
      rw [hj] at hpatch
      cases patch with
      | none => exact absurd hpatch (by simp [PatchFile])
      | some file =>
        obtain ⟨w', h1⟩ := patch_carries h p hpatch hp hB w content hlen
        refine ⟨w', fun fuel hf d hd rest Q hE hQ => ?_⟩
        simp only [optNode, List.cons_append, List.nil_append, Stages.loop, Stages.step]
        rcases h1 fuel hf d hd with ⟨e, he, heq⟩ | ⟨d', heq, hd'⟩
        · rw [show ((h.withFuel fuel).stages p srcs).filter (.patch file) d = .error e from heq]
          exact hE e he
        · rw [show ((h.withFuel fuel).stages p srcs).filter (.patch file) d = .ok d' from heq]
          exact hQ d' hd'
  have hpad' : ∀ (w : Nat) (content : Bytes), j.pad.1 + content.length + j.pad.2 < usizeMax → ∃ w', ∀ fuel, w' < fuel → ∀ d : DynByte,
      Carries d.src d.st (Failing scheds) h.block w content → ∀ (rest : List Node) (Q : Except Err (NodeInstance DynByte DynSeg) → Prop), (∀ e, Failing scheds e → Q (.error e)) →
      (∀ d', Carries d'.src d'.st (Failing scheds) h.block w' (Spec.pad j.pad.1 j.pad.2 j.filler content) →
        Q (((h.withFuel fuel).stages p srcs).loop rest (none, .byte d'))) →
      Q (((h.withFuel fuel).stages p srcs).loop ((if j.pad = (0, 0) then [] else [.clipper { pad := j.pad, clip := (0, 0), len := usizeMax }]) ++ rest) (none, .byte d)) := by
    intro w content hlen
    by_cases h0 : j.pad = (0, 0)
    · refine ⟨w, fun fuel _ d hd rest Q hE hQ => ?_⟩
      rw [if_pos h0]
      refine hQ d ?_
      simpa [h0, Spec.pad] using hd
    · refine ⟨ClipStream.fills w content j.pad.1 j.pad.2 + 1, fun fuel hf d hd rest Q hE hQ => ?_⟩
      obtain ⟨d', h1, h2⟩ := pad_carries (h.withFuel fuel) p j.pad.1 j.pad.2 hB hfi hd hpad.1 hpad.2 hlen hf
      rw [if_neg h0]
      simp only [List.cons_append, List.nil_append, Stages.loop, Stages.step]
      rw [show ((h.withFuel fuel).stages p srcs).filter (.clipper { pad := j.pad, clip := (0, 0), len := usizeMax }) d = .ok d' from h1]
      exact hQ d' (h2.le (by omega))
  have hcl : (match j.cut with | none => content | some rs => Spec.cut rs content).length ≤ content.length := by
    split
    · exact Nat.le_refl _
    · exact keep_length_le _ _ _
  obtain ⟨w1, h1⟩ := hpad' w (match j.cut with | none => content | some rs => Spec.cut rs content) (by omega)
  obtain ⟨w2, h2⟩ := hpatch' w1 (Spec.pad j.pad.1 j.pad.2 j.filler (match j.cut with | none => content | some rs => Spec.cut rs content)) (by
    simp only [Spec.pad, List.length_append, List.length_replicate]
    omega)
  refine ⟨w + w1 + w2, fun fuel hf d hd rest Q hE hQ => ?_⟩
  rw [List.append_assoc, List.append_assoc]
  have step : ∀ d', Carries d'.src d'.st (Failing scheds) h.block w (match j.cut with | none => content | some rs => Spec.cut rs content) →
      Q (((h.withFuel fuel).stages p srcs).loop ((if j.pad = (0, 0) then [] else [.clipper { pad := j.pad, clip := (0, 0), len := usizeMax }]) ++ (optNode .patch patch ++ rest)) (none, .byte d')) :=
    fun d' hd' => h1 fuel (by omega) d' hd' _ Q hE fun d'' hd'' => h2 fuel (by omega) d'' hd'' rest Q hE fun d3 hd3 => hQ d3 (hd3.le (by omega))
  cases hj : j.cut with
  | none =>
    rw [hj] at hcut step
    cases cut with
    | some => exact absurd hcut (by simp [RangesNode])
    | none => exact step d hd
  | some rs =>
    rw [hj] at hcut step
    cases cut with
    | none => exact absurd hcut (by simp [RangesNode])
    | some text =>
      obtain ⟨d', h1, h2⟩ := cut_carries (h.withFuel fuel) p hcut hc hB hd (by show w < fuel; omega)
      simp only [optNode, List.cons_append, List.nil_append, Stages.loop, Stages.step]
      rw [show ((h.withFuel fuel).stages p srcs).filter (.cut text) d = .ok d' from h1]
      exact step d' h2

end Nd
