import Verif.Proof.Format
import Verif.Props.Record
/-!
# Reading text files, and reading dumps back
-/
namespace Nd
open Spec

namespace TextParser

theorem lines_line (l rest : Bytes) (h : 10 ∉ l) : lines (l ++ 10 :: rest) = l :: lines rest := by
  have hf : firstLine (l ++ 10 :: rest) = l := by
    unfold firstLine
    rw [List.takeWhile_append_of_pos (by
      intro a ha
      have : a ≠ 10 := by rintro rfl; exact h ha
      simpa using this)]
    simp
  rw [lines_cons _ (by simp)]
  unfold afterLine
  rw [hf]
  congr 2
  simp [List.drop_append]

/-- Everything a record source gives before it reports the end or an error. -/
def readAll (P : RecSrc τ) : Nat → τ → List Rec × Option Err
  | 0, _ => ([], some .diverge)
  | fuel + 1, t =>
    match P.read t with
    | .error e => ([], some e)
    | .ok (none, _) => ([], none)
    | .ok (some r, t) => (r :: (readAll P fuel t).1, (readAll P fuel t).2)

theorem readAll_spec {S : ByteSrc σ} {F B L R} (h : Roomy S F B L R) (I : Impl) (fuel : Nat) (hf : 0 < fuel) (fo fs : Field) :
    ∀ (n : Nat) (s : σ) (text : Bytes) (recs : List Rec) (bad : Bool), R s text → (∀ l ∈ lines text, l.length < L) →
      Reading (Line (Windows I) fo fs) (lines text) recs bad → recs.length < n →
      readAll (recSrc I S B fuel fo fs) n s = (recs, if bad then some .parse else none) ∨
      ∃ pre e, F e ∧ pre <+: recs ∧ readAll (recSrc I S B fuel fo fs) n s = (pre, some e)
  | 0, _, _, _, _, _, _, _, hn => by omega
  | n + 1, s, text, recs, bad, hR, hL, hr, hn => by
    unfold readAll
    simp only [recSrc]
    by_cases hne : text = []
    · subst hne
      have hl : lines [] = [] := rfl
      rw [hl] at hr
      cases hr
      rcases readLine_end h I fuel fo fs s hR with ⟨e, hF, heq⟩ | ⟨s', heq, hR'⟩
      · right; exact ⟨[], e, hF, List.prefix_refl _, by rw [heq]⟩
      · left; rw [heq]; rfl
    · rw [lines_cons text hne] at hL hr
      obtain ⟨hnl, _⟩ := firstLine_spec text
      rcases readLine_spec h I fuel hf fo fs s text hR hne (hL _ (by simp)) with ⟨e, hF, heq⟩ | ⟨hno, heq⟩ | ⟨r, s', hyes, heq, hR'⟩
      · right; exact ⟨[], e, hF, List.nil_prefix, by rw [heq]⟩
      · left
        cases hr with
        | bad => rw [heq]; rfl
        | good _ _ r rs _ hline _ => rw [(lineOf_iff I fo fs _ r hnl).2 hline] at hno; cases hno
      · have hline := (lineOf_iff I fo fs _ r hnl).1 hyes
        cases hr with
        | bad _ _ hno => exact absurd hline (hno r)
        | good _ _ r' rs _ hline' hrest =>
          have : r' = r := by
            have := (lineOf_iff I fo fs _ r' hnl).2 hline'
            rw [hyes] at this; cases this; rfl
          subst this
          simp only [List.length_cons] at hn
          have ih := readAll_spec h I fuel hf fo fs n s' (afterLine text) rs bad hR' (fun l hl => hL l (List.mem_cons_of_mem _ hl)) hrest (by omega)
          rw [heq]
          simp only [recSrc] at ih
          rcases ih with ih | ⟨pre, e, hF, hp, ih⟩
          · left; simp only [ih]
          · right
            refine ⟨r' :: pre, e, hF, ?_, by simp only [ih]⟩
            obtain ⟨x, rfl⟩ := hp
            exact ⟨x, rfl⟩

end TextParser

namespace Props
open TextParser

theorem alignTo_one (filler : Byte) (c : Bytes) : Spec.alignTo 1 filler c = c := by
  simp [Spec.alignTo, Nat.mod_one]

/-- A text file read by `RawStream`, whatever sizes `read()` returns. -/
theorem file_roomy (B fuel : Nat) (filler : Byte) (text : Bytes) (sched : Nat → Option Nat) (hB : 0 < B) (hf : text.length < fuel) :
    ∃ R, Roomy (RawStream.byteSrc B fuel) (IoErr [sched]) B ((B - 1777) / 8) R ∧
      R (RawStream.new B (Reader.open text sched) 1 filler) text := by
  refine ⟨_, buffered_roomy, ?_, ?_⟩
  · have := raw_delivers B fuel 1 filler text sched hB (by decide) hf
    rw [alignTo_one] at this
    obtain ⟨R, hf, hR⟩ := this
    exact ⟨.idle 1, text.length, R, hf, hR⟩
  · exact StreamBuf.Room.new B 1 filler hB

end Props

namespace Format

/-- The record a segment is dumped as. -/
def recOf (style : Style) (offset : Nat) (stream : Bytes) (s : Seg) : Rec :=
  { offset := if style = .hhh then (offset + s.pos) % 2 ^ 48 else offset + s.pos, span := s.len, data := s.bytes stream }

theorem bytes_length {s : Seg} {stream : Bytes} (h : s.pos + s.len ≤ stream.length) : (s.bytes stream).length = s.len := by
  simp [Seg.bytes]; omega

/-- The field format of a text style. -/
def Style.field : Style → Field
  | .ddh => .dec
  | _ => .hex

/-- Bounds within which the header fields hold the numbers. -/
def Fits (style : Style) (offset : Nat) (s : Seg) : Prop :=
  match style with
  | .ddh => offset + s.pos < 2 ^ 64 ∧ s.len < 2 ^ 64
  | _ => s.len < 2 ^ 56

/-- Formatting succeeds and gives one documented line per segment, each denoting its segment. -/
theorem segments_spec (style : Style) (hst : style ≠ .binary) (offset minWidth : Nat) (stream : Bytes) : ∀ segs : List Seg,
    (∀ s ∈ segs, s.pos + s.len ≤ stream.length ∧ Fits style offset s) →
    ∃ text, segments style offset minWidth stream segs = .ok text ∧
      Reading (Line StrictColumns style.field style.field) (lines text) (segs.map (recOf style offset stream)) false ∧
      ∀ l ∈ lines text, ∃ s ∈ segs, l.length ≤ 47 + 4 * max s.len minWidth
  | [], _ => ⟨[], rfl, .nil, by simp [lines, lines.go]⟩
  | s :: rest, h => by
    obtain ⟨hb, hfit⟩ := h s (by simp)
    obtain ⟨text, ht, hr, hl⟩ := segments_spec style hst offset minWidth stream rest fun x hx => h x (List.mem_cons_of_mem _ hx)
    have hlen := bytes_length hb
    have key : ∃ l : Bytes, segment style offset minWidth stream s = .ok (l ++ [10]) ∧ 10 ∉ l ∧
        Line StrictColumns style.field style.field l (recOf style offset stream s) ∧ l.length ≤ 47 + 4 * max s.len minWidth := by
      unfold segment
      rw [if_neg (by omega)]
      match style, hst, hfit with
      | .hhh, _, hfit =>
        obtain ⟨l, h1, h2, h3⟩ := lineHhh_spec (s.bytes stream) (offset + s.pos) (max s.len minWidth) (by rw [hlen]; exact hfit)
        have hfits := lineHhh_fits (s.bytes stream) (offset + s.pos) (max s.len minWidth) (by rw [hlen]; exact Nat.le_max_left _ _)
        have hll := lineHhh_length (s.bytes stream) (offset + s.pos) (max s.len minWidth) (by rw [hlen]; exact Nat.le_max_left _ _)
        refine ⟨l, ?_, h2, ?_, ?_⟩
        · simp only
          rw [if_neg (by rw [Nat.max_comm minWidth]; omega), h1]
        · rw [hlen] at h3; exact h3
        · rw [h1] at hll
          simp only [List.length_append, List.length_singleton] at hll
          unfold activeBytes at hll
          omega
      | .ddh, _, hfit =>
        obtain ⟨f1, f2⟩ := hfit
        obtain ⟨l, h1, h2, h3⟩ := lineDdh_spec (s.bytes stream) (offset + s.pos) (max s.len minWidth) f1 (by rw [hlen]; exact f2)
        have hw : (s.bytes stream).length ≤ max s.len minWidth := by rw [hlen]; exact Nat.le_max_left _ _
        have hfits := lineDdh_fits (s.bytes stream) (offset + s.pos) (max s.len minWidth) f1 (by rw [hlen]; exact f2) hw
        refine ⟨l, ?_, h2, ?_, ?_⟩
        · simp only
          rw [if_neg (by rw [Nat.max_comm minWidth]; omega), h1]
        · rw [hlen] at h3; exact h3
        · have h5 := decSingle_length (offset + s.pos) f1
          have h6 := decSingle_length (s.bytes stream).length (by rw [hlen]; exact f2)
          have h7 := lineBody_length _ _ hw
          have hll : (lineDdh (s.bytes stream) (offset + s.pos) (max s.len minWidth)).length = l.length + 1 := by rw [h1]; simp
          simp only [lineDdh, List.length_append, List.length_cons, List.length_nil] at hll
          omega
    obtain ⟨l, k1, k2, k3, k4⟩ := key
    refine ⟨l ++ [10] ++ text, ?_, ?_, ?_⟩
    · simp only [segments, k1, ht]
    · rw [List.append_assoc, List.singleton_append, TextParser.lines_line l text k2]
      exact .good _ _ _ _ _ k3 hr
    · rw [List.append_assoc, List.singleton_append, TextParser.lines_line l text k2]
      intro x hx
      rcases List.mem_cons.1 hx with rfl | hx
      · exact ⟨s, by simp, k4⟩
      · obtain ⟨y, hy, hle⟩ := hl x hx
        exact ⟨y, List.mem_cons_of_mem _ hy, hle⟩

/-- The segments lie side by side from `p` to `total`. -/
def Tiles (total : Nat) : Nat → List Seg → Prop
  | p, [] => p = total
  | p, s :: rest => s.pos = p ∧ Tiles total (p + s.len) rest

theorem Tiles.le {total : Nat} : ∀ {segs : List Seg} {p : Nat}, Tiles total p segs → p ≤ total ∧ ∀ s ∈ segs, s.pos + s.len ≤ total
  | [], p, h => ⟨Nat.le_of_eq h, by simp⟩
  | s :: rest, p, ⟨h1, h2⟩ => by
    obtain ⟨i1, i2⟩ := Tiles.le h2
    refine ⟨by omega, fun x hx => ?_⟩
    rcases List.mem_cons.1 hx with rfl | hx
    · omega
    · exact i2 x hx

theorem recOf_offset (style : Style) (stream : Bytes) (s : Seg) (h : s.pos < 2 ^ 48) : (recOf style 0 stream s).offset = s.pos := by
  simp only [recOf, Nat.zero_add]
  split
  · exact Nat.mod_eq_of_lt h
  · rfl

theorem Tiles.ordered (style : Style) (stream : Bytes) (total : Nat) (ht : total < 2 ^ 48) : ∀ (segs : List Seg) (p : Nat), Tiles total p segs →
    Ordered p (segs.map (recOf style 0 stream))
  | [], _, _ => trivial
  | s :: rest, p, h => by
    have hle := h.le
    obtain ⟨h1, h2⟩ := h
    have ho := recOf_offset style stream s (by have := hle.2 s (by simp); omega)
    refine ⟨by rw [ho]; omega, ?_⟩
    rw [ho, h1]
    exact Tiles.ordered style stream total ht rest _ h2

theorem Tiles.place (style : Style) (filler : Byte) (stream : Bytes) (ht : stream.length < 2 ^ 48) : ∀ (segs : List Seg) (p : Nat),
    Tiles stream.length p segs → place filler p (segs.map (recOf style 0 stream)) = stream.drop p
  | [], p, h => by
    have : p = stream.length := h
    subst this; simp [Spec.place]
  | s :: rest, p, h => by
    have hle := h.le.2 s (by simp)
    obtain ⟨h1, h2⟩ := h
    have ho := recOf_offset style stream s (by omega)
    have ih := Tiles.place style filler stream ht rest _ h2
    simp only [List.map_cons, Spec.place]
    rw [ho, h1, show (recOf style 0 stream s).span = s.len from rfl, ih, Nat.sub_self]
    simp only [recOf, Seg.bytes, h1, List.replicate_zero, List.nil_append]
    rw [← List.drop_drop, List.take_append_drop]

theorem Tiles.splice (style : Style) (a stream : Bytes) (ht : stream.length < 2 ^ 48) (ha : a.length = stream.length) :
    ∀ (segs : List Seg) (p : Nat), Tiles stream.length p segs →
      splice p (a.drop p) (segs.map (recOf style 0 stream)) = stream.drop p
  | [], p, h => by
    have : p = stream.length := h
    subst this; simp [Spec.splice, ← ha]
  | s :: rest, p, h => by
    have hle := h.le.2 s (by simp)
    obtain ⟨h1, h2⟩ := h
    have ho := recOf_offset style stream s (by omega)
    have ih := Tiles.splice style a stream ht ha rest _ h2
    simp only [List.map_cons, Spec.splice]
    rw [ho, h1, show (recOf style 0 stream s).span = s.len from rfl, Nat.sub_self, Nat.zero_add]
    split
    · rw [List.drop_drop, ih]
      simp only [recOf, Seg.bytes, h1, List.take_zero, List.nil_append]
      rw [← List.drop_drop, List.take_append_drop]
    · rename_i hc
      rw [List.length_drop] at hc
      rw [List.drop_eq_nil_of_le (by omega), List.drop_eq_nil_of_le (by omega)]

theorem Tiles.steps (style : Style) (stream : Bytes) (total : Nat) (ht : total < 2 ^ 48) : ∀ (segs : List Seg) (p : Nat), Tiles total p segs →
    TextStream.steps p (segs.map (recOf style 0 stream)) ≤ segs.length
  | [], p, h => by simp [TextStream.steps]
  | s :: rest, p, h => by
    have hle := h.le
    obtain ⟨h1, h2⟩ := h
    have ho := recOf_offset style stream s (by have := hle.2 s (by simp); omega)
    have := Tiles.steps style stream total ht rest _ h2
    simp only [List.map_cons, TextStream.steps]
    rw [ho, h1, show (recOf style 0 stream s).span = s.len from rfl]
    simp only [List.length_cons]
    omega

end Format
end Nd
