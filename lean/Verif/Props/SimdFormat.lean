import Verif.Proof.SimdFormat
/-!
# C36: what the formatters store
-/
namespace Nd.Props
open Nd Nd.Spec Format

/-- **C36**: for every list of slices within the bytes lent by the stream (of which the vectorised builds need 15 more behind each slice), every build
appends the same lines, the ones described by C10 and C14, whatever the memory contained before; no load leaves the stream and no store leaves the reserved region. -/
theorem C36_stores (style : Style) (offset minWidth : Nat) (stream : Bytes) (segs : List Seg) (hlen : ∀ s ∈ segs, s.len < 2 ^ 56)
    (hoff : ∀ s ∈ segs, offset + s.pos < 2 ^ 64) (hin : ∀ s ∈ segs, s.pos + s.len ≤ stream.length) :
    ∃ out, segments style offset minWidth stream segs = .ok out ∧
      ∀ (I : Impl) (m : Vec) (buf : Bytes), (I ≠ .portable → ∀ s ∈ segs, s.pos + s.len + 15 ≤ stream.length) →
        storeSegments I style offset minWidth stream m segs buf = some (buf ++ out) := by
  induction segs with
  | nil => exact ⟨[], rfl, fun I m buf _ => by rw [List.append_nil]; rfl⟩
  | cons s segs ih =>
    obtain ⟨out, h1, h2⟩ := ih (fun t ht => hlen t (List.mem_cons_of_mem _ ht)) (fun t ht => hoff t (List.mem_cons_of_mem _ ht)) (fun t ht => hin t (List.mem_cons_of_mem _ ht))
    have hl := hlen s List.mem_cons_self
    have ho := hoff s List.mem_cons_self
    have hi := hin s List.mem_cons_self
    have hmax : max minWidth s.len = max s.len minWidth := Nat.max_comm _ _
    have hle : s.len ≤ max s.len minWidth := Nat.le_max_left _ _
    have hbl : (s.bytes stream).length = s.len := by unfold Seg.bytes; rw [List.length_take, List.length_drop]; omega
    suffices ∃ line, segment style offset minWidth stream s = .ok line ∧ ∀ (I : Impl) (m : Vec) (buf : Bytes), (I ≠ .portable → s.pos + s.len + 15 ≤ stream.length) →
        storeSegment I style offset minWidth stream m s buf = some (buf ++ line) by
      obtain ⟨line, h3, h4⟩ := this
      refine ⟨line ++ out, ?_, fun I m buf hm => ?_⟩
      · rw [segments, h3]; simp only [h1]
      · rw [storeSegments, h4 I m buf fun hI => hm hI s List.mem_cons_self, Option.bind_some, h2 I m _ fun hI t ht => hm hI t (List.mem_cons_of_mem _ ht), List.append_assoc]
    unfold segment storeSegment
    simp only [if_neg (show ¬ s.pos + s.len > stream.length by omega), hmax]
    cases style with
    | binary => exact ⟨_, rfl, fun I m buf _ => rfl⟩
    | hhh =>
      have hf := lineHhh_fits (s.bytes stream) (offset + s.pos) (max s.len minWidth) (by omega)
      refine ⟨_, if_neg (by omega), fun I m buf hm => ?_⟩
      obtain ⟨m', h5, h6⟩ := storeHhh_spec I stream s.pos s.len (offset + s.pos) (max s.len minWidth) m hle hl hi hm
      simp only [fillUninit, h5]
      rw [h6]
      exact if_pos hf
    | ddh =>
      have hf := lineDdh_fits (s.bytes stream) (offset + s.pos) (max s.len minWidth) ho (by omega) (by omega)
      refine ⟨_, if_neg (by omega), fun I m buf hm => ?_⟩
      obtain ⟨m', h5, h6⟩ := storeDdh_spec I stream s.pos s.len (offset + s.pos) (max s.len minWidth) m hle (by omega) ho hi hm
      simp only [fillUninit, h5]
      rw [h6]
      exact if_pos hf

/-- One line of two bytes in every build, `000000000001 0002 | 41 00 | A.`, with 15 bytes behind them. -/
example (I : Impl) (m : Vec) : storeSegments I .hhh 0 0 ([0, 0x41, 0] ++ List.replicate 15 10) m [⟨1, 2⟩] [] =
    some [48, 48, 48, 48, 48, 48, 48, 48, 48, 48, 48, 49, 32, 48, 48, 48, 50, 32, 124, 32, 52, 49, 32, 48, 48, 32, 124, 32, 65, 46, 10] := by
  obtain ⟨out, h1, h2⟩ := C36_stores .hhh 0 0 ([0, 0x41, 0] ++ List.replicate 15 10) [⟨1, 2⟩] (by decide) (by decide) (by decide)
  have h3 : (segments .hhh 0 0 ([0, 0x41, 0] ++ List.replicate 15 10) [⟨1, 2⟩]).toOption =
      some [48, 48, 48, 48, 48, 48, 48, 48, 48, 48, 48, 49, 32, 48, 48, 48, 50, 32, 124, 32, 52, 49, 32, 48, 48, 32, 124, 32, 65, 46, 10] := by decide +kernel
  rw [h1] at h3
  cases h3
  exact h2 I m [] fun _ => by decide

/-- The 15 bytes are needed: with fewer the vectorised builds load behind the end of the stream. -/
example : (storeSegments .portable .hhh 0 0 [0x41] (fun _ => 0) [⟨0, 1⟩] []).isSome ∧ (storeSegments .avx2 .hhh 0 0 ([0x41] ++ List.replicate 14 10) (fun _ => 0) [⟨0, 1⟩] []).isNone ∧
    (storeSegments .neon .hhh 0 0 ([0x41] ++ List.replicate 14 10) (fun _ => 0) [⟨0, 1⟩] []).isNone := by
  decide +kernel

end Nd.Props
