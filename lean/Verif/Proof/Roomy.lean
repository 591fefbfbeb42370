import Verif.Proof.Lines
import Verif.Proof.StreamBuf
/-!
# How much a `StreamBuf` lends, and text streams as record sources
-/
namespace Nd
open Spec

namespace StreamBuf

theorem fillLoop_grows (f : Closure τ) (target : Nat) : ∀ (fuel : Nat) (s : StreamBuf) (t : τ) (s' : StreamBuf) (t' : τ),
    s.isEof = false → fillLoop f target fuel s t = .ok (s', t') →
    s'.pos = s.pos ∧ (s'.isEof = true ∨ (s'.isEof = false ∧ target ≤ s'.buf.length))
  | 0, s, t, s', t', _, h => by simp [fillLoop] at h
  | fuel + 1, s, t, s', t', he, h => by
    unfold fillLoop at h
    split at h
    · cases h
    · rename_i eof buf t1 hf
      simp only at h
      split at h
      · cases h; exact ⟨rfl, Or.inl rfl⟩
      · split at h
        · cases h
          rename_i hge
          exact ⟨rfl, Or.inr ⟨he, hge⟩⟩
        · have := fillLoop_grows f target fuel _ t1 s' t' (by exact he) h
          exact this

/-- Before a fill, at most seven eighths of the buffer are consumed. -/
def Room (s : StreamBuf) : Prop :=
  s.isEof = true ∨ ((s.pos = 0 ∨ 8 * s.pos + 8 ≤ 7 * (s.len + MARGIN)) ∧ s.len + 1 ≤ s.targetLen)

theorem Room.new (B align : Nat) (filler : Byte) (hB : 0 < B) : Room (newWithAlign B align filler) :=
  Or.inr ⟨Or.inl rfl, by simp [newWithAlign]; omega⟩

/-- Hence a fill that does not report the end lends at least an eighth of a block (less the margin). -/
theorem Room.fill {s : StreamBuf} (h : Room s) {fuel : Nat} {f : Closure τ} {t : τ} {req : Nat} {eof n s' t'}
    (hf : fillBuf fuel f s t req = .ok ((eof, n), s', t')) :
    s'.isEof = eof ∧ (eof = false → s'.buf.length = s'.len + MARGIN ∧ (req - 1777) / 8 ≤ n) := by
  unfold fillBuf at hf
  by_cases he : s.isEof = true
  · rw [if_pos he] at hf
    cases hf
    exact ⟨he, by simp⟩
  · rw [if_neg he] at hf
    have he' : s.isEof = false := by simpa using he
    split at hf
    · cases hf
    · rename_i s1 t1 hl
      obtain ⟨hp, hg⟩ := fillLoop_grows f _ fuel _ t s1 t1 (by exact he') hl
      cases hf
      refine ⟨rfl, fun hne => ?_⟩
      simp only at hne hp ⊢
      rcases hg with hg | ⟨_, hg⟩
      · rw [hg] at hne; cases hne
      · have hM : MARGIN = 256 := rfl
        refine ⟨by simp [resize], ?_⟩
        rcases h with h | ⟨h1, h2⟩
        · exact absurd h he
        · rw [hp]; omega

theorem Room.consume {s : StreamBuf} (B k : Nat) (h : s.isEof = true ∨ (s.buf.length = s.len + MARGIN ∧ s.pos + k ≤ s.len)) (hk : 0 < k) :
    Room (s.consume B k) := by
  unfold StreamBuf.consume
  by_cases he : s.isEof = true
  · simp only [he, if_true]; exact Or.inl rfl
  · obtain ⟨h1, h2⟩ := h.resolve_left he
    have he' : s.isEof = false := by simpa using he
    have hM : MARGIN = 256 := rfl
    simp only [he', Bool.false_eq_true, if_false]
    rw [if_neg (by omega)]
    split
    · exact Or.inr ⟨Or.inl rfl, by simp only; omega⟩
    · refine Or.inr ⟨Or.inr ?_, by simp only; omega⟩
      rename_i hlt
      simp only at hlt ⊢
      omega

end StreamBuf

namespace TextParser

/-- Any buffered stream with newline margins is roomy, whatever its chunks. -/
theorem buffered_roomy {f : StreamBuf.Closure τ} {F} {B fuel : Nat} :
    Roomy (bufferedSrc B fuel f) F B ((B - 1777) / 8)
      (fun s rem => (∃ ph w, Live (bufferedSrc B fuel f) F NlMargin s ph w rem) ∧ s.buf.Room) := by
  rintro s rem ⟨⟨ph, w, hL⟩, hroom⟩
  rcases Live.faithful.fill s ph w rem B hL with ⟨e, hF, heq⟩ | ⟨eof, n, w', s', heq, hR', hn, hm, he', hne', hw', hw''⟩
  · exact Or.inl ⟨e, hF, heq⟩
  · right
    have hfb := heq
    simp only [bufferedSrc] at hfb
    split at hfb
    · cases hfb
    · rename_i r buf t hfill
      cases hfb
      obtain ⟨h1, h2⟩ := hroom.fill hfill
      refine ⟨eof, n, _, heq, hn, ?_, fun h => (hne' h).1, he', ?_, ?_, ?_⟩
      · cases eof with
        | true => rw [he' rfl]; exact Nat.min_le_right _ _
        | false => have := (h2 rfl).2; omega
      · intro h0
        obtain ⟨m, hm1, hm2⟩ := hm h0
        rw [hm2, hm1]
      · intro h0
        refine ⟨⟨_, _, hR'⟩, ?_⟩
        cases eof with
        | true => exact Or.inl h1
        | false => have := (hne' rfl).1; omega
      · intro k hk0 hk
        obtain ⟨s2, w2, heq2, hR2, hw2⟩ := Live.faithful.consume _ _ _ _ k hR' hk
        have hs2 : s2 = { inner := t, buf := buf.consume B k } := by
          simp only [bufferedSrc] at heq2
          cases heq2; rfl
        refine ⟨s2, heq2, ⟨_, _, hR2⟩, ?_⟩
        rw [hs2]
        apply StreamBuf.Room.consume B k _ hk0
        cases eof with
        | true => exact Or.inl h1
        | false =>
          right
          refine ⟨(h2 rfl).1, ?_⟩
          -- the lent bytes are the part of the buffer after the position
          have : n = buf.len - buf.pos := by
            have hfb2 := hfill
            unfold StreamBuf.fillBuf at hfb2
            split at hfb2
            · simp only [Except.ok.injEq, Prod.mk.injEq] at hfb2
              obtain ⟨⟨_, h1⟩, h2, _⟩ := hfb2
              rw [← h1, ← h2]
            · split at hfb2
              · cases hfb2
              · simp only [Except.ok.injEq, Prod.mk.injEq] at hfb2
                obtain ⟨⟨_, h1⟩, h2, _⟩ := hfb2
                rw [← h1, ← h2]
          omega

/-! ## Lines -/

theorem lines_go (cur : Bytes) : ∀ (text : Bytes), text ≠ [] ∨ cur ≠ [] →
    lines.go cur text = (cur ++ firstLine text) :: lines.go [] (afterLine text)
  | [], h => by
    have hc : cur ≠ [] := h.resolve_left (by simp)
    simp [lines.go, hc, firstLine, afterLine]
  | c :: cs, _ => by
    by_cases hc : c = 10
    · subst hc; simp [lines.go, firstLine, afterLine]
    · have hf : firstLine (c :: cs) = c :: firstLine cs := by
        simp [firstLine, List.takeWhile_cons_of_pos, hc]
      have ha : afterLine (c :: cs) = afterLine cs := by
        simp [afterLine, hf]
      rw [hf, ha]
      simp only [lines.go, if_neg hc]
      rw [lines_go (cur ++ [c]) cs (Or.inr (by simp))]
      simp

theorem lines_cons (text : Bytes) (h : text ≠ []) : lines text = firstLine text :: lines (afterLine text) := by
  unfold lines
  rw [lines_go [] text (Or.inl h)]
  rfl

theorem afterLine_length (text : Bytes) (h : text ≠ []) : (afterLine text).length < text.length := by
  have := List.length_pos_iff.2 h
  simp [afterLine]; omega

/-- The records of the lines of a text. -/
theorem yields {S : ByteSrc σ} {F B L R} (h : Roomy S F B L R) (I : Impl) (fuel : Nat) (hf : 0 < fuel) (fo fs : Field) (s : σ) (text : Bytes)
    (hR : R s text) (hL : ∀ l ∈ lines text, l.length < L) (recs : List Rec) (bad : Bool)
    (hr : Reading (Line (Windows I) fo fs) (lines text) recs bad) :
    Yields (recSrc I S B fuel fo fs) (fun e => F e ∨ (bad = true ∧ e = .parse)) bad s recs := by
  refine ⟨fun s recs => ∃ text, R s text ∧ (∀ l ∈ lines text, l.length < L) ∧ Reading (Line (Windows I) fo fs) (lines text) recs bad,
    ⟨text, hR, hL, hr⟩, ?_⟩
  clear hR hL hr
  rintro s recs ⟨text, hR, hL, hr⟩
  simp only [recSrc]
  by_cases hne : text = []
  · subst hne
    have hl : lines [] = [] := rfl
    rw [hl] at hr
    rcases readLine_end h I fuel fo fs s hR with ⟨e, hF, heq⟩ | ⟨s', heq, hR'⟩
    · left; exact ⟨e, Or.inl hF, heq⟩
    · cases hr
      right
      exact ⟨by simp, s', heq, [], hR', by simp [hl], .nil⟩
  · rw [lines_cons text hne] at hL hr
    obtain ⟨hnl, _⟩ := firstLine_spec text
    rcases readLine_spec h I fuel hf fo fs s text hR hne (hL _ (by simp)) with ⟨e, hF, heq⟩ | ⟨hno, heq⟩ | ⟨r, s', hyes, heq, hR'⟩
    · left; exact ⟨e, Or.inl hF, heq⟩
    · left
      cases hr with
      | bad => exact ⟨_, Or.inr ⟨rfl, rfl⟩, heq⟩
      | good _ _ r rs _ hline _ => rw [(lineOf_iff I fo fs _ r hnl).2 hline] at hno; cases hno
    · right
      have hline := (lineOf_iff I fo fs _ r hnl).1 hyes
      cases hr with
      | bad _ _ hno => exact absurd hline (hno r)
      | good _ _ r' rs _ hline' hrest =>
        have : r' = r := by
          have := (lineOf_iff I fo fs _ r' hnl).2 hline'
          rw [hyes] at this; cases this; rfl
        subst this
        exact ⟨by simp, s', heq, afterLine text, hR', fun l hl => hL l (List.mem_cons_of_mem _ hl), hrest⟩

/-- Every list of lines has exactly one reading. -/
theorem reading_exists (I : Impl) (fo fs : Field) : ∀ ls : List Bytes, (∀ l ∈ ls, 10 ∉ l) → ∃ recs bad, Reading (Line (Windows I) fo fs) ls recs bad
  | [], _ => ⟨[], false, .nil⟩
  | l :: ls, h => by
    cases hl : lineOf I fo fs l with
    | none =>
      refine ⟨[], true, .bad l ls fun r hr => ?_⟩
      rw [(lineOf_iff I fo fs l r (h l (by simp))).2 hr] at hl; cases hl
    | some r =>
      obtain ⟨recs, bad, hr⟩ := reading_exists I fo fs ls fun l hl => h l (List.mem_cons_of_mem _ hl)
      exact ⟨r :: recs, bad, .good l ls r recs bad ((lineOf_iff I fo fs l r (h l (by simp))).1 hl) hr⟩

theorem reading_unique (I : Impl) (fo fs : Field) {ls : List Bytes} {recs recs' bad bad'} (hnl : ∀ l ∈ ls, 10 ∉ l)
    (h : Reading (Line (Windows I) fo fs) ls recs bad) (h' : Reading (Line (Windows I) fo fs) ls recs' bad') : recs = recs' ∧ bad = bad' := by
  induction h generalizing recs' bad' with
  | nil => cases h'; exact ⟨rfl, rfl⟩
  | bad l ls hno =>
    cases h' with
    | bad => exact ⟨rfl, rfl⟩
    | good _ _ r _ _ hl _ => exact absurd hl (hno r)
  | good l ls r rs b hl _ ih =>
    cases h' with
    | bad _ _ hno => exact absurd hl (hno r)
    | good _ _ r' rs' _ hl' hr' =>
      obtain ⟨rfl, rfl⟩ := ih (fun l hl => hnl l (List.mem_cons_of_mem _ hl)) hr'
      have h1 := (lineOf_iff I fo fs l r (hnl l (by simp))).2 hl
      have h2 := (lineOf_iff I fo fs l r' (hnl l (by simp))).2 hl'
      rw [h1] at h2; cases h2
      exact ⟨rfl, rfl⟩

theorem lines_no_break : ∀ (n : Nat) (text : Bytes), text.length ≤ n → ∀ l ∈ lines text, 10 ∉ l := by
  intro n
  induction n with
  | zero =>
    intro text h l hl
    have : text = [] := List.length_eq_zero_iff.1 (by omega)
    subst this; simp [lines, lines.go] at hl
  | succ n ih =>
    intro text h l hl
    by_cases hne : text = []
    · subst hne; simp [lines, lines.go] at hl
    · rw [lines_cons text hne] at hl
      have := afterLine_length text hne
      rcases List.mem_cons.1 hl with rfl | hl
      · exact (firstLine_spec text).1
      · exact ih _ (by omega) l hl

end TextParser
end Nd
