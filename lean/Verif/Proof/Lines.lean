import Verif.Proof.Body
import Verif.Proof.Text
/-!
# From bytes to records
-/
namespace Nd
open Spec
namespace TextParser

/-- The header of a line. -/
theorem readHead_iff (fo fs : Field) (l rest : Bytes) (fwd off span : Nat) (hnl : 10 ∉ l) :
    readHead (fo.parse .portable) (fs.parse .portable) (l ++ 10 :: rest) = some (fwd, off, span) ↔
      ∃ o s tail, l = o ++ 32 :: (s ++ tail) ∧ FieldText fo o off ∧ FieldText fs s span ∧ FieldEnd fs tail ∧
        fwd = o.length + s.length + 1 := by
  unfold readHead
  constructor
  · intro h
    split at h
    · cases h
    · rename_i off' fwd1 h1
      obtain ⟨o, t, rfl, ho, rfl, he⟩ := (Field.parse_iff fo l rest off' fwd1 hnl).1 h1
      by_cases hg : (o ++ t ++ 10 :: rest)[o.length]? ≠ some 32
      · rw [if_pos hg] at h; cases h
      · rw [if_neg hg] at h
        simp only [ne_eq, Decidable.not_not] at hg
        rw [List.append_assoc, List.getElem?_append_right (Nat.le_refl _), Nat.sub_self] at hg
        have hnt : 10 ∉ t := fun h => hnl (List.mem_append_right _ h)
        cases t with
        | nil => simp at hg
        | cons c t =>
          simp only [List.cons_append, List.getElem?_cons_zero, Option.some.injEq] at hg
          subst hg
          have hd : (o ++ 32 :: t ++ 10 :: rest).drop (o.length + 1) = t ++ 10 :: rest := by
            rw [List.append_assoc, ← List.drop_drop, List.drop_left]; rfl
          rw [hd] at h
          split at h
          · cases h
          · rename_i span' fwd2 h2
            cases h
            obtain ⟨s, tail, rfl, hs, rfl, he2⟩ := (Field.parse_iff fs t rest span fwd2 (fun h => hnt (List.mem_cons_of_mem _ h))).1 h2
            exact ⟨o, s, tail, rfl, ho, hs, he2, rfl⟩
  · rintro ⟨o, s, tail, rfl, ho, hs, he, rfl⟩
    have h1 : fo.parse .portable (o ++ 32 :: (s ++ tail) ++ 10 :: rest) = some (off, o.length) := by
      rw [Field.parse_iff fo _ rest _ _ hnl]
      refine ⟨o, 32 :: (s ++ tail), rfl, ho, rfl, ?_⟩
      cases fo with
      | hex => exact Or.inr ⟨32, _, rfl, Or.inl rfl⟩
      | dec => exact ⟨_, rfl⟩
    have hnt : 10 ∉ s ++ tail := fun h => hnl (List.mem_append_right _ (List.mem_cons_of_mem _ h))
    rw [h1]
    simp only
    have hg : (o ++ 32 :: (s ++ tail) ++ 10 :: rest)[o.length]? = some 32 := by
      rw [List.append_assoc, List.getElem?_append_right (Nat.le_refl _), Nat.sub_self]; rfl
    rw [if_neg (by rw [hg]; simp)]
    have hd : (o ++ 32 :: (s ++ tail) ++ 10 :: rest).drop (o.length + 1) = s ++ tail ++ 10 :: rest := by
      rw [List.append_assoc, ← List.drop_drop, List.drop_left]; rfl
    rw [hd, (Field.parse_iff fs (s ++ tail) rest span s.length hnt).2 ⟨s, tail, rfl, hs, rfl, he⟩]

/-- Headers are read alike in every build. -/
theorem readHead_eq (I : Impl) (fo fs : Field) (l rest : Bytes) (hnl : 10 ∉ l) (hr : 16 ≤ rest.length) :
    readHead (fo.parse I) (fs.parse I) (l ++ 10 :: rest) = readHead (fo.parse .portable) (fs.parse .portable) (l ++ 10 :: rest) := by
  unfold readHead
  rw [Field.parse_eq I fo _ (by simp; omega)]
  cases h : fo.parse .portable (l ++ 10 :: rest) with
  | none => rfl
  | some p =>
    obtain ⟨off, fwd1⟩ := p
    obtain ⟨o, t, rfl, _, rfl, _⟩ := (Field.parse_iff fo l rest off fwd1 hnl).1 h
    simp only
    rw [Field.parse_eq I fs _ (by simp; omega)]

/-- The record of a line, if it is well-formed. -/
def lineOf (I : Impl) (fo fs : Field) (l : Bytes) : Option Rec :=
  match readHead (fo.parse .portable) (fs.parse .portable) (l ++ [10]) with
  | none => none
  | some (fwd, off, span) =>
    match l.drop fwd with
    | [] => some { offset := off, span := span, data := [] }
    | 32 :: 124 :: 32 :: b => (colBlocks I (upTo b)).map fun d => { offset := off, span := span, data := d }
    | _ => none

theorem lineOf_iff (I : Impl) (fo fs : Field) (l : Bytes) (r : Rec) (hnl : 10 ∉ l) : lineOf I fo fs l = some r ↔ Line (Windows I) fo fs l r := by
  unfold lineOf
  constructor
  · intro h
    split at h
    · cases h
    · rename_i fwd off span hh
      obtain ⟨o, s, tail, rfl, ho, hs, he, rfl⟩ := (readHead_iff fo fs l [] fwd off span hnl).1 hh
      have hd : (o ++ 32 :: (s ++ tail)).drop (o.length + s.length + 1) = tail := by
        rw [show o.length + s.length + 1 = o.length + (1 + s.length) by omega, ← List.drop_drop, List.drop_left, ← List.drop_drop]
        simp
      rw [hd] at h
      split at h
      · cases h
        rw [List.append_nil]
        refine .header o s off span ho hs ?_
        cases fs with
        | hex => rfl
        | dec => obtain ⟨t, ht⟩ := he; cases ht
      · rename_i b
        simp only [Option.map_eq_some_iff] at h
        obtain ⟨d, hd2, rfl⟩ := h
        obtain ⟨t, ht, ht2⟩ := upTo_prefix b
        rw [ht]
        exact .array o s (upTo b) t off span d ho hs ((colBlocks_iff I _ _).1 hd2) (upTo_not_mem b) ht2
      · cases h
  · intro h
    cases h with
    | header o s off span ho hs hf =>
      subst hf
      have hh := (readHead_iff fo .hex (o ++ 32 :: s) [] _ off span hnl).2 ⟨o, s, [], by simp, ho, hs, Or.inl rfl, rfl⟩
      rw [hh]
      simp only
      have : (o ++ 32 :: s).drop (o.length + s.length + 1) = [] := List.drop_of_length_le (by simp; omega)
      rw [this]
    | array o s arr tail off span d ho hs hc hn ht =>
      have hh := (readHead_iff fo fs _ [] _ off span hnl).2 ⟨o, s, 32 :: 124 :: 32 :: (arr ++ tail), rfl, ho, hs, by
        cases fs with
        | hex => exact Or.inr ⟨32, _, rfl, Or.inl rfl⟩
        | dec => exact ⟨_, rfl⟩, rfl⟩
      rw [hh]
      simp only
      have hd : (o ++ 32 :: (s ++ 32 :: 124 :: 32 :: (arr ++ tail))).drop (o.length + s.length + 1) = 32 :: 124 :: 32 :: (arr ++ tail) := by
        rw [show o.length + s.length + 1 = o.length + (1 + s.length) by omega, ← List.drop_drop, List.drop_left, ← List.drop_drop]
        simp
      rw [hd]
      simp only [upTo_append hn ht, (colBlocks_iff I _ _).2 hc, Option.map_some]

/-- What the caller of `read_line` needs from the byte stream: every fill with a request of one block lends at
least `L` bytes, or everything that remains, followed by line breaks. -/
def Roomy (S : ByteSrc σ) (F : Err → Prop) (B L : Nat) (R : σ → Bytes → Prop) : Prop :=
  ∀ s rem, R s rem →
    (∃ e, F e ∧ S.fill s B = .error e) ∨
    ∃ eof n s', S.fill s B = .ok ((eof, n), s') ∧ n ≤ rem.length ∧ min L rem.length ≤ n ∧ (eof = false → 1 ≤ n) ∧
      (eof = true → n = rem.length) ∧ (0 < n → S.slice s' = rem.take n ++ List.replicate MARGIN 10) ∧
      (n = 0 → R s' rem) ∧ ∀ k, 0 < k → k ≤ n → ∃ s'', S.consume s' k = .ok s'' ∧ R s'' (rem.drop k)

/-- The first line of a text and what follows it. -/
def firstLine (text : Bytes) : Bytes := text.takeWhile (· != 10)

def afterLine (text : Bytes) : Bytes := text.drop ((firstLine text).length + 1)

theorem firstLine_spec (text : Bytes) : 10 ∉ firstLine text ∧
    (text = firstLine text ∧ afterLine text = [] ∨ text = firstLine text ++ 10 :: afterLine text) := by
  induction text with
  | nil => simp [firstLine, afterLine]
  | cons c cs ih =>
    by_cases h : c = 10
    · subst h; simp [firstLine, afterLine]
    · have hf : firstLine (c :: cs) = c :: firstLine cs := by
        simp [firstLine, List.takeWhile_cons_of_pos, h]
      have ha : afterLine (c :: cs) = afterLine cs := by
        simp [afterLine, hf]
      rw [hf, ha]
      refine ⟨by simp only [List.mem_cons, not_or]; exact ⟨fun h' => h h'.symm, ih.1⟩, ?_⟩
      rcases ih.2 with ⟨h1, h2⟩ | h1
      · left; exact ⟨congrArg _ h1, h2⟩
      · right; rw [List.cons_append]; exact congrArg _ h1

theorem readLine_end {S : ByteSrc σ} {F B L R} (h : Roomy S F B L R) (I : Impl) (fuel : Nat) (fo fs : Field) (s : σ) (hR : R s []) :
    (∃ e, F e ∧ readLine I S B fuel fo fs s = .error e) ∨
    ∃ s', readLine I S B fuel fo fs s = .ok (none, s') ∧ R s' [] := by
  unfold readLine
  rcases h s [] hR with ⟨e, hF, heq⟩ | ⟨eof, n, s', heq, h1, _, h3, _, _, h7, _⟩
  · left; exact ⟨e, hF, by simp only [heq]⟩
  · right
    have hn : n = 0 := by simpa using h1
    subst hn
    have he : eof = true := by cases eof with | true => rfl | false => have := h3 rfl; omega
    subst he
    exact ⟨s', by simp only [heq]; rfl, h7 rfl⟩

theorem Roomy.ended {S : ByteSrc σ} {F B L R} (h : Roomy S F B L R) {s : σ} (hR : R s []) :
    (∃ e, F e ∧ S.fill s B = .error e) ∨ ∃ s', S.fill s B = .ok ((true, 0), s') ∧ R s' [] := by
  rcases h s [] hR with he | ⟨eof, n, s', heq, h1, _, h3, _, _, h7, _⟩
  · exact Or.inl he
  · right
    have hn : n = 0 := by simpa using h1
    subst hn
    have he : eof = true := by cases eof with | true => rfl | false => have := h3 rfl; omega
    subst he
    exact ⟨s', heq, h7 rfl⟩

theorem readLine_spec {S : ByteSrc σ} {F B L R} (h : Roomy S F B L R) (I : Impl) (fuel : Nat) (hf : 0 < fuel) (fo fs : Field) (s : σ) (text : Bytes)
    (hR : R s text) (hne : text ≠ []) (hL : (firstLine text).length < L) :
    (∃ e, F e ∧ readLine I S B fuel fo fs s = .error e) ∨
    (lineOf I fo fs (firstLine text) = none ∧ readLine I S B fuel fo fs s = .error .parse) ∨
    ∃ r s', lineOf I fo fs (firstLine text) = some r ∧ readLine I S B fuel fo fs s = .ok (some r, s') ∧
      R s' (afterLine text) := by
  obtain ⟨hnl, hsplit⟩ := firstLine_spec text
  generalize hl : firstLine text = l at *
  generalize ha : afterLine text = after at *
  unfold readLine
  rcases h s text hR with ⟨e, hF, heq⟩ | ⟨eof, n, s1, heq, hn, hmin, hne', heof, hsl, _, hcons⟩
  · left; exact ⟨e, hF, by simp only [heq]⟩
  · have hpos : 0 < text.length := List.length_pos_iff.2 hne
    have hn0 : 0 < n := by
      cases eof with
      | true => rw [heof rfl]; exact hpos
      | false => exact hne' rfl
    have hsl := hsl hn0
    simp only [heq]
    rw [if_neg (by simp; omega)]
    -- the slice starts with the line and a line break
    have hln : l.length ≤ n ∧ (l.length = n → text = l) := by
      rcases hsplit with ⟨h1, _⟩ | h1
      · have : text.length = l.length := congrArg List.length h1
        refine ⟨by omega, fun _ => h1⟩
      · have : text.length = l.length + after.length + 1 := by rw [h1]; simp; omega
        refine ⟨by omega, fun h2 => by omega⟩
    have hst : ∃ rest, 16 ≤ rest.length ∧ S.slice s1 = l ++ 10 :: rest := by
      rcases Nat.lt_or_ge l.length n with hlt | hge
      · rcases hsplit with ⟨h1, _⟩ | h1
        · have : text.length = l.length := congrArg List.length h1
          omega
        · refine ⟨after.take (n - l.length - 1) ++ List.replicate MARGIN 10, by rw [List.length_append, List.length_replicate, show MARGIN = 256 from rfl]; omega, ?_⟩
          rw [hsl, h1, List.take_append, List.take_of_length_le (by omega)]
          rw [show n - l.length = (n - l.length - 1) + 1 by omega, List.take_succ_cons]
          simp
      · have hle : l.length = n := by omega
        have := hln.2 hle
        refine ⟨List.replicate 255 10, by rw [List.length_replicate]; decide, ?_⟩
        rw [hsl, this, List.take_of_length_le (by omega)]
        rfl
    obtain ⟨rest, hrest, hst⟩ := hst
    rw [hst]
    have hafter : text.drop (min (l.length + 1) n) = after := by
      rcases hsplit with ⟨h1, h2⟩ | h1
      · rw [h2]; exact List.drop_of_length_le (by have : text.length = l.length := congrArg List.length h1; omega)
      · have : text.length = l.length + after.length + 1 := by rw [h1]; simp; omega
        have hlt : l.length < n := by
          rcases Nat.lt_or_ge l.length n with h | h
          · exact h
          · have := hln.2 (by omega); rw [h1] at this
            have := congrArg List.length this
            simp at this
        rw [Nat.min_eq_left (by omega), h1, ← List.drop_drop, List.drop_left]; rfl
    have hheads : readHead (fo.parse .portable) (fs.parse .portable) (l ++ 10 :: rest) = readHead (fo.parse .portable) (fs.parse .portable) (l ++ [10]) := by
      apply Option.ext
      rintro ⟨a, b, c⟩
      rw [readHead_iff fo fs l rest a b c hnl, readHead_iff fo fs l [] a b c hnl]
    rw [readHead_eq I fo fs l rest hnl hrest, hheads]
    unfold lineOf
    cases hh : readHead (fo.parse .portable) (fs.parse .portable) (l ++ [10]) with
    | none => right; left; exact ⟨rfl, rfl⟩
    | some p =>
      obtain ⟨fwd, off, span⟩ := p
      simp only
      obtain ⟨o, t, tail, hl2, ho, hs, he, hfwd⟩ := (readHead_iff fo fs l [] fwd off span hnl).1 hh
      have hfl : fwd ≤ l.length := by rw [hl2, hfwd]; simp; omega
      have hdl : l.drop fwd = tail := by
        rw [hl2, hfwd, show o.length + t.length + 1 = o.length + (1 + t.length) by omega, ← List.drop_drop, List.drop_left, ← List.drop_drop]
        simp
      have hdrop : (l ++ 10 :: rest).drop fwd = tail ++ 10 :: rest := by
        rw [List.drop_append_of_le_length hfl, hdl]
      have hget : (l ++ 10 :: rest)[fwd]? = (tail ++ 10 :: rest)[0]? := by
        rw [← hdrop, List.getElem?_drop, Nat.add_zero]
      have hlen : l.length = fwd + tail.length := by
        have := congrArg List.length hdl
        simp at this; omega
      rw [hdl, hget, hdrop]
      have hnt : 10 ∉ tail := fun hm => hnl (by rw [← hdl] at hm; exact List.mem_of_mem_drop hm)
      cases tail with
      | nil =>
        right; right
        simp only [List.nil_append, List.getElem?_cons_zero, if_true]
        obtain ⟨s2, heq2, hR2⟩ := hcons (min (fwd + 1) n) (by omega) (Nat.min_le_right _ _)
        refine ⟨_, s2, rfl, by simp only [heq2], ?_⟩
        have : min (fwd + 1) n = min (l.length + 1) n := by rw [hlen]; rfl
        rw [this, hafter] at hR2
        exact hR2
      | cons c tl =>
        have hc : c ≠ 10 := by rintro rfl; simp at hnt
        simp only [List.cons_append, List.getElem?_cons_zero]
        rw [if_neg (by simpa using hc)]
        by_cases hd : (c :: (tl ++ 10 :: rest)).take 3 ≠ [32, 124, 32]
        · rw [if_pos hd]
          right; left
          refine ⟨?_, rfl⟩
          split
          · rename_i hx; cases hx
          · rename_i b hx; cases hx; simp at hd
          · rfl
        · rw [if_neg hd]
          simp only [ne_eq, Decidable.not_not] at hd
          obtain ⟨b, rfl, rfl⟩ : ∃ b, c = 32 ∧ tl = 124 :: 32 :: b := by
            simp only [List.take_succ_cons, List.cons.injEq] at hd
            obtain ⟨rfl, hd⟩ := hd
            cases tl with
            | nil => simp at hd
            | cons x tl =>
              simp only [List.cons_append, List.take_succ_cons, List.cons.injEq] at hd
              obtain ⟨rfl, hd⟩ := hd
              cases tl with
              | nil => simp at hd
              | cons y tl =>
                simp only [List.cons_append, List.take_succ_cons, List.cons.injEq] at hd
                obtain ⟨rfl, _⟩ := hd
                exact ⟨tl, rfl, rfl⟩
          simp only [List.length_cons] at hlen
          rw [if_neg (by omega)]
          have hd3 : (l ++ 10 :: rest).drop (fwd + 3) = b ++ 10 :: rest := by
            rw [← List.drop_drop, hdrop]; rfl
          rw [hd3]
          have hnb : 10 ∉ b := fun hm => hnt (by simp [hm])
          rcases bodyLoop_spec I b rest (n - fwd - 3) (n + 1) false hnb (by omega) (by omega) with ⟨h1, h2, h3⟩ | ⟨d, tl', h1, h3⟩
          · right; left
            simp only [dataOf, Bool.false_eq_true, if_false] at h1
            exact ⟨by simp only [h1]; rfl, by rw [h3]⟩
          · simp only [dataOf, Bool.false_eq_true, if_false] at h1
            simp only [h3]
            have hk : n - (n - fwd - 3 - b.length - 1) = min (l.length + 1) n := by omega
            rw [hk]
            obtain ⟨s2, heq2, hR2⟩ := hcons (min (l.length + 1) n) (by omega) (Nat.min_le_right _ _)
            rw [hafter] at hR2
            simp only [heq2]
            by_cases heol : b.length < n - fwd - 3
            · right; right
              rw [if_pos (by simpa using heol)]
              exact ⟨_, s2, by rw [h1]; rfl, rfl, hR2⟩
            · rw [if_neg (by simpa using heol)]
              have hlast : l.length = n := by omega
              have htl := hln.2 hlast
              have haf : after = [] := by
                rcases hsplit with ⟨_, h⟩ | h
                · exact h
                · have h' := congrArg List.length (htl.symm.trans h); simp at h'
              obtain ⟨k, rfl⟩ : ∃ k, fuel = k + 1 := ⟨fuel - 1, by omega⟩
              rw [haf] at hR2
              unfold readLineContinued
              rcases h.ended hR2 with ⟨e, hF, heq3⟩ | ⟨s3, heq3, hR3⟩
              · left; exact ⟨e, hF, by simp only [heq3]⟩
              · right; right
                refine ⟨_, s3, by rw [h1]; rfl, ?_, by rw [haf]; exact hR3⟩
                simp [heq3]

end TextParser
end Nd
