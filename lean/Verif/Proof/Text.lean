import Verif.Proof.Reject
/-! Proofs about `GaplessTextStream` and `TextStream`. -/
namespace Nd
open Spec

/-- One step of a record source, for use with the universal relation. -/
theorem Yields.read {P : RecSrc τ} {F bad t recs} (h : Yields P F bad t recs) :
    (∃ e, F e ∧ P.read t = .error e) ∨
    (¬ (bad = true ∧ recs = []) ∧ ∃ t', P.read t = .ok (recs.head?, t') ∧ Yields P F bad t' recs.tail) := by
  obtain ⟨R, h1, h2⟩ := h
  rcases h2 t recs h1 with h | ⟨h3, t', h4, h5⟩
  · exact Or.inl h
  · exact Or.inr ⟨h3, t', h4, R, h5, h2⟩

namespace GaplessTextStream

theorem feed_produces {P : RecSrc τ} {F} :
    Produces (feed P) F (fun t _ w p => ∃ recs, Yields P F false t recs ∧ p = (recs.map Rec.data).flatten ∧ recs.length ≤ w) (fun _ => True) := by
  rintro t w p req buf ⟨recs, h, rfl, hw⟩
  unfold feed
  rcases h.read with ⟨e, he, heq⟩ | ⟨_, t', heq, h'⟩
  · left; exact ⟨e, he, by simp only [heq]⟩
  · right
    cases recs with
    | nil => exact ⟨true, [], t', [], by simp only [heq, List.head?_nil, List.append_nil], rfl, fun _ => ⟨rfl, trivial⟩, by simp⟩
    | cons r recs =>
      refine ⟨false, r.data, t', (recs.map Rec.data).flatten, by simp only [heq, List.head?_cons], by simp, by simp, ?_⟩
      intro _
      exact ⟨recs.length, by simp at hw; omega, recs, h', rfl, Nat.le_refl _⟩

theorem delivers {P : RecSrc τ} {F} {B fuel align : Nat} {filler : Byte} (hB : 0 < B) (ha : 0 < align) {t : τ} {recs : List Rec}
    (h : Yields P F false t recs) (hf : recs.length < fuel) :
    Delivers (byteSrc P B fuel) F NlMargin (new B t align filler) recs.length
      ((recs.map Rec.data).flatten ++ List.replicate (padLen align (recs.map Rec.data).flatten.length) filler) :=
  buffered_delivers feed_produces hB ha ⟨recs, h, rfl, Nat.le_refl _⟩ hf

theorem feed_fails {P : RecSrc τ} {F} :
    FailsSoon (feed P) F (fun t w => ∃ recs, Yields P F true t recs ∧ recs.length ≤ w) := by
  rintro t w req buf ⟨recs, h, hw⟩
  unfold feed
  rcases h.read with ⟨e, he, heq⟩ | ⟨hne, t', heq, h'⟩
  · left; exact ⟨e, he, by simp only [heq]⟩
  · right
    cases recs with
    | nil => exact absurd ⟨rfl, rfl⟩ hne
    | cons r recs =>
      exact ⟨_, _, recs.length, by simp only [heq, List.head?_cons]; rfl, ⟨recs, h', Nat.le_refl _⟩, by simp at hw; omega⟩

end GaplessTextStream

namespace TextStream

/-- Closure calls needed for the records. -/
def steps : Nat → List Rec → Nat
  | _, [] => 0
  | pos, r :: rs => r.offset - pos + 1 + steps (r.offset + r.span) rs

theorem resize_grow (l : Bytes) (n : Nat) (x : Byte) : resize l (l.length + n) x = l ++ List.replicate n x := by
  unfold resize
  rw [List.take_of_length_le (by omega)]
  congr 2; omega

/-- The state holds record `r`, or none is left. -/
def Holds (P : RecSrc τ) (F : Err → Prop) (bad : Bool) (l : Feeder τ) : List Rec → Prop
  | [] => l.offset = usizeMax ∧ l.buf = [] ∧ l.span = 0 ∧ bad = false
  | r :: rs => l.offset = r.offset ∧ l.span = r.span ∧ l.buf = r.data ∧ Yields P F bad l.src rs

theorem fill_holds {P : RecSrc τ} {F bad} {f : Feeder τ} {recs : List Rec} (h : Yields P F bad f.src recs) :
    (∃ e, F e ∧ f.fill P = .error e) ∨
    (¬ (bad = true ∧ recs = []) ∧ ∃ f', f.fill P = .ok (recs.isEmpty, f') ∧ Holds P F bad f' recs) := by
  unfold Feeder.fill
  rcases h.read with ⟨e, he, heq⟩ | ⟨hne, t', heq, h'⟩
  · left; exact ⟨e, he, by simp only [heq]⟩
  · right
    refine ⟨hne, ?_⟩
    cases recs with
    | nil =>
      refine ⟨_, by simp only [heq, List.head?_nil, List.isEmpty_nil]; rfl, rfl, rfl, rfl, ?_⟩
      cases bad <;> simp_all
    | cons r rs => exact ⟨_, by simp only [heq, List.head?_cons, List.isEmpty_cons]; rfl, rfl, rfl, rfl, h'⟩

theorem feed_produces {P : RecSrc τ} {F} {B : Nat} {filler : Byte} (hB : 0 < B) :
    Produces (feed P B filler) F
      (fun t _ w p => ∃ recs, Holds P F false t.line recs ∧ Ordered t.offset recs ∧ (∀ r ∈ recs, r.offset < usizeMax) ∧
        p = place filler t.offset recs ∧ steps t.offset recs ≤ w) (fun _ => True) := by
  rintro t w p req buf ⟨recs, hh, ho, hm, rfl, hw⟩
  unfold feed
  cases recs with
  | nil =>
    right
    rw [if_pos hh.1]
    exact ⟨true, [], t, [], by simp, rfl, fun _ => ⟨rfl, trivial⟩, by simp⟩
  | cons r rs =>
    obtain ⟨h1, h2, h3, h4⟩ := hh
    have hr := hm r (by simp)
    obtain ⟨ho1, ho2⟩ := ho
    rw [if_neg (by omega)]
    simp only [h1]
    rw [if_neg (by omega)]
    rw [resize_grow]
    by_cases hb : min (t.offset + B) r.offset - t.offset = B
    · rw [if_pos hb]
      right
      refine ⟨false, List.replicate (min (t.offset + B) r.offset - t.offset) filler, _, place filler (t.offset + B) (r :: rs), rfl, ?_, by simp, ?_⟩
      · simp only [place]
        conv => rhs; rw [← List.append_assoc, List.replicate_append_replicate, hb]
        congr 2; omega
      · intro _
        refine ⟨steps (t.offset + B) (r :: rs), ?_, r :: rs, ⟨h1, h2, h3, h4⟩, ?_, hm, ?_, ?_⟩
        · simp only [steps] at hw ⊢; omega
        · simp only [hb]; exact ⟨by omega, ho2⟩
        · simp only [hb]
        · simp only [hb]; exact Nat.le_refl _
    · rw [if_neg hb]
      have hle : min (t.offset + B) r.offset = r.offset := by omega
      have hgo : t.offset + (min (t.offset + B) r.offset - t.offset) + t.line.span = r.offset + r.span := by omega
      rcases fill_holds h4 with ⟨e, he, heq⟩ | ⟨_, f', heq, hh'⟩
      · left; exact ⟨e, he, by simp only [heq]⟩
      · right
        simp only [heq, hgo]
        have hchk : (!rs.isEmpty && decide (r.offset + r.span > f'.offset)) = false := by
          cases rs with
          | nil => rfl
          | cons r' rs' =>
            have := hh'.1
            have := ho2.1
            simp; omega
        rw [hchk]
        refine ⟨rs.isEmpty, List.replicate (r.offset - t.offset) filler ++ r.data, { line := f', offset := r.offset + r.span }, place filler (r.offset + r.span) rs, ?_, ?_, ?_, ?_⟩
        · simp [hle, h3]
        · simp [place]
        · intro he
          simp only [List.isEmpty_iff] at he
          subst he
          exact ⟨rfl, trivial⟩
        · intro _
          refine ⟨steps (r.offset + r.span) rs, ?_, rs, hh', ho2, fun r' hr' => hm r' (List.mem_cons_of_mem _ hr'), rfl, Nat.le_refl _⟩
          simp only [steps] at hw; omega

theorem delivers {P : RecSrc τ} {F} {B fuel align : Nat} {filler : Byte} (hB : 0 < B) (ha : 0 < align) {t : τ} {recs : List Rec}
    (h : Yields P F false t recs) (ho : Ordered 0 recs) (hm : ∀ r ∈ recs, r.offset < usizeMax) {s : Buffered (TextState τ)}
    (hs : new P B t align filler = .ok s) (hf : steps 0 recs < fuel) :
    Delivers (byteSrc P B fuel filler) F NlMargin s (steps 0 recs)
      (place filler 0 recs ++ List.replicate (padLen align (place filler 0 recs).length) filler) := by
  unfold new at hs
  rcases fill_holds (f := Feeder.new t) h with ⟨e, he, heq⟩ | ⟨_, f', heq, hh'⟩
  · rw [heq] at hs; cases hs
  · rw [heq] at hs
    cases hs
    exact buffered_delivers (feed_produces hB) hB ha ⟨recs, hh', ho, hm, rfl, Nat.le_refl _⟩ hf

/-- With out-of-order records, or a malformed tail, the stream fails. -/
theorem feed_fails {P : RecSrc τ} {F bad} {B : Nat} {filler : Byte} (hB : 0 < B) :
    FailsSoon (feed P B filler) (fun e => F e ∨ e = .overlap)
      (fun t w => ∃ recs, Holds P F bad t.line recs ∧ (∀ r ∈ recs.head?, t.offset ≤ r.offset) ∧ (∀ r ∈ recs, r.offset < usizeMax) ∧
        (bad = true ∨ ¬ Ordered t.offset recs) ∧ steps t.offset recs ≤ w) := by
  rintro t w req buf ⟨recs, hh, hfst, hm, hbad, hw⟩
  unfold feed
  cases recs with
  | nil =>
    rcases hbad with h | h
    · have := hh.2.2.2; rw [h] at this; cases this
    · exact absurd trivial h
  | cons r rs =>
    obtain ⟨h1, h2, h3, h4⟩ := hh
    have hr := hm r (by simp)
    have ho1 := hfst r (by simp)
    have hbad' : bad = true ∨ ¬ Ordered (r.offset + r.span) rs := by
      rcases hbad with h | h
      · exact Or.inl h
      · exact Or.inr fun h' => h ⟨ho1, h'⟩
    rw [if_neg (by omega)]
    simp only [h1]
    rw [if_neg (by omega)]
    by_cases hb : min (t.offset + B) r.offset - t.offset = B
    · rw [if_pos hb]
      right
      refine ⟨_, _, steps (t.offset + B) (r :: rs), rfl, ⟨r :: rs, ⟨h1, h2, h3, h4⟩, ?_, hm, ?_, ?_⟩, ?_⟩
      · simp only [hb, List.head?_cons, Option.mem_def, Option.some.injEq]; rintro _ rfl; omega
      · rcases hbad' with h | h
        · exact Or.inl h
        · exact Or.inr fun h' => h h'.2
      · simp only [hb]; exact Nat.le_refl _
      · simp only [steps] at hw ⊢; omega
    · rw [if_neg hb]
      have hgo : t.offset + (min (t.offset + B) r.offset - t.offset) + t.line.span = r.offset + r.span := by omega
      rcases fill_holds h4 with ⟨e, he, heq⟩ | ⟨hne, f', heq, hh'⟩
      · left; exact ⟨e, Or.inl he, by simp only [heq]⟩
      · simp only [heq, hgo]
        cases rs with
        | nil =>
          rcases hbad' with h | h
          · exact absurd ⟨h, rfl⟩ hne
          · exact absurd trivial h
        | cons r' rs' =>
          have hoff := hh'.1
          by_cases hov : r.offset + r.span > r'.offset
          · left
            exact ⟨.overlap, Or.inr rfl, by simp [hoff, hov]⟩
          · right
            have : (!(r' :: rs').isEmpty && decide (r.offset + r.span > f'.offset)) = false := by simp; omega
            rw [this]
            refine ⟨_, _, steps (r.offset + r.span) (r' :: rs'), rfl, ⟨r' :: rs', hh', ?_, fun x hx => hm x (List.mem_cons_of_mem _ hx), hbad', Nat.le_refl _⟩, ?_⟩
            · simp only [List.head?_cons, Option.mem_def, Option.some.injEq]; rintro _ rfl; omega
            · simp only [steps] at hw ⊢; omega

theorem rejects {P : RecSrc τ} {F bad} {B fuel align : Nat} {filler : Byte} (hB : 0 < B) {t : τ} {recs : List Rec}
    (h : Yields P F bad t recs) (hbad : bad = true ∨ ¬ Ordered 0 recs) (hm : ∀ r ∈ recs, r.offset < usizeMax)
    {s : Buffered (TextState τ)} (hs : new P B t align filler = .ok s) (hf : steps 0 recs < fuel) :
    Rejects (byteSrc P B fuel filler) (fun e => F e ∨ e = .overlap) s (steps 0 recs) := by
  unfold new at hs
  rcases fill_holds (f := Feeder.new t) h with ⟨e, he, heq⟩ | ⟨_, f', heq, hh'⟩
  · rw [heq] at hs; cases hs
  · rw [heq] at hs
    cases hs
    exact buffered_rejects (feed_fails hB) ⟨recs, hh', by simp, hm, hbad, Nat.le_refl _⟩ rfl hf

end TextStream
end Nd
