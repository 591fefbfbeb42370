import Verif.Proof.Text
/-! Proofs about `PatchStream`. -/
namespace Nd
open Spec
namespace PatchStream
open TextStream (Holds fill_holds)

theorem splice_nil (pos : Nat) (recs : List Rec) : splice pos [] recs = [] := by
  cases recs <;> simp [splice]

theorem patchOk_beyond {P : RecSrc τ} {F bad} {f : Feeder τ} {total pos : Nat} {recs : List Rec} (hh : Holds P F bad f recs)
    (hfst : ∀ r ∈ recs.head?, pos ≤ r.offset) (hp : total ≤ pos) : PatchOk total bad pos recs := by
  cases recs with
  | nil => exact hh.2.2.2
  | cons r rs =>
    have := hfst r (by simp)
    exact ⟨this, fun h => by omega⟩

theorem mergeLoop_spec {P : RecSrc τ} {F bad} (total : Nat) (ht : total ≤ usizeMax) (tail : Bytes) :
    ∀ (recs : List Rec) (fuel : Nat) (stream : Bytes) (f : Feeder τ) (offset skip : Nat), recs.length < fuel →
      stream ≠ [] → Holds P F bad f recs → (∀ r ∈ recs.head?, offset ≤ r.offset) →
      (∀ r ∈ recs, r.offset + r.span < usizeMax) → offset + stream.length + tail.length = total → skip = 0 →
      (∃ e, F e ∧ mergeLoop P fuel stream f offset skip = .error e) ∨
      (mergeLoop P fuel stream f offset skip = .error .overlap ∧ ¬ PatchOk total bad offset recs) ∨
      ∃ out f' off' skip' recs', mergeLoop P fuel stream f offset skip = .ok (false, out, f', off', skip') ∧
        Holds P F bad f' recs' ∧ (∀ r ∈ recs'.head?, off' ≤ r.offset) ∧ (∀ r ∈ recs', r.offset + r.span < usizeMax) ∧
        recs'.length ≤ recs.length ∧
        off' + tail.length = total + skip' ∧ (PatchOk total bad offset recs ↔ PatchOk total bad off' recs') ∧
        splice offset (stream ++ tail) recs = out ++ splice off' (tail.drop skip') recs' := by
  intro recs
  induction recs with
  | nil =>
    intro fuel stream f offset skip hf hne hh hfst hm htot hskip
    obtain ⟨fuel, rfl⟩ : ∃ k, fuel = k + 1 := ⟨fuel - 1, by simp at hf; omega⟩
    right; right
    have hl : stream.length ≠ 0 := by simpa using hne
    have hmin : min (offset + stream.length) f.offset = offset + stream.length := by rw [hh.1]; omega
    refine ⟨stream, f, offset + stream.length, 0, [], ?_, hh, by simp, by simp, Nat.le_refl _, by omega, Iff.rfl, ?_⟩
    · unfold mergeLoop
      rw [if_neg hl]
      simp only [hmin]
      rw [if_neg (by omega)]
      have : offset + stream.length - offset = stream.length := by omega
      simp only [this, List.take_length, List.drop_length, List.length_nil, if_true, hskip]
    · simp [splice]
  | cons r rs ih =>
    intro fuel stream f offset skip hf hne hh hfst hm htot hskip
    obtain ⟨fuel, rfl⟩ : ∃ k, fuel = k + 1 := ⟨fuel - 1, by simp at hf; omega⟩
    have hl : stream.length ≠ 0 := by simpa using hne
    obtain ⟨h1, h2, h3, h4⟩ := id hh
    have hr0 := hfst r (by simp)
    have hrm := hm r (by simp)
    unfold mergeLoop
    rw [if_neg hl]
    simp only [h1]
    rw [if_neg (by omega)]
    by_cases hin : r.offset - offset < stream.length
    · -- the record starts in this chunk
      have hfwd : min (offset + stream.length) r.offset - offset = r.offset - offset := by omega
      have hoff : offset + (r.offset - offset) = r.offset := by omega
      simp only [hfwd, hoff]
      have hdl : (stream.drop (r.offset - offset)).length = stream.length - (r.offset - offset) := by simp
      rw [if_neg (by rw [hdl]; omega)]
      unfold feedPatch
      rcases fill_holds h4 with ⟨e, he, heq⟩ | ⟨hne', f', heq, hh'⟩
      · left; exact ⟨e, he, by simp only [heq]⟩
      · simp only [heq, h2]
        by_cases hov : r.offset + r.span > f'.offset
        · right; left
          refine ⟨by rw [if_pos hov], ?_⟩
          intro hok
          have hok' := hok.2 (by omega)
          cases rs with
          | nil => have := hh'.1; omega
          | cons r' rs' => have := hh'.1; have := hok'.1; omega
        · rw [if_neg hov]
          simp only
          have hfst' : ∀ x ∈ rs.head?, r.offset + r.span ≤ x.offset := by
            cases rs with
            | nil => simp
            | cons r' rs' => have := hh'.1; simp; omega
          have hiff : PatchOk total bad offset (r :: rs) ↔ PatchOk total bad (r.offset + r.span) rs :=
            ⟨fun h => h.2 (by omega), fun h => ⟨hr0, fun _ => h⟩⟩
          have hm' : ∀ x ∈ rs, x.offset + x.span < usizeMax := fun x hx => hm x (List.mem_cons_of_mem _ hx)
          have hsp : splice offset (stream ++ tail) (r :: rs) =
              stream.take (r.offset - offset) ++ (r.data ++ splice (r.offset + r.span) ((stream ++ tail).drop (r.offset - offset + r.span)) rs) := by
            rw [splice, if_pos (by simp; omega), List.take_append_of_le_length (by omega)]
          by_cases hspan : r.span ≥ (stream.drop (r.offset - offset)).length
          · rw [if_pos hspan]
            right; right
            rw [hdl] at hspan
            refine ⟨_, _, _, _, rs, rfl, hh', hfst', hm', by simp, by rw [hdl]; omega, hiff, ?_⟩
            rw [hsp, h3, hdl, List.append_assoc, List.drop_append, List.drop_eq_nil_of_le (by omega), List.nil_append]
            have : r.offset - offset + r.span - stream.length = r.span - (stream.length - (r.offset - offset)) := by omega
            rw [this]
          · rw [if_neg hspan]
            rw [hdl] at hspan
            have hdd : (stream.drop (r.offset - offset)).drop r.span = stream.drop (r.offset - offset + r.span) := by rw [List.drop_drop]
            rw [hdd]
            rcases ih fuel (stream.drop (r.offset - offset + r.span)) f' (r.offset + r.span) skip (by simp at hf; omega)
                (by intro h0; have := congrArg List.length h0; simp at this; omega) hh' hfst' hm' (by simp; omega) hskip with
              ⟨e, he, heq'⟩ | ⟨heq', hno⟩ | ⟨out, f2, off2, skip2, recs2, heq', g1, g2, g3, g4, g5, g6, g7⟩
            · left; exact ⟨e, he, by simp only [heq']⟩
            · right; left; exact ⟨by simp only [heq'], fun h => hno (hiff.1 h)⟩
            · right; right
              refine ⟨_, f2, off2, skip2, recs2, by simp only [heq']; rfl, g1, g2, g3, by simp; omega, g5, hiff.trans g6, ?_⟩
              rw [hsp, List.drop_append_of_le_length (by omega), g7, h3]
              simp
    · -- it starts later
      right; right
      have hfwd : min (offset + stream.length) r.offset - offset = stream.length := by omega
      simp only [hfwd, List.take_length, List.drop_length, List.length_nil, if_true, hskip]
      refine ⟨_, _, _, _, r :: rs, rfl, hh, ?_, hm, Nat.le_refl _, by omega, ?_, ?_⟩
      · simp; omega
      · simp only [PatchOk]
        constructor
        · exact fun h => ⟨by omega, h.2⟩
        · exact fun h => ⟨hr0, h.2⟩
      · simp only [splice, List.drop_zero]
        have e1 : r.offset - (offset + stream.length) = r.offset - offset - stream.length := by omega
        by_cases ht' : r.offset - offset < (stream ++ tail).length
        · rw [if_pos ht', if_pos (by simp at ht'; omega), List.take_append, List.take_of_length_le (by omega),
            List.drop_append, List.drop_eq_nil_of_le (by omega), e1]
          simp only [List.append_assoc, List.nil_append]
          congr 5
          omega
        · rw [if_neg ht', if_neg (by simp at ht'; omega)]

/-- Iterations of the skip loop. -/
def need (w : Nat) (rem : Bytes) (skip : Nat) : Nat :=
  if skip = 0 then 1 else w + (if rem = [] then 2 else 3)

theorem skipLoop_spec {S : ByteSrc σ} {F M R} (h : Faithful S F M R) (B : Nat) :
    ∀ (fuel : Nat) (s : σ) (lb w : Nat) (rem : Bytes) (skip : Nat), R s (.idle lb) w rem → need w rem skip ≤ fuel →
      (∃ e, F e ∧ skipLoop S B fuel s skip = .error e) ∨
      (∃ s' skip', skipLoop S B fuel s skip = .ok (true, s', skip') ∧ rem.drop skip = []) ∨
      ∃ s' lb' w', skipLoop S B fuel s skip = .ok (false, s', 0) ∧ R s' (.idle lb') w' (rem.drop skip) ∧ w' ≤ w := by
  intro fuel
  induction fuel with
  | zero =>
    intro s lb w rem skip _ hn
    unfold need at hn
    split at hn
    · omega
    · split at hn <;> omega
  | succ fuel ih =>
    intro s lb w rem skip hR hn
    unfold skipLoop
    by_cases hs : skip > 0
    · rw [if_pos hs]
      rcases h.fill s _ _ _ B hR with ⟨e, hF, heq⟩ | ⟨eof, n, w', s', heq, hR', hnl, hm, he', hne', hw', hw''⟩
      · left; exact ⟨e, hF, by simp only [heq]⟩
      · simp only [heq]
        by_cases hend : (eof && decide (n = 0)) = true
        · rw [if_pos hend]
          right; left
          simp only [Bool.and_eq_true, decide_eq_true_eq] at hend
          have := he' hend.1
          exact ⟨_, _, rfl, List.drop_eq_nil_of_le (by omega)⟩
        · rw [if_neg hend]
          simp only [Bool.and_eq_true, decide_eq_true_eq] at hend
          obtain ⟨s2, w2, heq2, hR2, hw2⟩ := h.consume _ _ _ _ (min skip n) hR' (by omega)
          simp only [heq2]
          have hdrop : (rem.drop (min skip n)).drop (skip - min skip n) = rem.drop skip := by
            rw [List.drop_drop]; congr 1; omega
          have hneed : need w2 (rem.drop (min skip n)) (skip - min skip n) ≤ fuel := by
            unfold need at hn ⊢
            rw [if_neg (by omega)] at hn
            by_cases h0 : skip - min skip n = 0
            · rw [if_pos h0]; split at hn <;> omega
            · rw [if_neg h0]
              cases eof with
              | true =>
                have h1 := he' rfl
                have hnn : n ≠ 0 := fun h => hend ⟨rfl, h⟩
                rw [if_pos (List.drop_eq_nil_of_le (by omega))]
                rw [if_neg (by intro h0; rw [h0] at h1; exact hnn h1)] at hn
                omega
              | false =>
                have h1 := hne' rfl
                have h2 := hw'' rfl trivial
                rw [if_neg (by intro h0; rw [h0] at hnl; simp at hnl; omega)] at hn
                split <;> omega
          rcases ih s2 _ w2 _ (skip - min skip n) hR2 hneed with he | ⟨s3, k3, h3, h4⟩ | ⟨s3, lb3, w3, h3, h4, h5⟩
          · exact Or.inl he
          · right; left; exact ⟨s3, k3, h3, by rw [← hdrop]; exact h4⟩
          · right; right; exact ⟨s3, lb3, w3, h3, by rw [← hdrop]; exact h4, by omega⟩
    · have hs0 : skip = 0 := by omega
      subst hs0
      rw [if_neg hs]
      right; right
      exact ⟨s, lb, w, rfl, by simpa using hR, Nat.le_refl _⟩

/-- What relates a patch stream's state to the remaining original stream and records. -/
structure Inv (P : RecSrc τ) (F : Err → Prop) (bad : Bool) (R : σ → Phase → Nat → Bytes → Prop) (total fuel : Nat)
    (t : PatchState σ τ) (w : Nat) (rem : Bytes) (recs : List Rec) : Prop where
  src : ∃ lb ws, R t.src (.idle lb) ws rem ∧ ws + (if rem = [] then 0 else 1) ≤ w
  holds : Holds P F bad t.patch recs
  first : ∀ r ∈ recs.head?, t.offset ≤ r.offset
  small : ∀ r ∈ recs, r.offset + r.span < usizeMax
  at_ : t.offset + rem.length = total + t.skip
  fuel : recs.length + w + 3 ≤ fuel

theorem feed_step {S : ByteSrc σ} {P : RecSrc τ} {F M R bad} (h : Faithful S F M R) {B total fuel : Nat} (ht : total ≤ usizeMax)
    {t : PatchState σ τ} {w : Nat} {rem : Bytes} {recs : List Rec} (hi : Inv P F bad R total fuel t w rem recs) (req : Nat) (buf : Bytes) :
    (∃ e, F e ∧ feed S P B fuel t req buf = .error e) ∨
    (feed S P B fuel t req buf = .error .overlap ∧ ¬ PatchOk total bad t.offset recs) ∨
    (∃ t', feed S P B fuel t req buf = .ok (true, buf, t') ∧ splice t.offset (rem.drop t.skip) recs = [] ∧
      PatchOk total bad t.offset recs) ∨
    ∃ out t' w' rem' recs', feed S P B fuel t req buf = .ok (false, buf ++ out, t') ∧
      Inv P F bad R total fuel t' w' rem' recs' ∧ w' < w ∧ (PatchOk total bad t.offset recs ↔ PatchOk total bad t'.offset recs') ∧
      splice t.offset (rem.drop t.skip) recs = out ++ splice t'.offset (rem'.drop t'.skip) recs' := by
  obtain ⟨⟨lb, ws, hR, hws⟩, hh, hfst, hm, hat, hf⟩ := hi
  unfold feed
  have hneed : need ws rem t.skip ≤ fuel := by
    unfold need
    split
    · omega
    · split at hws <;> split <;> omega
  rcases skipLoop_spec h B fuel t.src lb ws rem t.skip hR hneed with ⟨e, he, heq⟩ | ⟨s', k', heq, hnil⟩ | ⟨s', lb', w', heq, hR', hw'⟩
  · left; exact ⟨e, he, by simp only [heq]⟩
  · right; right; left
    simp only [heq]
    have hl : rem.length ≤ t.skip := by
      have := congrArg List.length hnil; simp at this; omega
    exact ⟨_, rfl, by rw [hnil, splice_nil], patchOk_beyond hh hfst (by omega)⟩
  · simp only [heq]
    rcases h.fill s' _ _ _ B hR' with ⟨e, hF, heq2⟩ | ⟨eof, n, w2, s2, heq2, hR2, hnl, hsl, he', hne', hw2, hw2'⟩
    · left; exact ⟨e, hF, by simp only [heq2]⟩
    · simp only [heq2]
      rw [slice_take hnl hsl]
      obtain ⟨s3, w3, heq3, hR3, hw3⟩ := h.consume _ _ _ _ n hR2 (Nat.le_refl _)
      by_cases hn0 : n = 0
      · -- end of the original stream
        subst hn0
        have heof : eof = true := by
          cases eof with
          | true => rfl
          | false => have := (hne' rfl).1; omega
        have hnil : rem.drop t.skip = [] := List.length_eq_zero_iff.1 (he' heof).symm
        have hl : rem.length ≤ t.skip := by
          have := congrArg List.length hnil; simp at this; omega
        right; right; left
        obtain ⟨k, rfl⟩ : ∃ k, fuel = k + 1 := ⟨fuel - 1, by omega⟩
        refine ⟨{ src := s3, patch := t.patch, skip := 0, offset := t.offset }, ?_, by rw [hnil, splice_nil], patchOk_beyond hh hfst (by omega)⟩
        simp [mergeLoop, heq3]
      · have hlen := hnl
        rw [List.length_drop] at hlen
        have hne : (rem.drop t.skip).take n ≠ [] := by
          intro h0; have := congrArg List.length h0; simp at this; omega
        have hsplit : rem.drop t.skip = (rem.drop t.skip).take n ++ (rem.drop t.skip).drop n := (List.take_append_drop n _).symm
        rcases mergeLoop_spec (P := P) (F := F) (bad := bad) total ht ((rem.drop t.skip).drop n) recs fuel
            ((rem.drop t.skip).take n) t.patch t.offset 0 (by omega) hne hh hfst hm (by simp; omega) rfl with
          ⟨e, he, heq4⟩ | ⟨heq4, hno⟩ | ⟨out, f', off', skip', recs', heq4, g1, g2, g3, g4, g5, g6, g7⟩
        · left; exact ⟨e, he, by simp only [heq4]⟩
        · right; left; exact ⟨by simp only [heq4], hno⟩
        · right; right; right
          have hwlt : w3 + (if (rem.drop t.skip).drop n = [] then 0 else 1) < w := by
            have hrem : rem ≠ [] := by rintro rfl; simp at hlen; omega
            rw [if_neg hrem] at hws
            cases eof with
            | true =>
              rw [if_pos (List.drop_eq_nil_of_le (by have := he' rfl; omega))]
              omega
            | false =>
              have := hw2' rfl trivial
              split <;> omega
          refine ⟨out, { src := s3, patch := f', skip := skip', offset := off' }, w3 + (if (rem.drop t.skip).drop n = [] then 0 else 1), (rem.drop t.skip).drop n, recs', ?_, ⟨⟨_, w3, hR3, Nat.le_refl _⟩, g1, g2, g3, g5, by omega⟩, hwlt, g6, ?_⟩
          · simp only [heq4, heq3]
          · simp only
            rw [← g7, ← hsplit]

theorem feed_produces {S : ByteSrc σ} {P : RecSrc τ} {F M R bad} (h : Faithful S F M R) {B total fuel : Nat} (ht : total ≤ usizeMax) :
    Produces (feed S P B fuel) F
      (fun t _ w p => ∃ rem recs, Inv P F bad R total fuel t w rem recs ∧ PatchOk total bad t.offset recs ∧
        p = splice t.offset (rem.drop t.skip) recs) (fun _ => True) := by
  rintro t w p req buf ⟨rem, recs, hi, hok, rfl⟩
  rcases feed_step h ht hi req buf with he | ⟨_, hno⟩ | ⟨t', heq, h1, _⟩ | ⟨out, t', w', rem', recs', heq, h1, h2, h3, h4⟩
  · exact Or.inl he
  · exact absurd hok hno
  · right
    rw [h1]
    exact ⟨true, [], t', [], by rw [heq, List.append_nil], rfl, fun _ => ⟨rfl, trivial⟩, by simp⟩
  · right
    exact ⟨false, out, t', _, heq, h4, by simp, fun _ => ⟨w', h2, rem', recs', h1, h3.1 hok, rfl⟩⟩

theorem feed_fails {S : ByteSrc σ} {P : RecSrc τ} {F M R bad} (h : Faithful S F M R) {B total fuel : Nat} (ht : total ≤ usizeMax) :
    FailsSoon (feed S P B fuel) (fun e => F e ∨ e = .overlap)
      (fun t w => ∃ rem recs, Inv P F bad R total fuel t w rem recs ∧ ¬ PatchOk total bad t.offset recs) := by
  rintro t w req buf ⟨rem, recs, hi, hno⟩
  rcases feed_step h ht hi req buf with ⟨e, he, heq⟩ | ⟨heq, _⟩ | ⟨t', heq, h1, hok⟩ | ⟨out, t', w', rem', recs', heq, h1, h2, h3, h4⟩
  · left; exact ⟨e, Or.inl he, heq⟩
  · left; exact ⟨.overlap, Or.inr rfl, heq⟩
  · exact absurd hok hno
  · right
    exact ⟨_, t', w', heq, ⟨rem', recs', h1, fun h => hno (h3.2 h)⟩, h2⟩

/-- What is common to the two outcomes. -/
theorem new_inv {S : ByteSrc σ} {P : RecSrc τ} {F M bad} {B fuel : Nat} {src : σ} {w : Nat} {content : Bytes} {patch : τ} {recs : List Rec}
    (hsrc : Delivers S F M src w content) (h : Yields P F bad patch recs) (hm : ∀ r ∈ recs, r.offset + r.span < usizeMax)
    {s : Buffered (PatchState σ τ)} (hs : new P B src patch = .ok s) (hf : recs.length + w + 4 ≤ fuel) :
    s.buf = StreamBuf.new B ∧ s.inner.offset = 0 ∧ s.inner.skip = 0 ∧
    Inv P F bad (Live S F M) content.length fuel s.inner (w + 1) content recs := by
  unfold new at hs
  rcases fill_holds (f := Feeder.new patch) h with ⟨e, he, heq⟩ | ⟨_, f', heq, hh'⟩
  · rw [heq] at hs; cases hs
  · rw [heq] at hs
    cases hs
    refine ⟨rfl, rfl, rfl, ⟨1, w, hsrc, ?_⟩, hh', by simp, hm, by simp, by omega⟩
    split <;> omega

theorem delivers {S : ByteSrc σ} {P : RecSrc τ} {F M bad} {B fuel : Nat} (hB : 0 < B) {src : σ} {w : Nat} {content : Bytes} {patch : τ}
    {recs : List Rec} (hsrc : Delivers S F M src w content) (hlen : content.length ≤ usizeMax) (h : Yields P F bad patch recs)
    (hok : PatchOk content.length bad 0 recs) (hm : ∀ r ∈ recs, r.offset + r.span < usizeMax)
    {s : Buffered (PatchState σ τ)} (hs : new P B src patch = .ok s) (hf : recs.length + w + 4 ≤ fuel) :
    Delivers (byteSrc S P B fuel) F NlMargin s (w + 1) (splice 0 content recs) := by
  obtain ⟨h1, h2, h3, hi⟩ := new_inv hsrc h hm hs hf
  obtain ⟨inner, buf⟩ := s
  simp only at h1 h2 h3 hi
  subst h1
  refine buffered_delivers' (feed_produces Live.faithful hlen) hB ⟨content, recs, hi, ?_, ?_⟩ (by omega)
  · rw [h2]; exact hok
  · rw [h2, h3]; rfl

theorem rejects {S : ByteSrc σ} {P : RecSrc τ} {F M bad} {B fuel : Nat} {src : σ} {w : Nat} {content : Bytes} {patch : τ}
    {recs : List Rec} (hsrc : Delivers S F M src w content) (hlen : content.length ≤ usizeMax) (h : Yields P F bad patch recs)
    (hok : ¬ PatchOk content.length bad 0 recs) (hm : ∀ r ∈ recs, r.offset + r.span < usizeMax)
    {s : Buffered (PatchState σ τ)} (hs : new P B src patch = .ok s) (hf : recs.length + w + 4 ≤ fuel) :
    Rejects (byteSrc S P B fuel) (fun e => F e ∨ e = .overlap) s (w + 1) := by
  obtain ⟨h1, h2, h3, hi⟩ := new_inv hsrc h hm hs hf
  obtain ⟨inner, buf⟩ := s
  simp only at h1 h2 h3 hi
  subst h1
  exact buffered_rejects (feed_fails Live.faithful hlen) ⟨content, recs, hi, by rw [h2]; exact hok⟩ rfl (by omega)

end PatchStream
end Nd
