import Verif.Proof.Patch
/-! `PatchStream` reads its records to the end, if none of them lies behind the end of the stream. -/
namespace Nd
open Spec
namespace PatchStream
open TextStream (Holds fill_holds)

theorem mergeLoop_keeps {P : RecSrc τ} {F bad} {Z : Rec → Prop} : ∀ (fuel : Nat) (stream : Bytes) (f : Feeder τ) (offset skip : Nat) (recs : List Rec) (r : Bool × Bytes × Feeder τ × Nat × Nat),
    Holds P F bad f recs → (∀ x ∈ recs, Z x) → offset + stream.length ≤ usizeMax → mergeLoop P fuel stream f offset skip = .ok r →
    ∃ recs', Holds P F bad r.2.2.1 recs' ∧ ∀ x ∈ recs', Z x := by
  intro fuel
  induction fuel with
  | zero => intro stream f offset skip recs r _ _ _ h; cases h
  | succ fuel ih =>
    intro stream f offset skip recs r hh hz hb h
    unfold mergeLoop at h
    split at h
    · cases h; exact ⟨recs, hh, hz⟩
    · simp only at h
      split at h
      · cases h
      · rename_i hlt
        split at h
        · cases h; exact ⟨recs, hh, hz⟩
        · rename_i hne
          rw [List.length_drop] at hne
          have hrecs : ∃ x xs, recs = x :: xs := by
            cases recs with
            | cons x xs => exact ⟨x, xs, rfl⟩
            | nil =>
              exfalso
              have := hh.1
              omega
          obtain ⟨x, xs, rfl⟩ := hrecs
          obtain ⟨h1, h2, h3, h4⟩ := hh
          unfold feedPatch at h
          rcases fill_holds h4 with ⟨e, _, he⟩ | ⟨_, f', he, hh'⟩
          · rw [he] at h; cases h
          · rw [he] at h
            simp only at h
            split at h
            · cases h
            · rename_i h5
              split at h5
              · cases h5
              · cases h5
                split at h
                · cases h; exact ⟨xs, hh', fun y hy => hz y (by simp [hy])⟩
                · rename_i hs
                  split at h
                  · cases h
                  · rename_i h6
                    cases h
                    rw [List.length_drop] at hs
                    have := ih _ _ _ _ _ _ hh' (fun y hy => hz y (by simp [hy])) (by rw [List.length_drop, List.length_drop]; omega) h6
                    exact this

/-- The feeder has records of a kind. -/
def Kept (P : RecSrc τ) (F : Err → Prop) (bad : Bool) (Z : Rec → Prop) (f : Feeder τ) : Prop := ∃ recs, Holds P F bad f recs ∧ ∀ x ∈ recs, Z x

theorem feed_more {S : ByteSrc σ} {P : RecSrc τ} {F M R bad} (h : Faithful S F M R) {B total fuel : Nat} (ht : total ≤ usizeMax) {Z : Rec → Prop}
    {t : PatchState σ τ} {w : Nat} {rem : Bytes} {recs : List Rec} (hi : Inv P F bad R total fuel t w rem recs) (req : Nat) (buf : Bytes) {eof : Bool} {b : Bytes} {t' : PatchState σ τ}
    (heq : feed S P B fuel t req buf = .ok (eof, b, t')) :
    (eof = true → t'.patch = t.patch ∧ total ≤ t.offset) ∧ (Kept P F bad Z t.patch → Kept P F bad Z t'.patch) := by
  obtain ⟨⟨lb, ws, hR, hws⟩, hh, hfst, hm, hat, hf⟩ := hi
  unfold feed at heq
  have hneed : need ws rem t.skip ≤ fuel := by
    unfold need
    split
    · omega
    · split at hws <;> split <;> omega
  rcases skipLoop_spec h B fuel t.src lb ws rem t.skip hR hneed with ⟨e, he, h1⟩ | ⟨s', k', h1, hnil⟩ | ⟨s', lb', w', h1, hR', hw'⟩
  · rw [h1] at heq; cases heq
  · rw [h1] at heq
    cases heq
    have hl : rem.length ≤ t.skip := by
      have := congrArg List.length hnil; simp at this; omega
    exact ⟨fun _ => ⟨rfl, by omega⟩, id⟩
  · rw [h1] at heq
    simp only at heq
    rcases h.fill s' _ _ _ B hR' with ⟨e, hF, h2⟩ | ⟨eof', n, w2, s2, h2, hR2, hnl, hsl, he', hne', hw2, hw2'⟩
    · rw [h2] at heq; cases heq
    · rw [h2] at heq
      simp only at heq
      rw [slice_take hnl hsl] at heq
      have hlen := hnl
      rw [List.length_drop] at hlen
      split at heq
      · cases heq
      · rename_i e out f' off skip hml
        split at heq
        · cases heq
        · cases heq
          refine ⟨?_, fun ⟨rs, g1, g2⟩ => ?_⟩
          · intro hee
            subst hee
            by_cases hn0 : n = 0
            · subst hn0
              obtain ⟨k, rfl⟩ : ∃ k, fuel = k + 1 := ⟨fuel - 1, by omega⟩
              simp [mergeLoop] at hml
              have heof : eof' = true := by
                cases eof' with
                | true => rfl
                | false => have := (hne' rfl).1; omega
              have := he' heof
              rw [List.length_drop] at this
              exact ⟨hml.2.1.symm, by omega⟩
            · exfalso
              have hne : (rem.drop t.skip).take n ≠ [] := by
                intro h0; have := congrArg List.length h0; simp at this; omega
              rcases mergeLoop_spec (P := P) (F := F) (bad := bad) total ht ((rem.drop t.skip).drop n) recs fuel
                  ((rem.drop t.skip).take n) t.patch t.offset 0 (by omega) hne hh hfst hm (by simp; omega) rfl with
                ⟨e, he, heq4⟩ | ⟨heq4, hno⟩ | ⟨out', f'', off', skip', recs', heq4, _⟩
              · rw [heq4] at hml; cases hml
              · rw [heq4] at hml; cases hml
              · rw [heq4] at hml; cases hml
          · by_cases hn0 : n = 0
            · subst hn0
              obtain ⟨k, rfl⟩ : ∃ k, fuel = k + 1 := ⟨fuel - 1, by omega⟩
              simp [mergeLoop] at hml
              obtain ⟨_, _, rfl, _⟩ := hml
              exact ⟨rs, g1, g2⟩
            · exact mergeLoop_keeps fuel _ _ _ _ rs _ g1 g2 (by rw [List.length_take, List.length_drop]; omega) hml

theorem feed_exhausts {S : ByteSrc σ} {P : RecSrc τ} {F M R bad} (h : Faithful S F M R) {B total fuel : Nat} (ht : total ≤ usizeMax) :
    Produces (feed S P B fuel) F
      (fun t _ w p => (∃ rem recs, Inv P F bad R total fuel t w rem recs ∧ PatchOk total bad t.offset recs ∧
        p = splice t.offset (rem.drop t.skip) recs) ∧ Kept P F bad (fun r => r.offset < total) t.patch) (fun t => t.patch.offset = usizeMax) := by
  rintro t w p req buf ⟨⟨rem, recs, hi, hok, rfl⟩, hk⟩
  rcases feed_step h ht hi req buf with he | ⟨_, hno⟩ | ⟨t', heq, h1, _⟩ | ⟨out, t', w', rem', recs', heq, h1, h2, h3, h4⟩
  · exact Or.inl he
  · exact absurd hok hno
  · right
    rw [h1]
    refine ⟨true, [], t', [], by rw [heq, List.append_nil], rfl, fun _ => ⟨rfl, ?_⟩, by simp⟩
    obtain ⟨e1, e2⟩ := (feed_more (Z := fun _ => True) h ht hi req buf heq).1 rfl
    rw [e1]
    have hge : total ≤ t.patch.offset := by
      cases recs with
      | nil => rw [hi.holds.1]; exact ht
      | cons r rs =>
        have := hi.first r (by simp)
        rw [hi.holds.1]
        omega
    obtain ⟨rs, g1, g2⟩ := hk
    cases rs with
    | nil => exact g1.1
    | cons r rs =>
      have := g2 r (by simp)
      rw [g1.1] at hge
      omega
  · right
    exact ⟨false, out, t', _, heq, h4, by simp, fun _ => ⟨w', h2, ⟨rem', recs', h1, h3.1 hok, rfl⟩, (feed_more h ht hi req buf heq).2 hk⟩⟩

end PatchStream

theorem bufferedSrc_eof {g : StreamBuf.Closure τ} {B fuel : Nat} {s s' : Buffered τ} {req n : Nat} {eof : Bool} (h : (bufferedSrc B fuel g).fill s req = .ok ((eof, n), s')) :
    eof = s'.buf.isEof := by
  simp only [bufferedSrc] at h
  split at h
  · cases h
  · rename_i r b t heq
    simp only [Except.ok.injEq, Prod.mk.injEq] at h
    obtain ⟨rfl, rfl⟩ := h
    unfold StreamBuf.fillBuf at heq
    split at heq
    · rename_i hs
      cases heq
      exact hs.symm
    · split at heq
      · cases heq
      · cases heq
        rfl

theorem PatchStream.reads_all {S : ByteSrc σ} {P : RecSrc τ} {F M bad} {B fuel : Nat} (hB : 0 < B) {src : σ} {w : Nat} {content : Bytes} {patch : τ}
    {recs : List Rec} (hsrc : Delivers S F M src w content) (hlen : content.length ≤ usizeMax) (h : Yields P F bad patch recs)
    (hok : PatchOk content.length bad 0 recs) (hm : ∀ r ∈ recs, r.offset + r.span < usizeMax) (hin : ∀ r ∈ recs, r.offset < content.length)
    {s : Buffered (PatchState σ τ)} (hs : new P B src patch = .ok s) (hf : recs.length + w + 4 ≤ fuel) (ops : List ClientOp) {c : Client (Buffered (PatchState σ τ))}
    (hc : (Client.init s).run (byteSrc S P B fuel) ops = .ok c) {n : Nat} (hl : c.lent = some n) (he : c.eof = true) : c.st.inner.patch.offset = usizeMax := by
  obtain ⟨h1, h2, h3, hi⟩ := new_inv hsrc h hm hs hf
  obtain ⟨inner, buf⟩ := s
  simp only at h1 h2 h3 hi
  subst h1
  have hrel := StreamBuf.rel_new (align := 1) (filler := 0) (P := fun t _ w p => (∃ rem recs, Inv P F bad (Live S F M) content.length fuel t w rem recs ∧ PatchOk content.length bad t.offset recs ∧
    p = splice t.offset (rem.drop t.skip) recs) ∧ Kept P F bad (fun r => r.offset < content.length) t.patch) (Q := fun t => t.patch.offset = usizeMax) hB (by omega)
    (t := inner) (w := w + 1) (p := splice 0 content recs) ⟨⟨content, recs, hi, by rw [h2]; exact hok, by rw [h2, h3]; rfl⟩, recs, hi.holds, hin⟩
  rw [padLen_one, List.replicate_zero, List.append_nil] at hrel
  have hinv := Client.inv_run (buffered_faithful (feed_exhausts (B := B) Live.faithful hlen) B fuel) ops (content := splice 0 content recs) (c := Client.init ⟨inner, StreamBuf.new B⟩)
    ⟨splice 0 content recs, rfl, 1, w + 1, by omega, hrel, by omega⟩
  have heof : ∀ (ops : List ClientOp) (c0 c1 : Client (Buffered (PatchState σ τ))), (c0.lent ≠ none → c0.eof = c0.st.buf.isEof) → c0.run (byteSrc S P B fuel) ops = .ok c1 →
      c1.lent ≠ none → c1.eof = c1.st.buf.isEof := by
    intro ops
    induction ops with
    | nil => intro c0 c1 h0 hr; cases hr; exact h0
    | cons op ops ih =>
      intro c0 c1 h0 hr
      unfold Client.run at hr
      split at hr
      · cases hr
      · rename_i c2 hst
        refine ih c2 c1 (fun hl2 => ?_) hr
        cases op with
        | fill req =>
          simp only [Client.step] at hst
          split at hst
          · cases hst
          · rename_i heq
            cases hst
            exact bufferedSrc_eof heq
        | consume k =>
          simp only [Client.step] at hst
          split at hst
          · cases hst
            exact h0 hl2
          · split at hst
            · cases hst
            · cases hst
              exact absurd rfl hl2
  rcases hinv with ⟨e, _, hr⟩ | ⟨c', hr, rem, _, hl'⟩
  · unfold byteSrc at hc
    rw [hr] at hc; cases hc
  · unfold byteSrc at hc
    rw [hr] at hc
    cases hc
    rw [hl] at hl'
    obtain ⟨⟨w', hR, _⟩, _⟩ := hl'
    obtain ⟨_, ⟨d, m, _, g1, _⟩, _⟩ := hR
    have := heof ops (Client.init _) _ (fun h => absurd rfl h) hr (by rw [hl]; simp)
    exact (g1 (by rw [← this]; exact he)).2.2
end Nd
