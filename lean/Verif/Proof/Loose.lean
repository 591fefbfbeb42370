import Verif.Proof.Segment
/-!
# A weaker protocol that still determines what clients see

A stream may need several rounds for its last bytes, and need not say how much it lends.
-/
namespace Nd

/-- Where a client is: between rounds (`ended`: the end has been reported), or after a fill. -/
inductive LoosePhase where
  | idle (ended : Bool)
  | lent (eof : Bool) (count maxc : Nat)

structure SegLoose (S : SegSrc σ) (F : Err → Prop) (R : σ → LoosePhase → Nat → Bytes → List Seg → Prop) : Prop where
  fill : ∀ s e w rem segs, R s (.idle e) w rem segs →
    (∃ e, F e ∧ S.fill s = .error e) ∨
    ∃ eof bytes count maxc w' s', S.fill s = .ok ((eof, bytes, count, maxc), s') ∧ R s' (.lent eof count maxc) w' rem segs ∧
      SegLent rem segs (S.slices s') 0 count ∧ (eof = true → count = segs.length) ∧ w' ≤ w ∧ (eof = false → w' < w) ∧ (e = true → eof = true)
  consume : ∀ s eof count maxc w rem segs k, R s (.lent eof count maxc) w rem segs → k ≤ maxc →
    ∃ k' c w' s', S.consume s k = .ok ((k', c), s') ∧ c ≤ count ∧ (∀ x ∈ segs.drop c, k' ≤ x.pos) ∧
      R s' (.idle eof) w' (rem.drop k') ((segs.drop c).map (Seg.shift k')) ∧ w' ≤ w

structure SegClient.LooseOk (R : σ → LoosePhase → Nat → Bytes → List Seg → Prop) (out : List (Nat × Bytes)) (c : SegClient σ)
    (ph : LoosePhase) (w : Nat) (rem : Bytes) (segs : List Seg) : Prop where
  rel : R c.st ph w rem segs
  out_eq : out = c.got ++ absOf c.offset rem segs
  lent_pre : c.lent <+: absOf c.offset rem segs
  idle : c.cap = none → ph = .idle c.eof
  lent : ∀ m, c.cap = some m → ∃ count, ph = .lent c.eof count m ∧ c.lent = absOf c.offset rem (segs.take count)
  all : c.eof = true → c.lent = absOf c.offset rem segs

theorem SegClient.LooseOk.step {S : SegSrc σ} {F R} (h : SegLoose S F R) {out} {c : SegClient σ} {ph w rem segs}
    (ok : SegClient.LooseOk R out c ph w rem segs) (op : Option Nat) :
    (∃ e, F e ∧ c.step S op = .error e) ∨ ∃ c' ph' w' rem' segs', c.step S op = .ok c' ∧
      SegClient.LooseOk R out c' ph' w' rem' segs' ∧ w' ≤ w ∧ (c.eof = true → c'.eof = true) ∧
      (op = none → c.cap = none → c'.eof = false → w' < w) ∧ (∀ k, op = some k → c'.cap = none ∧ c'.eof = c.eof) := by
  cases op with
  | none =>
    simp only [SegClient.step]
    cases hc : c.cap with
    | some m =>
      right
      exact ⟨c, ph, w, rem, segs, rfl, ok, Nat.le_refl _, id, by simp, by simp⟩
    | none =>
      simp only
      have hR := ok.rel
      rw [ok.idle hc] at hR
      rcases h.fill _ _ _ _ _ hR with ⟨e, hF, heq⟩ | ⟨eof, bytes, count, maxc, w', s', heq, hR', hl, h1, h2, h3, h4⟩
      · left; exact ⟨e, hF, by rw [heq]⟩
      · right
        rw [heq]
        refine ⟨_, .lent eof count maxc, w', rem, segs, rfl, ⟨hR', ok.out_eq, ?_, by simp, ?_, ?_⟩, h2, h4, fun _ _ => h3, by simp⟩
        · simp only
          rw [hl.abs]
          exact (List.take_prefix _ _).map _
        · intro m hm
          simp only [Option.some.injEq] at hm
          subst hm
          exact ⟨count, rfl, hl.abs _⟩
        · intro he
          simp only at he ⊢
          rw [hl.abs, h1 he, List.take_length]
  | some k =>
    simp only [SegClient.step]
    cases hc : c.cap with
    | none =>
      right
      exact ⟨c, ph, w, rem, segs, rfl, ok, Nat.le_refl _, id, by simp, fun k' _ => ⟨hc, rfl⟩⟩
    | some m =>
      simp only
      obtain ⟨count, hph, hlent⟩ := ok.lent m hc
      have hR := ok.rel
      rw [hph] at hR
      obtain ⟨k', n, w', s', heq, h1, h2, hR', h3⟩ := h.consume _ _ _ _ _ _ _ (min k m) hR (by omega)
      rw [heq]
      right
      have hl : c.lent.take n = absOf c.offset rem (segs.take n) := by
        rw [hlent]; simp only [absOf, ← List.map_take, List.take_take, Nat.min_eq_left h1]
      have hs := absOf_shift c.offset rem (segs.drop n) k' h2
      refine ⟨_, _, w', _, _, rfl, ⟨hR', ?_, ?_, fun _ => rfl, by simp, ?_⟩, h3, id, by simp, fun _ _ => ⟨rfl, rfl⟩⟩
      · simp only
        rw [hl, hs, ok.out_eq, List.append_assoc]
        congr 1
        simp only [absOf, ← List.map_append, List.take_append_drop]
      · simp only
        rw [hs, hlent]
        simp only [absOf, ← List.map_drop]
        rw [List.drop_take]
        exact (List.take_prefix _ _).map _
      · intro he
        have := ok.all he
        simp only
        rw [hs, this]
        simp only [absOf, ← List.map_drop]

theorem SegClient.LooseOk.run {S : SegSrc σ} {F R} (h : SegLoose S F R) {out} : ∀ (ops : List (Option Nat)) {c : SegClient σ} {ph w rem segs},
    SegClient.LooseOk R out c ph w rem segs →
    (∃ e, F e ∧ c.run S ops = .error e) ∨ ∃ c' ph' w' rem' segs', c.run S ops = .ok c' ∧ SegClient.LooseOk R out c' ph' w' rem' segs' ∧ (c.eof = true → c'.eof = true)
  | [], c, ph, w, rem, segs, ok => Or.inr ⟨c, ph, w, rem, segs, rfl, ok, id⟩
  | op :: ops, c, ph, w, rem, segs, ok => by
    simp only [SegClient.run]
    rcases ok.step h op with ⟨e, hF, heq⟩ | ⟨c', ph', w', rem', segs', heq, ok', _, he, _⟩
    · left; exact ⟨e, hF, by rw [heq]⟩
    · rw [heq]
      rcases SegClient.LooseOk.run h ops ok' with hh | ⟨c2, ph2, w2, rem2, segs2, heq2, ok2, he2⟩
      · exact Or.inl hh
      · exact Or.inr ⟨c2, ph2, w2, rem2, segs2, heq2, ok2, fun h0 => he2 (he h0)⟩

theorem SegClient.LooseOk.reach {S : SegSrc σ} {F R} (h : SegLoose S F R) {out} (k : Nat) :
    ∀ (n : Nat) {c : SegClient σ} {ph w rem segs}, SegClient.LooseOk R out c ph w rem segs → c.cap = none → w < n →
    (∃ e, F e ∧ c.run S ((List.replicate n [none, some k]).flatten) = .error e) ∨
    ∃ c' ph' w' rem' segs', c.run S ((List.replicate n [none, some k]).flatten) = .ok c' ∧ SegClient.LooseOk R out c' ph' w' rem' segs' ∧ c'.eof = true
  | 0, c, ph, w, rem, segs, ok, hc, hw => absurd hw (Nat.not_lt_zero _)
  | n + 1, c, ph, w, rem, segs, ok, hc, hw => by
    simp only [List.replicate_succ, List.flatten_cons, List.cons_append, List.nil_append, SegClient.run]
    rcases ok.step h none with ⟨e, hF, heq⟩ | ⟨c1, ph1, w1, rem1, segs1, heq, ok1, _, _, hn, _⟩
    · left; exact ⟨e, hF, by rw [heq]⟩
    · have hn := hn rfl hc
      rw [heq]
      simp only
      rcases ok1.step h (some k) with ⟨e, hF, heq2⟩ | ⟨c2, ph2, w2, rem2, segs2, heq2, ok2, hw2, _, _, hs⟩
      · left; exact ⟨e, hF, by rw [heq2]⟩
      · obtain ⟨h1, h2⟩ := hs k rfl
        rw [heq2]
        simp only
        cases he1 : c1.eof with
        | true =>
          rcases ok2.run h (List.replicate n [none, some k]).flatten with hh | ⟨c3, ph3, w3, rem3, segs3, heq3, ok3, he3⟩
          · exact Or.inl hh
          · exact Or.inr ⟨c3, ph3, w3, rem3, segs3, heq3, ok3, he3 (h2.trans he1)⟩
        | false =>
          have := hn he1
          exact SegClient.LooseOk.reach h k n ok2 h1 (by omega)

/-- A stream that keeps the weaker protocol shows every client exactly the slices it should. -/
theorem SegLoose.reads {S : SegSrc σ} {F R} (h : SegLoose S F R) {s w content segs} (hR : R s (.idle false) w content segs) :
    SegReads S F s (slicesOf content segs) := by
  have ok : SegClient.LooseOk R (slicesOf content segs) (SegClient.init s) (.idle false) w content segs :=
    ⟨hR, by simp [SegClient.init, absOf_zero], by simp [SegClient.init], fun _ => rfl, by simp [SegClient.init], by simp [SegClient.init]⟩
  refine ⟨fun ops => ?_, w + 1, fun n k hn _ => ?_⟩
  · rcases ok.run h ops with h | ⟨c, ph, w', rem, segs', heq, ok', _⟩
    · exact Or.inl h
    · right
      refine ⟨c, heq, ?_, fun he => ?_⟩
      · rw [ok'.out_eq]
        exact (List.prefix_append_right_inj _).2 ok'.lent_pre
      · rw [ok'.out_eq, ok'.all he]
  · rcases ok.reach h k n rfl (by omega) with h | ⟨c, ph, w', rem, segs', heq, ok', he⟩
    · exact Or.inl h
    · right
      exact ⟨c, heq, he, by rw [ok'.out_eq, ok'.all he]⟩

end Nd
