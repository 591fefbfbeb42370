import Verif.Spec.Stream
/-! Consequences of the stream protocol for arbitrary clients. -/
namespace Nd

/-- Invariant of a client run. -/
def Client.Inv (S : ByteSrc σ) (R : σ → Phase → Nat → Bytes → Prop) (content : Bytes) (c : Client σ) : Prop :=
  ∃ rem, content = c.got ++ rem ∧
    match c.lent with
    | none => ∃ lb w, 1 ≤ lb ∧ R c.st (.idle lb) w rem
    | some n => (∃ w, R c.st (.lent n) w rem) ∧ n ≤ rem.length ∧ (c.eof = true → n = rem.length) ∧
        (S.slice c.st).take n = rem.take n

theorem slice_take {S : ByteSrc σ} {M : Bytes → Prop} {s : σ} {n : Nat} {rem : Bytes} (hn : n ≤ rem.length)
    (h : 0 < n → ∃ m, M m ∧ S.slice s = rem.take n ++ m) : (S.slice s).take n = rem.take n := by
  rcases Nat.eq_zero_or_pos n with h0 | h0
  · simp [h0]
  · obtain ⟨m, _, hm⟩ := h h0
    rw [hm, List.take_append_of_le_length (by simp; omega), List.take_take]
    congr 1; omega

theorem Client.inv_step {S : ByteSrc σ} {F M R} (h : Faithful S F M R) {content : Bytes} {c : Client σ}
    (hi : c.Inv S R content) (op : ClientOp) :
    (∃ e, F e ∧ c.step S op = .error e) ∨ ∃ c', c.step S op = .ok c' ∧ c'.Inv S R content := by
  obtain ⟨rem, hc, hl⟩ := hi
  cases op with
  | fill req =>
    have : ∃ ph w, R c.st ph w rem := by
      revert hl; cases c.lent with
      | none => intro ⟨lb, w, _, h⟩; exact ⟨_, _, h⟩
      | some n => intro h; exact ⟨_, _, h.1.choose_spec⟩
    obtain ⟨ph, w, hR⟩ := this
    rcases h.fill _ _ _ _ req hR with ⟨e, he, heq⟩ | ⟨eof, n, w', s', heq, hR', hn, hm, he, _⟩
    · left; exact ⟨e, he, by simp [Client.step, heq]⟩
    · right
      refine ⟨{ c with st := s', lent := some n, eof := eof }, by simp [Client.step, heq], rem, hc, ?_⟩
      exact ⟨⟨_, hR'⟩, hn, he, slice_take hn hm⟩
  | consume k =>
    cases hlent : c.lent with
    | none => right; exact ⟨c, by simp [Client.step, hlent], rem, hc, by rw [hlent] at hl; simpa [hlent] using hl⟩
    | some n =>
      rw [hlent] at hl
      obtain ⟨⟨w, hR⟩, hn, _, hsl⟩ := hl
      obtain ⟨s', w', heq, hR', _⟩ := h.consume _ _ _ _ (min k n) hR (Nat.min_le_right ..)
      right
      refine ⟨_, by simp only [Client.step, hlent, heq]; rfl, rem.drop (min k n), ?_, ?_⟩
      · have : (S.slice c.st).take (min k n) = rem.take (min k n) := by
          have h1 := congrArg (List.take (min k n)) hsl
          rw [List.take_take, List.take_take] at h1
          have : min (min k n) n = min k n := by omega
          rwa [this] at h1
        simp only [this, List.append_assoc, List.take_append_drop, hc]
      · exact ⟨_, _, by split <;> omega, hR'⟩

theorem Client.inv_run {S : ByteSrc σ} {F M R} (h : Faithful S F M R) {content : Bytes} (ops : List ClientOp) :
    ∀ {c : Client σ}, c.Inv S R content →
    (∃ e, F e ∧ c.run S ops = .error e) ∨ ∃ c', c.run S ops = .ok c' ∧ c'.Inv S R content := by
  induction ops with
  | nil => intro c hi; right; exact ⟨c, rfl, hi⟩
  | cons op ops ih =>
    intro c hi
    rcases Client.inv_step h hi op with ⟨e, he, heq⟩ | ⟨c', heq, hi'⟩
    · left; exact ⟨e, he, by simp [Client.run, heq]⟩
    · rcases ih hi' with ⟨e, he, h2⟩ | ⟨c'', h2, hi''⟩
      · left; exact ⟨e, he, by simp [Client.run, heq, h2]⟩
      · right; exact ⟨c'', by simp [Client.run, heq, h2], hi''⟩

/-- Every client sees a prefix of the content; when a fill has just reported the end, consumed and
lent bytes together are all of it. -/
theorem Delivers.client {S : ByteSrc σ} {F M} {s : σ} {w : Nat} {content : Bytes} (h : Delivers S F M s w content)
    (ops : List ClientOp) :
    (∃ e, F e ∧ (Client.init s).run S ops = .error e) ∨
    ∃ c, (Client.init s).run S ops = .ok c ∧ c.got <+: content ∧
      (∀ n, c.lent = some n → c.got ++ (S.slice c.st).take n <+: content ∧
        (c.eof = true → c.got ++ (S.slice c.st).take n = content)) := by
  obtain ⟨R, hF, hR⟩ := h
  rcases Client.inv_run hF ops (c := Client.init s) (content := content) ⟨content, rfl, 1, w, by omega, hR⟩ with
    he | ⟨c, heq, rem, hc, hl⟩
  · exact Or.inl he
  · refine Or.inr ⟨c, heq, ⟨rem, hc.symm⟩, ?_⟩
    intro n hn
    rw [hn] at hl
    obtain ⟨_, hnl, he, hsl⟩ := hl
    rw [hsl]
    refine ⟨⟨rem.drop n, by rw [List.append_assoc, List.take_append_drop, hc]⟩, fun h => ?_⟩
    rw [he h, List.take_length, hc]

/-- A stream delivering `content` can be used where errors and margins are less constrained. -/
theorem Faithful.mono {S : ByteSrc σ} {F F' M M' R} (h : Faithful S F M R) (hF : ∀ e, F e → F' e)
    (hM : ∀ m, M m → M' m) : Faithful S F' M' R where
  fill s ph w rem req hR := by
    rcases h.fill s ph w rem req hR with ⟨e, he, heq⟩ | ⟨eof, n, w', s', heq, hR', hn, hm, h1⟩
    · exact Or.inl ⟨e, hF e he, heq⟩
    · exact Or.inr ⟨eof, n, w', s', heq, hR', hn, fun h => (hm h).imp fun m h => ⟨hM m h.1, h.2⟩, h1⟩
  consume := h.consume
  nudge := h.nudge

theorem Delivers.mono {S : ByteSrc σ} {F F' M M' s w content} (h : Delivers S F M s w content)
    (hF : ∀ e, F e → F' e) (hM : ∀ m, M m → M' m) : Delivers S F' M' s w content := by
  obtain ⟨R, h1, h2⟩ := h
  exact ⟨R, h1.mono hF hM, h2⟩

theorem NlMargin.any {m : Bytes} (h : NlMargin m) : AnyMargin m := by
  rw [NlMargin] at h; subst h; simp [AnyMargin]

/-- Dynamic dispatch preserves the protocol. -/
def SumRel (R : σ → Phase → Nat → Bytes → Prop) (Q : τ → Phase → Nat → Bytes → Prop) :
    σ ⊕ τ → Phase → Nat → Bytes → Prop
  | .inl s => R s
  | .inr t => Q t

theorem Faithful.sum {S : ByteSrc σ} {T : ByteSrc τ} {F M R Q} (h : Faithful S F M R) (g : Faithful T F M Q) :
    Faithful (sumSrc S T) F M (SumRel R Q) where
  fill s ph w rem req hR := by
    cases s with
    | inl s =>
      rcases h.fill s ph w rem req hR with ⟨e, he, heq⟩ | ⟨eof, n, w', s', heq, hR', hn, hm, h1⟩
      · exact Or.inl ⟨e, he, by simp [sumSrc, heq]⟩
      · exact Or.inr ⟨eof, n, w', .inl s', by simp [sumSrc, heq], hR', hn, hm, h1⟩
    | inr s =>
      rcases g.fill s ph w rem req hR with ⟨e, he, heq⟩ | ⟨eof, n, w', s', heq, hR', hn, hm, h1⟩
      · exact Or.inl ⟨e, he, by simp [sumSrc, heq]⟩
      · exact Or.inr ⟨eof, n, w', .inr s', by simp [sumSrc, heq], hR', hn, hm, h1⟩
  consume s n w rem k hR hk := by
    cases s with
    | inl s =>
      obtain ⟨s', w', heq, h1, h2⟩ := h.consume s n w rem k hR hk
      exact ⟨.inl s', w', by simp [sumSrc, heq], h1, h2⟩
    | inr s =>
      obtain ⟨s', w', heq, h1, h2⟩ := g.consume s n w rem k hR hk
      exact ⟨.inr s', w', by simp [sumSrc, heq], h1, h2⟩
  nudge s lb w rem hR := by
    cases s with
    | inl s =>
      obtain ⟨s', w', heq, h1, h2⟩ := h.nudge s lb w rem hR
      exact ⟨.inl s', w', by simp [sumSrc, heq], h1, h2⟩
    | inr s =>
      obtain ⟨s', w', heq, h1, h2⟩ := g.nudge s lb w rem hR
      exact ⟨.inr s', w', by simp [sumSrc, heq], h1, h2⟩

theorem Delivers.inl {S : ByteSrc σ} {T : ByteSrc τ} {F M s w c Q} (h : Delivers S F M s w c)
    (g : Faithful T F M Q) : Delivers (sumSrc S T) F M (.inl s) w c := by
  obtain ⟨R, h1, h2⟩ := h
  exact ⟨_, h1.sum g, h2⟩

theorem Delivers.inr {S : ByteSrc σ} {T : ByteSrc τ} {F M t w c R} (h : Delivers T F M t w c)
    (g : Faithful S F M R) : Delivers (sumSrc S T) F M (.inr t) w c := by
  obtain ⟨Q, h1, h2⟩ := h
  exact ⟨_, g.sum h1, h2⟩

/-- The relation of all states that deliver. -/
def Live (S : ByteSrc σ) (F : Err → Prop) (M : Bytes → Prop) (s : σ) (ph : Phase) (w : Nat) (rem : Bytes) : Prop :=
  ∃ R, Faithful S F M R ∧ R s ph w rem

theorem Live.faithful {S : ByteSrc σ} {F M} : Faithful S F M (Live S F M) where
  fill s ph w rem req := by
    rintro ⟨R, h, hR⟩
    rcases h.fill s ph w rem req hR with h1 | ⟨eof, n, w', s', heq, hR', h1⟩
    · exact Or.inl h1
    · exact Or.inr ⟨eof, n, w', s', heq, ⟨R, h, hR'⟩, h1⟩
  consume s n w rem k := by
    rintro ⟨R, h, hR⟩ hk
    obtain ⟨s', w', heq, h1, h2⟩ := h.consume s n w rem k hR hk
    exact ⟨s', w', heq, ⟨R, h, h1⟩, h2⟩
  nudge s lb w rem := by
    rintro ⟨R, h, hR⟩
    obtain ⟨s', w', heq, h1, h2⟩ := h.nudge s lb w rem hR
    exact ⟨s', w', heq, ⟨R, h, h1⟩, h2⟩

/-- The work bound may be exceeded. -/
theorem Faithful.weaken {S : ByteSrc σ} {F M} {R : σ → Phase → Nat → Bytes → Prop} (h : Faithful S F M R) :
    Faithful S F M (fun s ph w rem => ∃ w0 ≤ w, R s ph w0 rem) where
  fill s ph w rem req := by
    rintro ⟨w0, hw0, hR⟩
    rcases h.fill s ph w0 rem req hR with h1 | ⟨eof, n, w', s', heq, hR', h1, h2, h3, h4, h5, h6⟩
    · exact Or.inl h1
    · exact Or.inr ⟨eof, n, w', s', heq, ⟨w', Nat.le_refl _, hR'⟩, h1, h2, h3, h4, by omega, fun a b => by have := h6 a b; omega⟩
  consume s n w rem k := by
    rintro ⟨w0, hw0, hR⟩ hk
    obtain ⟨s', w', heq, h1, h2⟩ := h.consume s n w0 rem k hR hk
    exact ⟨s', w', heq, ⟨w', Nat.le_refl _, h1⟩, by omega⟩
  nudge s lb w rem := by
    rintro ⟨w0, hw0, hR⟩
    obtain ⟨s', w', heq, h1, h2⟩ := h.nudge s lb w0 rem hR
    exact ⟨s', w', heq, ⟨w', Nat.le_refl _, h1⟩, by omega⟩

theorem Delivers.weaken {S : ByteSrc σ} {F M s w w' c} (h : Delivers S F M s w c) (hw : w ≤ w') :
    Delivers S F M s w' c := by
  obtain ⟨R, h1, h2⟩ := h
  exact ⟨_, h1.weaken, w, hw, h2⟩

theorem Client.drain {S : ByteSrc σ} {F M R} (h : Faithful S F M R) (content : Bytes) :
    ∀ (reqs : List Nat) (c : Client σ) (lb w : Nat) (rem : Bytes), 1 ≤ lb → R c.st (.idle lb) w rem →
      content = c.got ++ rem → (if rem = [] then 0 else w + 1) ≤ reqs.length →
      (∃ e, F e ∧ c.run S (reqs.flatMap fun r => [.fill r, .consume content.length]) = .error e) ∨
      ∃ c', c.run S (reqs.flatMap fun r => [.fill r, .consume content.length]) = .ok c' ∧ c'.got = content := by
  intro reqs
  induction reqs with
  | nil =>
    intro c lb w rem _ _ hc hw
    right
    refine ⟨c, rfl, ?_⟩
    by_cases hr : rem = []
    · rw [hc, hr]; simp
    · rw [if_neg hr] at hw; simp at hw
  | cons req reqs ih =>
    intro c lb w rem hlb hR hc hw
    simp only [List.flatMap_cons, List.cons_append, List.nil_append, Client.run, Client.step]
    rcases h.fill _ _ w rem req hR with ⟨e, he, heq⟩ | ⟨eof, n, w', s', heq, hR', hn, hm, he, hne, hw1, hw2⟩
    · left; exact ⟨e, he, by simp only [heq]⟩
    · have hcl : content.length = c.got.length + rem.length := by rw [hc]; simp
      have hmin : min content.length n = n := by omega
      obtain ⟨s'', w'', heq', hR'', hw''⟩ := h.consume _ _ _ _ n hR' (Nat.le_refl n)
      simp only [heq, hmin, heq', slice_take hn hm]
      refine ih _ _ w'' (rem.drop n) (by split <;> omega) hR'' ?_ ?_
      · simp only [List.append_assoc, List.take_append_drop, hc]
      · simp only [List.length_cons] at hw
        split
        · omega
        · rename_i hr
          have hr0 : rem ≠ [] := by intro h0; rw [h0] at hr; simp at hr
          rw [if_neg hr0] at hw
          cases eof with
          | true => exact absurd (List.drop_of_length_le (by have := he rfl; omega)) hr
          | false => have := hw2 rfl trivial; omega

/-- The protocol implies what clients see. -/
theorem Delivers.reads {S : ByteSrc σ} {F M} {s : σ} {w : Nat} {content : Bytes} (h : Delivers S F M s w content) :
    Reads S F s content := by
  refine ⟨h.client, w + 1, fun reqs hl => ?_⟩
  obtain ⟨R, hF, hR⟩ := h
  exact Client.drain hF content reqs (Client.init s) 1 w content (Nat.le_refl _) hR rfl (by split <;> omega)

end Nd
