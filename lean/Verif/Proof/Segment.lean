import Verif.Spec.Segment
/-!
# The segment protocol implies what clients see
-/
namespace Nd

/-- Absolute positions. -/
def absOf (offset : Nat) (rem : Bytes) (segs : List Seg) : List (Nat × Bytes) :=
  segs.map fun x => (offset + x.pos, x.bytes rem)

theorem absOf_zero (rem : Bytes) (segs : List Seg) : absOf 0 rem segs = slicesOf rem segs := by
  simp [absOf, slicesOf]

theorem Seg.bytes_shift (x : Seg) (rem : Bytes) (k : Nat) (h : k ≤ x.pos) : (x.shift k).bytes (rem.drop k) = x.bytes rem := by
  simp only [Seg.bytes, Seg.shift, List.drop_drop]
  rw [show k + (x.pos - k) = x.pos by omega]

theorem absOf_shift (offset : Nat) (rem : Bytes) (segs : List Seg) (k : Nat) (h : ∀ x ∈ segs, k ≤ x.pos) :
    absOf (offset + k) (rem.drop k) (segs.map (Seg.shift k)) = absOf offset rem segs := by
  simp only [absOf, List.map_map]
  apply List.map_congr_left
  intro x hx
  simp only [Function.comp, Seg.bytes_shift x rem k (h x hx)]
  congr 1
  simp only [Seg.shift]
  have := h x hx
  omega

theorem Seg.bytes_take (x : Seg) (rem m : Bytes) (n : Nat) (hn : n ≤ rem.length) (h : x.tail ≤ n) :
    x.bytes (rem.take n ++ m) = x.bytes rem := by
  unfold Seg.bytes Seg.tail at *
  apply List.ext_getElem?
  intro i
  simp only [List.getElem?_take, List.getElem?_drop]
  split
  · rw [List.getElem?_append_left (by simp; omega), List.getElem?_take, if_pos (by omega)]
  · rfl

/-- The lent segments denote the bytes they should. -/
theorem SegLent.abs {rem segs slices bytes count} (h : SegLent rem segs slices bytes count) (offset : Nat) :
    ((slices.2.take count).map fun x => (offset + x.pos, x.bytes slices.1)) = absOf offset rem (segs.take count) := by
  obtain ⟨avail, h1, h2, h3, h4⟩ := h.bytes_eq
  rw [h.segs_eq, List.take_take, Nat.min_self]
  unfold absOf
  apply List.map_congr_left
  intro x hx
  have ht := h4 x hx
  by_cases h0 : 0 < avail
  · obtain ⟨m, _, hm⟩ := h3 h0
    rw [hm, Seg.bytes_take x rem m avail h2 ht]
  · have : x.len = 0 := by simp only [Seg.tail] at ht; omega
    simp [Seg.bytes, this]

/-- What is known about a client. -/
structure SegClient.Ok (K : SegKind) (R : σ → SegPhase → Nat → Bytes → List Seg → Prop) (out : List (Nat × Bytes)) (len : Nat) (c : SegClient σ)
    (ph : SegPhase) (w : Nat) (rem : Bytes) (segs : List Seg) : Prop where
  rel : R c.st ph w rem segs
  out_eq : out = c.got ++ absOf c.offset rem segs
  lent_pre : c.lent <+: absOf c.offset rem segs
  len_le : rem.length ≤ len
  idle : c.cap = none → (∃ lb, ph = .idle lb) ∨ (ph = .done ∧ c.eof = true)
  lent : ∀ m, c.cap = some m → ∃ count cap, ph = .lent c.eof count cap ∧ c.lent = absOf c.offset rem (segs.take count) ∧
    (m = cap ∨ (cap = 0 ∧ K.strict = false)) ∧ cap ≤ len
  all : c.eof = true → c.lent = absOf c.offset rem segs

theorem SegClient.Ok.step {S : SegSrc σ} {K F R} (h : SegFaithful S K F R) {out len} {c : SegClient σ} {ph w rem segs}
    (ok : SegClient.Ok K R out len c ph w rem segs) (op : Option Nat) (hop : K.Free ∨ ∀ k, op = some k → len ≤ k) :
    (∃ e, F e ∧ c.step S op = .error e) ∨ ∃ c' ph' w' rem' segs', c.step S op = .ok c' ∧
      SegClient.Ok K R out len c' ph' w' rem' segs' ∧ w' ≤ w ∧
      (op = none → c.cap = none → (∃ m, c'.cap = some m) ∧ (c'.eof = false → w' < w) ∧ (ph = .done → c'.eof = true)) ∧
      (∀ k, op = some k → c'.cap = none ∧ c'.eof = c.eof ∧ (len ≤ k → ∀ m, c.cap = some m → c.eof = true → ph' = .done)) := by
  cases op with
  | none =>
    simp only [SegClient.step]
    cases hc : c.cap with
    | some m =>
      right
      exact ⟨c, ph, w, rem, segs, rfl, ok, Nat.le_refl _, by simp, by simp⟩
    | none =>
      simp only
      rcases ok.idle hc with ⟨lb, hph⟩ | ⟨hph, heof⟩
      · have hR := ok.rel
        rw [hph] at hR
        rcases h.fill _ _ _ _ _ hR with ⟨e, hF, heq⟩ | ⟨eof, bytes, count, maxc, cap, w', s', heq, hR', hl, h1, h2, h3, h4, h5, h6, h7, _⟩
        · left; exact ⟨e, hF, by rw [heq]⟩
        · right
          rw [heq]
          obtain ⟨avail, hav⟩ := hl.bytes_eq
          have hlen := ok.len_le
          refine ⟨_, .lent eof count cap, w', rem, segs, rfl, ⟨hR', ok.out_eq, ?_, ok.len_le, by simp, ?_, ?_⟩, h6, ?_, by simp⟩
          · simp only
            rw [hl.abs]
            exact (List.take_prefix _ _).map _
          · intro m hm
            simp only [Option.some.injEq] at hm
            subst hm
            refine ⟨count, cap, rfl, hl.abs _, ?_, by omega⟩
            rcases h3 with h3 | h3
            · exact Or.inl h3
            · exact Or.inr ⟨h3.1, h3.2.2.2⟩
          · intro he
            simp only at he ⊢
            rw [hl.abs, (h4 he).1, List.take_length]
          · intro _ _
            refine ⟨⟨maxc, rfl⟩, h7, ?_⟩
            rw [hph]; intro hh; cases hh
      · have hR := ok.rel
        rw [hph] at hR
        rcases h.rest _ _ _ _ hR with ⟨e, hF, heq⟩ | ⟨w', s', heq, hR', hl, h6⟩
        · left; exact ⟨e, hF, by rw [heq]⟩
        · right
          rw [heq]
          refine ⟨_, .lent true segs.length 0, w', rem, segs, rfl, ⟨hR', ok.out_eq, ?_, ok.len_le, by simp, ?_, ?_⟩, h6, ?_, by simp⟩
          · simp only
            rw [hl.abs]
            exact (List.take_prefix _ _).map _
          · intro m hm
            simp only [Option.some.injEq] at hm
            exact ⟨segs.length, 0, rfl, hl.abs _, Or.inl hm.symm, Nat.zero_le _⟩
          · intro he
            simp only
            rw [hl.abs, List.take_length]
          · intro _ _
            exact ⟨⟨0, rfl⟩, by simp, fun _ => rfl⟩
  | some k =>
    simp only [SegClient.step]
    cases hc : c.cap with
    | none =>
      right
      refine ⟨c, ph, w, rem, segs, rfl, ok, Nat.le_refl _, by simp, ?_⟩
      intro k' _
      exact ⟨hc, rfl, by simp⟩
    | some m =>
      simp only
      obtain ⟨count, cap, hph, hlent, hm, hcl⟩ := ok.lent m hc
      have hR := ok.rel
      rw [hph] at hR
      have hk : (cap = 0 ∧ K.strict = false) ∨ min k m = cap ∨ (min k m ≤ cap ∧ K.policy (segs.take count) (min k m)) := by
        rcases hm with hm | hm
        · rcases hop with hop | hop
          · exact Or.inr (Or.inr ⟨by omega, hop _ _⟩)
          · have := hop k rfl
            exact Or.inr (Or.inl (by omega))
        · exact Or.inl hm
      obtain ⟨k', n, w', s', heq, h1, h2, h3, h4, h5, hR', h6, h7, _⟩ := h.consume _ _ _ _ _ _ _ (min k m) hR hk
      rw [heq]
      right
      have hl : c.lent.take n = absOf c.offset rem (segs.take n) := by
        rw [hlent]; simp only [absOf, ← List.map_take, List.take_take, Nat.min_eq_left h3]
      have hs := absOf_shift c.offset rem (segs.drop n) k' h5
      refine ⟨_, _, w', _, _, rfl, ⟨hR', ?_, ?_, ?_, ?_, by simp, ?_⟩, h6, by simp, ?_⟩
      · simp only
        rw [hl, hs, ok.out_eq, List.append_assoc]
        congr 1
        simp only [absOf, ← List.map_append, List.take_append_drop]
      · simp only
        rw [hs, hlent]
        simp only [absOf, ← List.map_drop]
        rw [List.drop_take]
        exact (List.take_prefix _ _).map _
      · have := ok.len_le; simp; omega
      · intro _
        by_cases hd : c.eof = true ∧ k' = cap
        · rw [if_pos hd]; exact Or.inr ⟨rfl, hd.1⟩
        · rw [if_neg hd]; exact Or.inl ⟨_, rfl⟩
      · intro he
        have := ok.all he
        simp only
        rw [hs, this]
        simp only [absOf, ← List.map_drop]
      · intro k2 hk2
        simp only [Option.some.injEq] at hk2
        subst hk2
        refine ⟨rfl, rfl, ?_⟩
        intro hlen m' _ he
        have hkc : k' = cap := by
          by_cases h0 : cap = 0
          · omega
          · have hmc : m = cap := by omega
            exact h7 he (by omega)
        exact if_pos ⟨he, hkc⟩

theorem SegClient.Ok.run {S : SegSrc σ} {K F R} (h : SegFaithful S K F R) {out len} : ∀ (ops : List (Option Nat)) (_ : K.Free ∨ ∀ k, some k ∈ ops → len ≤ k) {c : SegClient σ} {ph w rem segs},
    SegClient.Ok K R out len c ph w rem segs →
    (∃ e, F e ∧ c.run S ops = .error e) ∨ ∃ c' ph' w' rem' segs', c.run S ops = .ok c' ∧ SegClient.Ok K R out len c' ph' w' rem' segs'
  | [], _, c, ph, w, rem, segs, ok => Or.inr ⟨c, ph, w, rem, segs, rfl, ok⟩
  | op :: ops, hop, c, ph, w, rem, segs, ok => by
    simp only [SegClient.run]
    rcases ok.step h op (hop.imp id fun hh k hk => hh k (by simp [hk])) with ⟨e, hF, heq⟩ | ⟨c', ph', w', rem', segs', heq, ok', _, _⟩
    · left; exact ⟨e, hF, by rw [heq]⟩
    · rw [heq]; exact SegClient.Ok.run h ops (hop.imp id fun hh k hk => hh k (by simp [hk])) ok'

/-- A client that has been told the end and has consumed everything stays there. -/
theorem SegClient.Ok.stay {S : SegSrc σ} {K F R} (h : SegFaithful S K F R) {out len} (k : Nat) (hk : len ≤ k) :
    ∀ (n : Nat) {c : SegClient σ} {w rem segs},
    SegClient.Ok K R out len c .done w rem segs → c.cap = none → c.eof = true →
    (∃ e, F e ∧ c.run S ((List.replicate n [none, some k]).flatten) = .error e) ∨
    ∃ c' ph' w' rem' segs', c.run S ((List.replicate n [none, some k]).flatten) = .ok c' ∧ SegClient.Ok K R out len c' ph' w' rem' segs' ∧ c'.eof = true
  | 0, c, w, rem, segs, ok, hc, he => Or.inr ⟨c, _, w, rem, segs, rfl, ok, he⟩
  | n + 1, c, w, rem, segs, ok, hc, he => by
    simp only [List.replicate_succ, List.flatten_cons, List.cons_append, List.nil_append, SegClient.run]
    rcases ok.step h none (Or.inr (by simp)) with ⟨e, hF, heq⟩ | ⟨c1, ph1, w1, rem1, segs1, heq, ok1, _, hn, _⟩
    · left; exact ⟨e, hF, by rw [heq]⟩
    · obtain ⟨⟨m, hm⟩, _, hd⟩ := hn rfl hc
      have he1 := hd rfl
      rw [heq]
      simp only
      rcases ok1.step h (some k) (Or.inr fun k' hk' => by cases hk'; exact hk) with ⟨e, hF, heq2⟩ | ⟨c2, ph2, w2, rem2, segs2, heq2, ok2, _, _, hs⟩
      · left; exact ⟨e, hF, by rw [heq2]⟩
      · obtain ⟨h1, h2, h3⟩ := hs k rfl
        rw [heq2]
        simp only
        have := h3 hk m hm he1
        subst this
        exact SegClient.Ok.stay h k hk n ok2 h1 (h2.trans he1)

theorem SegClient.Ok.reach {S : SegSrc σ} {K F R} (h : SegFaithful S K F R) {out len} (k : Nat) (hk : len ≤ k) :
    ∀ (n : Nat) {c : SegClient σ} {lb w rem segs},
    SegClient.Ok K R out len c (.idle lb) w rem segs → c.cap = none → c.eof = false → w < n →
    (∃ e, F e ∧ c.run S ((List.replicate n [none, some k]).flatten) = .error e) ∨
    ∃ c' ph' w' rem' segs', c.run S ((List.replicate n [none, some k]).flatten) = .ok c' ∧ SegClient.Ok K R out len c' ph' w' rem' segs' ∧ c'.eof = true
  | 0, c, lb, w, rem, segs, ok, hc, he, hw => absurd hw (Nat.not_lt_zero _)
  | n + 1, c, lb, w, rem, segs, ok, hc, he, hw => by
    simp only [List.replicate_succ, List.flatten_cons, List.cons_append, List.nil_append, SegClient.run]
    rcases ok.step h none (Or.inr (by simp)) with ⟨e, hF, heq⟩ | ⟨c1, ph1, w1, rem1, segs1, heq, ok1, _, hn, _⟩
    · left; exact ⟨e, hF, by rw [heq]⟩
    · obtain ⟨⟨m, hm⟩, hw1, _⟩ := hn rfl hc
      rw [heq]
      simp only
      rcases ok1.step h (some k) (Or.inr fun k' hk' => by cases hk'; exact hk) with ⟨e, hF, heq2⟩ | ⟨c2, ph2, w2, rem2, segs2, heq2, ok2, hw2, _, hs⟩
      · left; exact ⟨e, hF, by rw [heq2]⟩
      · obtain ⟨h1, h2, h3⟩ := hs k rfl
        rw [heq2]
        simp only
        cases he1 : c1.eof with
        | true =>
          have := h3 hk m hm he1
          subst this
          exact SegClient.Ok.stay h k hk n ok2 h1 (h2.trans he1)
        | false =>
          have hw1 := hw1 he1
          rcases ok2.idle h1 with ⟨lb2, hph⟩ | ⟨_, he2⟩
          · subst hph
            exact SegClient.Ok.reach h k hk n ok2 h1 (h2.trans he1) (by omega)
          · rw [h2, he1] at he2; cases he2

theorem SegClient.Ok.start (K : SegKind) {R : σ → SegPhase → Nat → Bytes → List Seg → Prop} {s w content segs} (hR : R s (.idle 0) w content segs) :
    SegClient.Ok K R (slicesOf content segs) content.length (SegClient.init s) (.idle 0) w content segs :=
  ⟨hR, by simp [SegClient.init, absOf_zero], by simp [SegClient.init], Nat.le_refl _, fun _ => Or.inl ⟨_, rfl⟩,
    by simp [SegClient.init], by simp [SegClient.init]⟩

/-- A stream that keeps the protocol with any client shows it exactly the slices it should. -/
theorem SegDelivers.reads {S : SegSrc σ} {K F s w content segs} (h : SegDelivers S K F s w content segs) (hK : K.Free) :
    SegReads S F s (slicesOf content segs) := by
  obtain ⟨R, hf, hR⟩ := h
  have ok := SegClient.Ok.start K hR
  refine ⟨fun ops => ?_, max (w + 1) content.length, fun n k hn hk => ?_⟩
  · rcases ok.run hf ops (Or.inl hK) with h | ⟨c, ph, w', rem, segs', heq, ok'⟩
    · exact Or.inl h
    · right
      refine ⟨c, heq, ?_, fun he => ?_⟩
      · rw [ok'.out_eq]
        exact (List.prefix_append_right_inj _).2 ok'.lent_pre
      · rw [ok'.out_eq, ok'.all he]
  · rcases ok.reach hf k (by omega) n rfl rfl (by omega) with h | ⟨c, ph, w', rem, segs', heq, ok', he⟩
    · exact Or.inl h
    · right
      exact ⟨c, heq, he, by rw [ok'.out_eq, ok'.all he]⟩

/-- A stream that keeps the protocol shows a client that consumes all it may exactly the slices it should. -/
theorem SegDelivers.drains {S : SegSrc σ} {K F s w content segs} (h : SegDelivers S K F s w content segs) :
    SegDrains S F s (slicesOf content segs) := by
  obtain ⟨R, hf, hR⟩ := h
  have ok := SegClient.Ok.start K hR
  refine ⟨max (w + 1) content.length, fun n k hk => ?_⟩
  rcases ok.run hf (List.replicate n [none, some k]).flatten (Or.inr (by
    intro k' hk'
    simp only [List.mem_flatten, List.mem_replicate] at hk'
    obtain ⟨l, ⟨_, rfl⟩, hk'⟩ := hk'
    simp only [List.mem_cons, Option.some.injEq, List.not_mem_nil, or_false, reduceCtorEq, false_or] at hk'
    omega)) with h | ⟨c, ph, w', rem, segs', heq, ok'⟩
  · exact Or.inl h
  · right
    refine ⟨c, heq, ?_, fun he => ?_, fun hn => ?_⟩
    · rw [ok'.out_eq]
      exact (List.prefix_append_right_inj _).2 ok'.lent_pre
    · rw [ok'.out_eq, ok'.all he]
    · rcases ok.reach hf k (by omega) n rfl rfl (by omega) with ⟨e, _, h⟩ | ⟨c2, ph, w', rem, segs', heq2, _, he⟩
      · rw [heq] at h; cases h
      · rw [heq] at heq2; cases heq2; exact he

end Nd
