import Verif.Proof.Bounded
/-!
# The sizes of buffers: `--cat`
-/
namespace Nd.CatStream

variable {S : ByteSrc σ} {B Q K C Q' : Nat} {srcs₀ : List σ}

/-- The sources lend at most `C` bytes. -/
def Modest (S : ByteSrc σ) (Q K C : Nat) (srcs₀ : List σ) : Prop := ∀ s₀ ∈ srcs₀, ∀ s n eof, LentTo S Q K s₀ s n eof → n ≤ C ∧ n ≤ (S.slice s).length

/-- The state of the sources while the cache is filled; the last `dup` bytes in the cache are lent by the first one. -/
def Filling (S : ByteSrc σ) (Q K pos : Nat) (srcs₀ : List σ) (t : Captured σ) (len : Nat) : Prop :=
  ∃ s₀ s rest, s₀ :: rest <:+ srcs₀ ∧ t.1 = s :: rest ∧ LentTo S Q K s₀ s t.2.1 t.2.2 ∧ pos + t.2.1 ≤ len

theorem feed_adds (hm : Modest S Q K C srcs₀) (pos : Nat) : StreamBuf.Adds (feed S) (fun t len => pos ≤ len ∧ Filling S Q K pos srcs₀ t len) (fun t _ => t.1 = []) C Q := by
  intro t req buf eof buf' t' ⟨hpos, hP⟩ hreq h
  obtain ⟨srcs, dup, isEof⟩ := t
  obtain ⟨s₀, s, rest, h1, h2, h3, h4⟩ := hP
  simp only at h2 h3 h4
  subst h2
  unfold feed at h
  simp only at h
  split at h
  · cases h
  · rename_i s1 hc
    have hv := h3.consume (Nat.le_refl _) (fun _ => by omega) hc
    have hnext : ∀ s2 rest2, (if isEof = true then rest else s1 :: rest) = s2 :: rest2 → ∃ s₀', s₀' :: rest2 <:+ srcs₀ ∧ Visited S Q K s₀' s2 := by
      intro s2 rest2 he
      split at he
      · subst he
        exact ⟨s2, (List.suffix_cons _ _).trans h1, .start⟩
      · cases he
        exact ⟨s₀, h1, hv⟩
    split at h
    · cases h
      exact ⟨Nat.le_refl _, by omega, by simp⟩
    · rename_i s2 rest2 he
      obtain ⟨s₀', g1, g2⟩ := hnext _ _ he
      split at h
      · cases h
      · rename_i eof' n s3 hfill
        cases h
        have hl : LentTo S Q K s₀' s3 n eof' := ⟨_, _, g2, hreq, hfill⟩
        obtain ⟨b1, b2⟩ := hm s₀' (g1.subset (by simp)) _ _ _ hl
        have hlen : (buf ++ (S.slice s3).take n).length = buf.length + n := by
          rw [List.length_append, List.length_take]
          omega
        rw [hlen]
        simp only [Bool.false_eq_true, if_false]
        exact ⟨by omega, by omega, by omega, s₀', s3, rest2, g1, rfl, hl, by simp only; omega⟩

/-- `CatStream` between two rounds of a client. -/
structure Rests (S : ByteSrc σ) (B Q K C Q' : Nat) (srcs₀ : List σ) (c : CatStream σ) : Prop where
  small : c.cache.Small B Q K C
  align : c.cache.align = 1
  srcs : if c.cache.isEof then c.srcs = [] else ∃ s₀ s rest, s₀ :: rest <:+ srcs₀ ∧ c.srcs = s :: rest ∧ Visited S Q' K s₀ s
  dup : c.cache.isEof = false → c.dup ≤ c.cache.length

/-- `CatStream` has lent `n` bytes. -/
structure Lends (S : ByteSrc σ) (B Q K C Q' : Nat) (srcs₀ : List σ) (c : CatStream σ) (n : Nat) (eof : Bool) : Prop where
  align : c.cache.align = 1
  margin : c.cache.buf.length = c.cache.len + MARGIN
  len : c.cache.len ≤ StreamBuf.limit B Q K C 1
  target : c.cache.targetLen ≤ 24 * B + 3 * K + 6
  pos : c.cache.pos ≤ c.cache.len
  back : c.cache.isEof = false → c.cache.pos ≤ 8 * B
  eof : eof = c.cache.isEof
  own : c.cache.isEof = true ∨ 0 < c.cache.length → n = c.cache.length
  srcs : if c.cache.isEof then c.srcs = [] else c.dup ≤ c.cache.length ∧ ∃ s₀ s rest m e, s₀ :: rest <:+ srcs₀ ∧ c.srcs = s :: rest ∧ LentTo S Q' K s₀ s m e ∧
    (if c.cache.length = 0 then n = m else m = c.dup)

theorem Rests.new (h : srcs₀ ≠ []) : (new B srcs₀).Rests S B Q K C Q' srcs₀ := by
  cases srcs₀ with
  | nil => exact absurd rfl h
  | cons s rest =>
    refine ⟨StreamBuf.Small.new _ _ _ _ _ _ (by decide), rfl, ?_, fun _ => Nat.le_refl _⟩
    simp only [CatStream.new, StreamBuf.new, StreamBuf.newWithAlign, Bool.false_eq_true, if_false]
    exact ⟨s, s, rest, List.suffix_refl _, rfl, .start⟩

/-- A client fetches bytes. -/
theorem Rests.fill {fuel : Nat} {c c' : CatStream σ} (hc : c.Rests S B Q K (2 * C) Q' srcs₀) (hm : Modest S Q' K C srcs₀) (hQ : StreamBuf.limit B Q K 1 0 < Q') {req n : Nat} {eof : Bool} (hreq : req ≤ Q)
    (h : (byteSrc S B fuel).fill c req = .ok ((eof, n), c')) : c'.Lends S B Q K (2 * C) Q' srcs₀ n eof := by
  obtain ⟨h1, h2, h3, h4⟩ := hc
  unfold byteSrc at h
  simp only at h
  have hQ' := hQ
  unfold StreamBuf.limit at hQ'
  have hlen := h1.len
  by_cases he : c.cache.isEof = true
  · rw [if_pos he] at h3 hlen
    rw [h3] at h
    cases h
    rw [h2] at hlen
    exact ⟨h2, h1.margin, hlen, h1.target, h1.pos, h1.back, he.symm, fun _ => rfl, by rw [if_pos he]; exact h3⟩
  · rw [if_neg he] at h3 hlen
    have he : c.cache.isEof = false := by simpa using he
    obtain ⟨s₀, s, rest, g1, g2, g3⟩ := h3
    rw [g2] at h
    simp only at h
    split at h
    · cases h
    · rename_i isEof bytes s1 hfill
      have hl : LentTo S Q' K s₀ s1 bytes isEof := ⟨_, _, g3, by omega, hfill⟩
      obtain ⟨b1, b2⟩ := hm s₀ (g1.subset (by simp)) _ _ _ hl
      have hback := h1.back he
      have hpos := h1.pos
      have hdup := h4 he
      split at h
      · unfold accumulateIntoCache at h
        simp only at h
        split at h
        · cases h
        · rename_i hd
          split at h
          · cases h
          · rename_i r cache srcs dup x hfb
            cases h
            have hx : (((S.slice s1).take bytes).drop c.dup).length = bytes - c.dup := by
              rw [List.length_drop, List.length_take]
              omega
            have htar := h1.target
            obtain ⟨k1, k2, k3, k4, k5, k6, k7, k8⟩ := StreamBuf.fillBuf_length (feed_adds hm c.cache.pos) (s := c.cache.extendFromSlice (((S.slice s1).take bytes).drop c.dup))
              (by show max c.cache.targetLen _ < Q'; omega) (by show 0 < c.cache.align; omega)
              (by simp only [StreamBuf.extendFromSlice, length_resize]) he
              (by
                simp only [StreamBuf.extendFromSlice, hx]
                unfold StreamBuf.length at hdup
                exact ⟨by omega, s₀, s1, rest, g1, rfl, hl, by simp only; omega⟩) hfb
            cases k2
            simp only [StreamBuf.extendFromSlice, hx] at k3 k4 k5 k7 k8
            refine ⟨by simp only; omega, k6, ?_, by simp only; omega, by simp only; omega, fun _ => by simp only; omega, rfl, fun _ => rfl, ?_⟩
            · simp only
              unfold StreamBuf.limit
              omega
            · simp only
              split at k1 <;> rename_i hend
              · rw [if_pos hend]
                exact k1.elim fun _ h => h
              · rw [if_neg hend]
                obtain ⟨_, s₀', s', rest', q1, q2, q3, q4⟩ := k1
                simp only at q2 q3 q4
                unfold StreamBuf.length
                refine ⟨by omega, s₀', s', rest', dup, _, q1, q2, q3, ?_⟩
                split
                · omega
                · rfl
      · rename_i hcond
        simp only [Bool.or_eq_true, decide_eq_true_eq, not_or, Bool.not_eq_true] at hcond
        cases h
        refine ⟨h2, h1.margin, ?_, h1.target, h1.pos, h1.back, by rw [he, hcond.1], ?_, ?_⟩
        · simp only
          unfold StreamBuf.limit
          omega
        · simp only [he]
          intro h
          rcases h with h | h
          · cases h
          · exact absurd h hcond.2
        · simp only [he, Bool.false_eq_true, if_false]
          refine ⟨Nat.zero_le _, s₀, s1, rest, n, eof, g1, rfl, hl, ?_⟩
          rw [if_pos (by omega)]

theorem Lends.lent {fuel : Nat} {c : CatStream σ} {n : Nat} {eof : Bool} (h : c.Lends S B Q K (2 * C) Q' srcs₀ n eof) (hm : Modest S Q' K C srcs₀) :
    n ≤ StreamBuf.limit B Q K (2 * C) 1 ∧ n ≤ ((byteSrc S B fuel).slice c).length ∧ c.cache.buf.length ≤ StreamBuf.limit B Q K (2 * C) 1 + MARGIN := by
  obtain ⟨a1, a2, a3, a4, a5, a6, a7, a8, a9⟩ := h
  have hs : n = c.cache.length → n ≤ c.cache.asSlice.length ∧ n ≤ StreamBuf.limit B Q K (2 * C) 1 := by
    intro h
    unfold StreamBuf.length at h
    unfold StreamBuf.asSlice
    rw [List.length_drop]
    omega
  by_cases he : c.cache.isEof = true
  · rw [if_pos he] at a9
    obtain ⟨s1, s2⟩ := hs (a8 (Or.inl he))
    unfold byteSrc
    simp only [a9]
    exact ⟨s2, s1, by omega⟩
  · rw [if_neg he] at a9
    obtain ⟨d1, s₀, s, rest, m, e, q1, q2, q3, q4⟩ := a9
    unfold byteSrc
    simp only [q2]
    split at q4
    · rename_i h0
      rw [if_pos h0]
      obtain ⟨b1, b2⟩ := hm s₀ (q1.subset (by simp)) _ _ _ q3
      rw [q4]
      refine ⟨?_, b2, by omega⟩
      unfold StreamBuf.limit
      omega
    · rename_i h0
      rw [if_neg h0]
      obtain ⟨s1, s2⟩ := hs (a8 (Or.inr (by omega)))
      exact ⟨s2, s1, by omega⟩

/-- The client returns them. -/
theorem Lends.consume {fuel : Nat} {c c' : CatStream σ} {n k : Nat} {eof : Bool} (h : c.Lends S B Q K C Q' srcs₀ n eof) (hk : k ≤ n) (hK : eof = false → n - k ≤ K)
    (hc : (byteSrc S B fuel).consume c k = .ok c') : c'.Rests S B Q K C Q' srcs₀ := by
  obtain ⟨a1, a2, a3, a4, a5, a6, a7, a8, a9⟩ := h
  subst a7
  unfold byteSrc at hc
  simp only at hc
  have hrest : ∀ j, j ≤ c.cache.len - c.cache.pos → (c.cache.isEof = false → c.cache.len - c.cache.pos - j ≤ K) → (c.cache.consume B j).Small B Q K C := fun j h1 h2 =>
    StreamBuf.Small.rest (by omega) a2 (by rw [a1]; exact a3) a4 a5 h1 h2
  by_cases he : c.cache.isEof = true
  · rw [if_pos he] at a9
    rw [a9] at hc
    cases hc
    have hn := a8 (Or.inl he)
    unfold StreamBuf.length at hn
    obtain ⟨p1, p2⟩ := StreamBuf.consume_keeps B c.cache k
    refine ⟨hrest k (by omega) (by simp [he]), by rw [← a1]; exact p1, ?_, ?_⟩
    · simp only [p2, he, if_true]
    · simp only [p2, he]
      simp
  · rw [if_neg he] at a9
    have he : c.cache.isEof = false := by simpa using he
    have hK := hK he
    obtain ⟨d1, s₀, s, rest, m, e, q1, q2, q3, q4⟩ := a9
    rw [q2] at hc
    simp only at hc
    split at hc
    · rename_i h0
      rw [if_pos h0] at q4
      subst q4
      split at hc
      · cases hc
      · rename_i s1 hs1
        cases hc
        have hv := q3.consume hk (fun _ => hK) hs1
        unfold StreamBuf.length at h0
        refine ⟨⟨by simp only; omega, a2, a5, a6, a4, ?_⟩, a1, ?_, fun _ => d1⟩
        · simp only [he, Bool.false_eq_true, if_false]
          have := a6 he
          omega
        · simp only [he, Bool.false_eq_true, if_false]
          exact ⟨s₀, s1, rest, q1, rfl, hv⟩
    · rename_i h0
      rw [if_neg h0] at q4
      subst q4
      have hn := a8 (Or.inr (by omega))
      have hl : c.cache.length = c.cache.len - c.cache.pos := rfl
      split at hc
      · rename_i hlt
        cases hc
        obtain ⟨p1, p2⟩ := StreamBuf.consume_keeps B c.cache k
        have hleft := StreamBuf.consume_left B c.cache k a2 a5 (by omega)
        refine ⟨hrest k (by omega) (fun _ => by omega), by rw [← a1]; exact p1, ?_, ?_⟩
        · simp only [p2, he, Bool.false_eq_true, if_false]
          exact ⟨s₀, s, rest, q1, rfl, q3.rest (fun _ => by omega)⟩
        · intro _
          simp only [hleft]
          omega
      · rename_i hlt
        split at hc
        · cases hc
        · rename_i s1 hs1
          cases hc
          obtain ⟨p1, p2⟩ := StreamBuf.consume_keeps B c.cache c.cache.length
          refine ⟨hrest _ (by omega) (fun _ => by omega), by rw [← a1]; exact p1, ?_, fun _ => Nat.zero_le _⟩
          simp only [p2, he, Bool.false_eq_true, if_false]
          exact ⟨s₀, s1, rest, q1, rfl, q3.consume (by omega) (fun _ => by omega) hs1⟩

/-- The client keeps all of them. -/
theorem Lends.idle {c : CatStream σ} {n : Nat} {eof : Bool} (h : c.Lends S B Q K C Q' srcs₀ n eof) (hK : eof = false → n ≤ K) : c.Rests S B Q K C Q' srcs₀ := by
  obtain ⟨a1, a2, a3, a4, a5, a6, a7, a8, a9⟩ := h
  subst a7
  by_cases he : c.cache.isEof = true
  · rw [if_pos he] at a9
    refine ⟨⟨by omega, a2, a5, a6, a4, ?_⟩, a1, by rw [if_pos he]; exact a9, by simp [he]⟩
    rw [if_pos he, a1]
    exact a3
  · rw [if_neg he] at a9
    have he' : c.cache.isEof = false := by simpa using he
    have hK := hK he'
    have hb := a6 he'
    obtain ⟨d1, s₀, s, rest, m, e, q1, q2, q3, q4⟩ := a9
    have hl : c.cache.length = c.cache.len - c.cache.pos := rfl
    have hm : m ≤ K := by
      split at q4
      · omega
      · have := a8 (Or.inr (by omega))
        omega
    refine ⟨⟨by omega, a2, a5, a6, a4, ?_⟩, a1, ?_, fun _ => d1⟩
    · rw [if_neg he]
      by_cases h0 : c.cache.length = 0
      · omega
      · have := a8 (Or.inr (by omega))
        omega
    · rw [if_neg he]
      exact ⟨s₀, s, rest, q1, q2, q3.rest fun _ => hm⟩

theorem rests_of_visited {fuel : Nat} {c : CatStream σ} (hm : Modest S Q' K C srcs₀) (hQ : StreamBuf.limit B Q K 1 0 < Q') (hne : srcs₀ ≠ [])
    (h : Visited (byteSrc S B fuel) Q K (new B srcs₀) c) : c.Rests S B Q K (2 * C) Q' srcs₀ := by
  induction h with
  | start => exact Rests.new hne
  | idle _ hreq hfill hK ih => exact (ih.fill hm hQ hreq hfill).idle hK
  | round _ hreq hfill hk hK hc ih => exact (ih.fill hm hQ hreq hfill).consume hk hK hc

end Nd.CatStream
