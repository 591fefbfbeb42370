import Verif.Proof.BoundedPatch
/-!
# `--cat` before a client that leaves something once and then takes everything
-/
namespace Nd.CatStream

variable {S : ByteSrc σ} {B Q K C L N : Nat} {H : σ → Nat} {W I J : σ → Prop}

/-- A source has lent `m` bytes. -/
def Lent (S : ByteSrc σ) (Q : Nat) (W : σ → Prop) (s : σ) (m : Nat) (e : Bool) : Prop := ∃ r req, W r ∧ req ≤ Q ∧ S.fill r req = .ok ((e, m), s)

/-- The state of the sources while the cache is filled. -/
def Loading (S : ByteSrc σ) (Q N pos : Nat) (W I : σ → Prop) (t : Captured σ) (len : Nat) : Prop :=
  pos ≤ len ∧ ∃ s rest, t.1 = s :: rest ∧ Lent S Q W s t.2.1 t.2.2 ∧ (∀ x ∈ rest, I x) ∧ pos + t.2.1 ≤ len ∧ (s :: rest).length ≤ N

theorem loading_adds (hT : Tier S Q C L H W I) (N pos : Nat) : StreamBuf.Adds (feed S) (Loading S Q N pos W I) (fun t _ => t.1 = []) C Q := by
  intro t req buf eof buf' t' ⟨hpos, hP⟩ hreq h
  obtain ⟨srcs, dup, isEof⟩ := t
  obtain ⟨s, rest, h2, ⟨r, rq, hr, hrq, hfill⟩, h4, h5, h6⟩ := hP
  simp only at h2 h5 hfill
  subst h2
  unfold feed at h
  simp only at h
  split at h
  · cases h
  · rename_i s1 hc
    have hv := (hT.fill _ _ _ _ _ hr hrq hfill).2.2.2 _ hc
    have hnext : ∀ s2 rest2, (if isEof = true then rest else s1 :: rest) = s2 :: rest2 → I s2 ∧ (∀ x ∈ rest2, I x) ∧ (s2 :: rest2).length ≤ N := by
      intro s2 rest2 he
      simp only [List.length_cons] at h6
      split at he
      · subst he
        refine ⟨h4 _ (by simp), fun x hx => h4 _ (by simp [hx]), ?_⟩
        omega
      · cases he
        exact ⟨hv, h4, h6⟩
    split at h
    · cases h
      exact ⟨Nat.le_refl _, by omega, by simp⟩
    · rename_i s2 rest2 he
      obtain ⟨g1, g2, g3⟩ := hnext _ _ he
      split at h
      · cases h
      · rename_i eof' n s3 hfill
        cases h
        obtain ⟨b1, b2, _⟩ := hT.fill _ _ _ _ _ (hT.sub _ g1) hreq hfill
        have hlen : (buf ++ (S.slice s3).take n).length = buf.length + n := by
          rw [List.length_append, List.length_take]
          omega
        rw [hlen]
        simp only [Bool.false_eq_true, if_false]
        exact ⟨by omega, by omega, by omega, s3, rest2, rfl, ⟨_, _, hT.sub _ g1, hreq, hfill⟩, g2, by simp only; omega, g3⟩

/-- Between two rounds, before the end. -/
structure Open (B K N : Nat) (W I : σ → Prop) (c : CatStream σ) : Prop where
  eof : c.cache.isEof = false
  align : c.cache.align = 1
  margin : c.cache.buf.length = c.cache.len + MARGIN
  pos : c.cache.pos ≤ c.cache.len
  back : c.cache.pos ≤ 8 * B
  len : c.cache.len ≤ 8 * B + K
  target : c.cache.targetLen ≤ 24 * B + 3 * K + 6
  fresh : c.cache.length = 0 → c.cache.targetLen ≤ 24 * B + 6
  srcs : ∃ s rest, c.srcs = s :: rest ∧ W s ∧ (∀ x ∈ rest, I x) ∧ (s :: rest).length ≤ N
  dup : c.dup ≤ c.cache.length

/-- The end has been reported. -/
structure Ended (M : Nat) (c : CatStream σ) : Prop where
  eof : c.cache.isEof = true
  srcs : c.srcs = []
  margin : c.cache.buf.length = c.cache.len + MARGIN
  len : c.cache.len ≤ M

/-- Bytes are lent before the end. -/
structure Given (S : ByteSrc σ) (B Q K M N : Nat) (W I : σ → Prop) (c : CatStream σ) (n : Nat) : Prop where
  eof : c.cache.isEof = false
  align : c.cache.align = 1
  margin : c.cache.buf.length = c.cache.len + MARGIN
  pos : c.cache.pos ≤ c.cache.len
  back : c.cache.pos ≤ 8 * B
  len : c.cache.len ≤ M
  target : c.cache.targetLen ≤ 24 * B + 3 * K + 6
  fresh : c.cache.length = 0 → c.cache.targetLen ≤ 24 * B + 6
  own : 0 < c.cache.length → n = c.cache.length
  dup : c.dup ≤ c.cache.length
  srcs : ∃ s rest m e, c.srcs = s :: rest ∧ Lent S Q W s m e ∧ (∀ x ∈ rest, I x) ∧ (s :: rest).length ≤ N ∧ if c.cache.length = 0 then n = m else m = c.dup

theorem Open.fill {fuel R : Nat} {c c' : CatStream σ} (hc : c.Open B K N W I) (hT : Tier S Q C L H W I) (hQ : StreamBuf.limit B R K 1 0 < Q) {req n : Nat} {eof : Bool} (hreq : req ≤ R)
    (h : (byteSrc S B fuel).fill c req = .ok ((eof, n), c')) :
    c'.Given S B Q K (StreamBuf.limit B R K (2 * C) 1) N W I n ∨ (c'.Ended (StreamBuf.limit B R K (2 * C) 1) ∧ n = c'.cache.length) := by
  obtain ⟨he, h2, h3, hpos, hback, hlen, htar, hfresh, ⟨s, rest, g2, g3, g4, g5⟩, hdup⟩ := hc
  unfold byteSrc at h
  simp only at h
  have hQ' := hQ
  unfold StreamBuf.limit at hQ'
  rw [g2] at h
  simp only at h
  split at h
  · cases h
  · rename_i isEof bytes s1 hfill
    have hl : Lent S Q W s1 bytes isEof := ⟨_, _, g3, by omega, hfill⟩
    obtain ⟨b1, b2, _⟩ := hT.fill _ _ _ _ _ g3 (by omega) hfill
    split at h
    · unfold accumulateIntoCache at h
      simp only at h
      split at h
      · cases h
      · rename_i hd
        split at h
        · cases h
        · rename_i r cache srcs dup x hfb
          cases h
          have hx : (((S.slice s1).take bytes).drop c.dup).length = bytes - c.dup := by
            rw [List.length_drop, List.length_take]
            omega
          obtain ⟨k1, k2, k3, k4, k5, k6, k7, k8⟩ := StreamBuf.fillBuf_length (loading_adds hT N c.cache.pos) (s := c.cache.extendFromSlice (((S.slice s1).take bytes).drop c.dup))
            (by show max c.cache.targetLen _ < Q; omega) (by show 0 < c.cache.align; omega)
            (by simp only [StreamBuf.extendFromSlice, length_resize]) he
            (by
              simp only [StreamBuf.extendFromSlice, hx]
              unfold StreamBuf.length at hdup
              exact ⟨by omega, s1, rest, rfl, hl, g4, by simp only; omega, g5⟩) hfb
          cases k2
          simp only [StreamBuf.extendFromSlice, hx] at k3 k4 k5 k7 k8
          have hM : cache.len ≤ StreamBuf.limit B R K (2 * C) 1 := by
            unfold StreamBuf.limit
            omega
          split at k1 <;> rename_i hend
          · right
            exact ⟨⟨hend, k1.elim fun _ h => h, k6, hM⟩, rfl⟩
          · left
            obtain ⟨_, s', rest', q2, q3, q4, q5, q6⟩ := k1
            simp only at q2 q3 q5
            refine ⟨by simpa using hend, by simp only; omega, k6, by simp only; omega, by simp only; omega, hM, by simp only; omega, ?_, fun _ => rfl, ?_, s', rest', dup, _, q2, q3, q4, q6, ?_⟩
            · simp only [StreamBuf.length] at hfresh ⊢
              intro h0
              rw [k4]
              exact hfresh (by omega)
            · simp only [StreamBuf.length]
              omega
            · simp only [StreamBuf.length]
              split
              · omega
              · trivial
    · rename_i hcond
      simp only [Bool.or_eq_true, decide_eq_true_eq, not_or, Bool.not_eq_true] at hcond
      cases h
      left
      refine ⟨he, h2, h3, hpos, hback, ?_, htar, hfresh, fun h => absurd h hcond.2, Nat.zero_le _, s1, rest, n, _, rfl, hl, g4, g5, ?_⟩
      · simp only
        unfold StreamBuf.limit
        omega
      · rw [if_pos (by simp only; omega)]

/-- The bytes that are lent. -/
theorem Given.lent {fuel M : Nat} {c : CatStream σ} {n : Nat} (h : c.Given S B Q K M N W I n) (hT : Tier S Q C L H W I) (hC : C ≤ M) :
    n ≤ M ∧ n ≤ ((byteSrc S B fuel).slice c).length := by
  obtain ⟨a1, a2, a3, a4, a5, a6, a7, a8, a9, a10, s, rest, m, e, q2, ⟨r, rq, q3, q4, q5⟩, q6, q7, q8⟩ := h
  obtain ⟨b1, b2, b3, _⟩ := hT.fill _ _ _ _ _ q3 q4 q5
  unfold byteSrc
  simp only [q2]
  split at q8
  · rename_i h0
    rw [if_pos h0]
    omega
  · rename_i h0
    rw [if_neg h0]
    have := a9 (by omega)
    unfold StreamBuf.length at this
    unfold StreamBuf.asSlice
    rw [List.length_drop]
    omega

/-- What the cache and the sources hold. -/
def contents (H : σ → Nat) (c : CatStream σ) : Nat := c.cache.buf.length + (c.srcs.map H).sum

theorem contents_le (hI : ∀ x, I x → H x ≤ L) : ∀ (l : List σ), (∀ x ∈ l, I x) → (l.map H).sum ≤ l.length * L
  | [], _ => by simp
  | x :: l, h => by
    have h1 := hI x (h x (by simp))
    have h2 := contents_le hI l fun y hy => h y (by simp [hy])
    simp only [List.map_cons, List.sum_cons, List.length_cons, Nat.add_mul, Nat.one_mul]
    omega

theorem contents_cons_le (hI : ∀ x, I x → H x ≤ L) {s : σ} {rest : List σ} (h0 : H s ≤ L) (h : ∀ x ∈ rest, I x) (hN : (s :: rest).length ≤ N) : ((s :: rest).map H).sum ≤ N * L := by
  have := contents_le hI rest h
  have h1 : (s :: rest).length * L ≤ N * L := Nat.mul_le_mul_right _ hN
  simp only [List.map_cons, List.sum_cons, List.length_cons, Nat.add_mul, Nat.one_mul] at h1 ⊢
  omega

theorem Given.holds {M : Nat} {c : CatStream σ} {n : Nat} (h : c.Given S B Q K M N W I n) (hT : Tier S Q C L H W I) (hI : ∀ x, I x → H x ≤ L) : contents H c ≤ M + MARGIN + N * L := by
  obtain ⟨s, rest, m, e, q2, ⟨r, rq, q3, q4, q5⟩, q6, q7, _⟩ := h.srcs
  have := contents_cons_le hI (hT.fill _ _ _ _ _ q3 q4 q5).2.2.1 q6 q7
  have h1 := h.margin
  have h2 := h.len
  unfold contents
  rw [q2]
  omega

theorem Ended.holds {M : Nat} {c : CatStream σ} (h : c.Ended M) : contents H c ≤ M + MARGIN := by
  have h1 := h.margin
  have h2 := h.len
  unfold contents
  rw [h.srcs]
  simp only [List.map_nil, List.sum_nil]
  omega

/-- All of them are taken. -/
theorem Given.all {fuel M : Nat} {c c' : CatStream σ} {n : Nat} (h : c.Given S B Q K M N W I n) (hT : Tier S Q C L H W I) (hc : (byteSrc S B fuel).consume c n = .ok c') : c'.Open B 0 N I I := by
  obtain ⟨a1, a2, a3, a4, a5, a6, a7, a8, a9, a10, s, rest, m, e, q2, ⟨r, rq, q3, q4, q5⟩, q6, q7, q8⟩ := h
  have hall := (hT.fill _ _ _ _ _ q3 q4 q5).2.2.2
  unfold byteSrc at hc
  simp only [q2] at hc
  split at hc
  · rename_i h0
    rw [if_pos h0] at q8
    subst q8
    split at hc
    · cases hc
    · rename_i s1 hs1
      cases hc
      refine ⟨a1, a2, a3, a4, a5, ?_, a8 h0, a8, ⟨s1, rest, rfl, hall _ hs1, q6, q7⟩, a10⟩
      unfold StreamBuf.length at h0
      simp only
      omega
  · rename_i h0
    rw [if_neg h0] at q8
    have hn := a9 (by omega)
    rw [if_neg (by omega)] at hc
    split at hc
    · cases hc
    · rename_i s1 hs1
      cases hc
      rw [show n - (c.cache.length - c.dup) = m by omega] at hs1
      have hs : (c.cache.consume B c.cache.length).Small B 0 0 0 := StreamBuf.Small.settle (s := c.cache) (by omega) a3 a4 a1
      obtain ⟨p1, p2⟩ := StreamBuf.consume_keeps B c.cache c.cache.length
      have hlen := hs.len
      rw [p2, a1] at hlen
      exact ⟨by rw [← a1]; exact p2, by rw [← a2]; exact p1, hs.margin, hs.pos, hs.back (by rw [← a1]; exact p2), by simpa using hlen, hs.target, fun _ => hs.target, ⟨s1, rest, rfl, hall _ hs1, q6, q7⟩, Nat.zero_le _⟩

variable {Q₀ C₀ Q₁ C₁ : Nat}

/-- Some of them are taken, -/
theorem Given.part {fuel M : Nat} {c c' : CatStream σ} {n k : Nat} (h : c.Given S B Q₀ 0 M N I I n) (hS : Settles S Q₀ C₀ Q₁ C₁ L H I J) (hC : C₀ ≤ M) (hk : k ≤ n) (hc : (byteSrc S B fuel).consume c k = .ok c') : c'.Open B M N J I := by
  obtain ⟨a1, a2, a3, a4, a5, a6, a7, a8, a9, a10, s, rest, m, e, q2, ⟨r, rq, q3, q4, q5⟩, q6, q7, q8⟩ := h
  have hpart := fun j s'' => hS.part _ _ s'' _ _ _ j q3 q4 q5
  unfold byteSrc at hc
  simp only [q2] at hc
  split at hc
  · rename_i h0
    rw [if_pos h0] at q8
    subst q8
    split at hc
    · cases hc
    · rename_i s1 hs1
      cases hc
      refine ⟨a1, a2, a3, a4, a5, ?_, ?_, a8, ⟨s1, rest, rfl, hpart _ _ hk hs1, q6, q7⟩, a10⟩
      · unfold StreamBuf.length at h0
        simp only
        omega
      · simp only
        omega
  · rename_i h0
    rw [if_neg h0] at q8
    have hn := a9 (by omega)
    have hl : c.cache.length = c.cache.len - c.cache.pos := rfl
    split at hc
    · rename_i hlt
      cases hc
      obtain ⟨p1, p2⟩ := StreamBuf.consume_keeps B c.cache k
      have hleft := StreamBuf.consume_left B c.cache k a3 a4 (by omega)
      have hs : (c.cache.consume B k).Small B 0 M M := StreamBuf.Small.rest (by omega) a3 (by unfold StreamBuf.limit; omega) (by omega) a4 (by omega) (fun _ => by omega)
      have hlen := hs.len
      rw [p2, a1] at hlen
      refine ⟨by rw [← a1]; exact p2, by rw [← a2]; exact p1, hs.margin, hs.pos, hs.back (by rw [← a1]; exact p2), by simpa using hlen, hs.target, ?_, ⟨s, rest, rfl, hS.idle _ _ _ _ _ q3 q4 q5, q6, q7⟩, ?_⟩
      · intro h0
        simp only [hleft] at h0
        omega
      · simp only [hleft]
        omega
    · rename_i hlt
      split at hc
      · cases hc
      · rename_i s1 hs1
        cases hc
        have hs : (c.cache.consume B c.cache.length).Small B 0 0 0 := StreamBuf.Small.settle (s := c.cache) (by omega) a3 a4 a1
        obtain ⟨p1, p2⟩ := StreamBuf.consume_keeps B c.cache c.cache.length
        have hlen := hs.len
        rw [p2, a1] at hlen
        have ht := hs.target
        simp only [Bool.false_eq_true, if_false] at hlen
        exact ⟨by rw [← a1]; exact p2, by rw [← a2]; exact p1, hs.margin, hs.pos, hs.back (by rw [← a1]; exact p2), by simp only; omega, by simp only; omega, fun _ => ht, ⟨s1, rest, rfl, hpart _ _ (by omega) hs1, q6, q7⟩, Nat.zero_le _⟩

/-- or none. -/
theorem Given.idle {M : Nat} {c : CatStream σ} {n : Nat} (h : c.Given S B Q₀ 0 M N I I n) (hS : Settles S Q₀ C₀ Q₁ C₁ L H I J) : c.Open B M N J I := by
  obtain ⟨a1, a2, a3, a4, a5, a6, a7, a8, a9, a10, s, rest, m, e, q2, ⟨r, rq, q3, q4, q5⟩, q6, q7, q8⟩ := h
  exact ⟨a1, a2, a3, a4, a5, by omega, by omega, a8, ⟨s, rest, q2, hS.idle _ _ _ _ _ q3 q4 q5, q6, q7⟩, a10⟩

theorem Open.more {K' : Nat} {c : CatStream σ} (h : c.Open B K N W I) (hK : K ≤ K') (hW : ∀ s, W s → J s) : c.Open B K' N J I := by
  obtain ⟨a1, a2, a3, a4, a5, a6, a7, a8, ⟨s, rest, q1, q2, q3⟩, a10⟩ := h
  exact ⟨a1, a2, a3, a4, a5, by omega, by omega, a8, ⟨s, rest, q1, hW _ q2, q3⟩, a10⟩

theorem Ended.fill {fuel M req n : Nat} {c c' : CatStream σ} {eof : Bool} (h : c.Ended M) (hf : (byteSrc S B fuel).fill c req = .ok ((eof, n), c')) : c' = c ∧ n = c.cache.length := by
  unfold byteSrc at hf
  simp only [h.srcs] at hf
  cases hf
  exact ⟨rfl, rfl⟩

theorem Ended.consume {fuel M k : Nat} {c c' : CatStream σ} (h : c.Ended M) (hc : (byteSrc S B fuel).consume c k = .ok c') : c'.Ended M ∧ (k = c.cache.length → c'.cache.length = 0) := by
  unfold byteSrc at hc
  simp only [h.srcs] at hc
  cases hc
  have hm := h.margin
  have hmin : StreamBuf.consume B c.cache k = { c.cache with pos := min (c.cache.pos + k) c.cache.buf.length } := by
    unfold StreamBuf.consume
    simp only [h.eof, if_true]
  rw [hmin]
  refine ⟨⟨h.eof, rfl, h.margin, h.len⟩, ?_⟩
  unfold StreamBuf.length
  intro hk
  simp only
  omega

/-- What `CatStream` lends at most to a client that has taken everything, if its sources lend at most `C` bytes, -/
def firstLimit (B R C : Nat) : Nat := StreamBuf.limit B R 0 (2 * C) 1

/-- and to one that has left something. -/
def thenLimit (B R C₀ C₁ : Nat) : Nat := StreamBuf.limit B R (firstLimit B R C₀) (2 * C₁) 1

theorem Ended.slice {fuel M : Nat} {c : CatStream σ} (h : c.Ended M) : c.cache.length ≤ ((byteSrc S B fuel).slice c).length := by
  unfold byteSrc
  simp only [h.srcs]
  unfold StreamBuf.asSlice StreamBuf.length
  have := h.margin
  rw [List.length_drop]
  omega

/-- `CatStream` settles if its sources do. -/
theorem settles {fuel R : Nat} (hS : Settles S Q₀ C₀ Q₁ C₁ L H I J) (hC : C₀ ≤ C₁) (hQ₀ : StreamBuf.limit B R 0 1 0 < Q₀) (hQ₁ : StreamBuf.limit B R (firstLimit B R C₀) 1 0 < Q₁) :
    Settles (byteSrc S B fuel) R (firstLimit B R C₀) R (thenLimit B R C₀ C₁) (thenLimit B R C₀ C₁ + MARGIN + N * L) (contents H)
      (fun c => c.Open B 0 N I I ∨ (c.Ended (thenLimit B R C₀ C₁) ∧ c.cache.length = 0)) (fun c => c.Open B (firstLimit B R C₀) N J I ∨ c.Ended (thenLimit B R C₀ C₁)) := by
  have hlim : firstLimit B R C₀ ≤ thenLimit B R C₀ C₁ := by
    unfold thenLimit firstLimit StreamBuf.limit
    omega
  have hle₀ : C₀ ≤ firstLimit B R C₀ := by
    unfold firstLimit StreamBuf.limit
    omega
  have hle₁ : C₁ ≤ thenLimit B R C₀ C₁ := by
    unfold thenLimit StreamBuf.limit
    omega
  have hbase : 8 * B ≤ thenLimit B R C₀ C₁ := by
    unfold thenLimit StreamBuf.limit
    omega
  have hend : ∀ {c c' : CatStream σ} {req n : Nat} {eof : Bool}, c.Ended (thenLimit B R C₀ C₁) → (byteSrc S B fuel).fill c req = .ok ((eof, n), c') → ∀ M, (c.cache.length ≤ M) →
      n ≤ M ∧ n ≤ ((byteSrc S B fuel).slice c').length ∧ contents H c' ≤ thenLimit B R C₀ C₁ + MARGIN + N * L ∧ ∀ c'', (byteSrc S B fuel).consume c' n = .ok c'' → c''.Open B 0 N I I ∨ (c''.Ended (thenLimit B R C₀ C₁) ∧ c''.cache.length = 0) := by
    intro c c' req n eof h hf M hM
    obtain ⟨rfl, rfl⟩ := h.fill hf
    have hh : contents H c' ≤ _ := h.holds
    exact ⟨hM, h.slice, by omega, fun c'' hc => Or.inr ⟨(h.consume hc).1, (h.consume hc).2 rfl⟩⟩
  have htier : ∀ {K Q C M : Nat} {W : σ → Prop}, Tier S Q C L H W I → StreamBuf.limit B R K 1 0 < Q → StreamBuf.limit B R K (2 * C) 1 = M → M ≤ thenLimit B R C₀ C₁ → ∀ c c' req eof n, c.Open B K N W I → req ≤ R →
      (byteSrc S B fuel).fill c req = .ok ((eof, n), c') → n ≤ M ∧ n ≤ ((byteSrc S B fuel).slice c').length ∧ contents H c' ≤ thenLimit B R C₀ C₁ + MARGIN + N * L ∧
      ∀ c'', (byteSrc S B fuel).consume c' n = .ok c'' → c''.Open B 0 N I I ∨ (c''.Ended (thenLimit B R C₀ C₁) ∧ c''.cache.length = 0) := by
    intro K Q C M W hT hQ hM hle c c' req eof n hc hreq hf
    rcases hc.fill hT hQ hreq hf with h | ⟨h, rfl⟩ <;> rw [hM] at h
    · obtain ⟨g1, g2⟩ := h.lent (fuel := fuel) hT (by rw [← hM]; unfold StreamBuf.limit; omega)
      have g3 := h.holds hT hS.rest
      exact ⟨g1, g2, by omega, fun c'' hc => Or.inl (h.all hT hc)⟩
    · have hh : contents H c' ≤ _ := h.holds
      have h' : c'.Ended (thenLimit B R C₀ C₁) := ⟨h.eof, h.srcs, h.margin, Nat.le_trans h.len hle⟩
      refine ⟨?_, h.slice, by omega, fun c'' hc => Or.inr ⟨(h'.consume hc).1, (h'.consume hc).2 rfl⟩⟩
      have := h.len
      unfold StreamBuf.length
      omega
  have hfirst : ∀ {c c' : CatStream σ} {req n : Nat} {eof : Bool}, c.Open B 0 N I I → req ≤ R → (byteSrc S B fuel).fill c req = .ok ((eof, n), c') →
      c'.Given S B Q₀ 0 (firstLimit B R C₀) N I I n ∨ c'.Ended (thenLimit B R C₀ C₁) := by
    intro c c' req n eof hc hreq hf
    rcases hc.fill hS.first hQ₀ hreq hf with h | ⟨h, _⟩
    · exact Or.inl h
    · exact Or.inr ⟨h.eof, h.srcs, h.margin, Nat.le_trans h.len hlim⟩
  constructor
  · rintro c (hc | ⟨hc, _⟩)
    · obtain ⟨s, rest, q1, q2, q3, q4⟩ := hc.srcs
      have := contents_cons_le hS.rest (hS.rest _ q2) q3 q4
      have h1 := hc.margin
      have h2 := hc.len
      unfold contents
      rw [q1]
      omega
    · have hh : contents H c ≤ _ := hc.holds
      omega
  · refine ⟨fun _ h => h, ?_⟩
    rintro c c' req eof n (hc | ⟨hc, h0⟩) hreq hf
    · exact htier hS.first hQ₀ rfl hlim c c' req eof n hc hreq hf
    · exact hend hc hf _ (by omega)
  · refine ⟨fun c hc => hc.imp (fun h => h.more (Nat.zero_le _) hS.all.sub) (fun h => h.1), ?_⟩
    rintro c c' req eof n (hc | hc) hreq hf
    · exact htier hS.all hQ₁ rfl (Nat.le_refl _) c c' req eof n hc hreq hf
    · exact hend hc hf _ (by have := hc.len; unfold StreamBuf.length; omega)
  · rintro c c' c'' req eof n k (hc | ⟨hc, h0⟩) hreq hf hk hcons
    · rcases hfirst hc hreq hf with h | h
      · exact Or.inl (h.part hS hle₀ hk hcons)
      · exact Or.inr (h.consume hcons).1
    · obtain ⟨rfl, _⟩ := hc.fill hf
      exact Or.inr (hc.consume hcons).1
  · rintro c c' req eof n (hc | ⟨hc, h0⟩) hreq hf
    · rcases hfirst hc hreq hf with h | h
      · exact Or.inl (h.idle hS)
      · exact Or.inr h
    · obtain ⟨rfl, _⟩ := hc.fill hf
      exact Or.inr hc

end Nd.CatStream
