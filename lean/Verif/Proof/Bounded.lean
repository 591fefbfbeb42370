import Verif.Model.Byte
/-!
# The sizes of buffers
-/
namespace Nd

/-- The states in which a client may leave a stream that started as `s₀`, if it asks for at most `Q` bytes at once, and, except at the end of the stream, leaves at most `K` of the lent bytes for
the next time. -/
inductive Visited (S : ByteSrc σ) (Q K : Nat) (s₀ : σ) : σ → Prop
  | start : Visited S Q K s₀ s₀
  | idle {s s' : σ} {req n : Nat} {eof : Bool} : Visited S Q K s₀ s → req ≤ Q → S.fill s req = .ok ((eof, n), s') → (eof = false → n ≤ K) → Visited S Q K s₀ s'
  | round {s s' s'' : σ} {req k n : Nat} {eof : Bool} : Visited S Q K s₀ s → req ≤ Q → S.fill s req = .ok ((eof, n), s') → k ≤ n → (eof = false → n - k ≤ K) →
      S.consume s' k = .ok s'' → Visited S Q K s₀ s''

/-- The stream has lent `n` bytes to such a client. -/
def LentTo (S : ByteSrc σ) (Q K : Nat) (s₀ s' : σ) (n : Nat) (eof : Bool) : Prop := ∃ s req, Visited S Q K s₀ s ∧ req ≤ Q ∧ S.fill s req = .ok ((eof, n), s')

theorem LentTo.rest {S : ByteSrc σ} {Q K n : Nat} {s₀ s : σ} {eof : Bool} (h : LentTo S Q K s₀ s n eof) (hn : eof = false → n ≤ K) : Visited S Q K s₀ s := by
  obtain ⟨r, req, h1, h2, h3⟩ := h
  exact h1.idle h2 h3 hn

theorem LentTo.consume {S : ByteSrc σ} {Q K n k : Nat} {s₀ s s' : σ} {eof : Bool} (h : LentTo S Q K s₀ s n eof) (hk : k ≤ n) (hn : eof = false → n - k ≤ K) (hc : S.consume s k = .ok s') : Visited S Q K s₀ s' := by
  obtain ⟨r, req, h1, h2, h3⟩ := h
  exact h1.round h2 h3 hk hn hc

/-- A client that keeps to its bounds keeps to wider ones. -/
theorem Visited.mono {S : ByteSrc σ} {Q K Q' K' : Nat} (hQ : Q ≤ Q') (hK : K ≤ K') {s₀ s : σ} (h : Visited S Q K s₀ s) : Visited S Q' K' s₀ s := by
  induction h with
  | start => exact .start
  | idle _ hreq hf hn ih => exact ih.idle (Nat.le_trans hreq hQ) hf fun he => Nat.le_trans (hn he) hK
  | round _ hreq hf hk hn hc ih => exact ih.round (Nat.le_trans hreq hQ) hf hk (fun he => Nat.le_trans (hn he) hK) hc

theorem LentTo.mono {S : ByteSrc σ} {Q K Q' K' n : Nat} {eof : Bool} (hQ : Q ≤ Q') (hK : K ≤ K') {s₀ s : σ} (h : LentTo S Q K s₀ s n eof) : LentTo S Q' K' s₀ s n eof := by
  obtain ⟨r, req, h1, h2, h3⟩ := h
  exact ⟨r, req, h1.mono hQ hK, Nat.le_trans h2 hQ, h3⟩

theorem nextPow2_le (n : Nat) : nextPow2 n ≤ 2 * n + 1 := by
  unfold nextPow2
  split
  · omega
  · have := Nat.log2_self_le (n := n - 1) (by omega)
    rw [Nat.pow_succ]
    omega

theorem length_resize (l : Bytes) (n : Nat) (x : Byte) : (resize l n x).length = n := by
  unfold resize
  simp only [List.length_append, List.length_take, List.length_replicate]
  omega

namespace StreamBuf

/-- The bound for what a buffer contains. -/
def limit (B Q K C align : Nat) : Nat := 24 * B + 3 * K + 6 + Q + C + align

/-- The size of a buffer between two rounds. -/
structure Small (B Q K C : Nat) (s : StreamBuf) : Prop where
  align : 0 < s.align
  margin : s.buf.length = s.len + MARGIN
  pos : s.pos ≤ s.len
  back : s.isEof = false → s.pos ≤ 8 * B
  target : s.targetLen ≤ 24 * B + 3 * K + 6
  len : if s.isEof then s.len ≤ limit B Q K C s.align else s.len ≤ 8 * B + K

/-- A closure that appends at most `C` bytes if it is asked for at most `R` bytes. -/
def Adds (f : Closure τ) (P : τ → Nat → Prop) (Z : τ → Nat → Prop) (C R : Nat) : Prop :=
  ∀ t req buf eof buf' t', P t buf.length → req ≤ R → f t req buf = .ok (eof, buf', t') → buf.length ≤ buf'.length ∧ buf'.length ≤ buf.length + C ∧ if eof then Z t' buf'.length else P t' buf'.length

theorem fillLoop_length {f : Closure τ} {P Z : τ → Nat → Prop} {C R : Nat} (hf : Adds f P Z C R) {target : Nat} (hR : target < R) : ∀ (fuel : Nat) (s : StreamBuf) (t : τ), P t s.buf.length →
      0 < s.align → s.isEof = false → ∀ s' t', fillLoop f target fuel s t = .ok (s', t') →
      (if s'.isEof then ∃ n, Z t' n else P t' s'.buf.length) ∧ s'.pos = s.pos ∧ s'.targetLen = s.targetLen ∧ s'.align = s.align ∧ s.buf.length ≤ s'.buf.length ∧
        s'.buf.length ≤ max s.buf.length target + C + s.align
  | 0, _, _, _, _, _, _, _, h => by cases h
  | fuel + 1, s, t, ht, ha, he, s', t', h => by
    unfold fillLoop at h
    split at h
    · cases h
    · rename_i eof buf t1 heq
      obtain ⟨h3, h2, h1⟩ := hf _ _ _ _ _ _ ht (by omega) heq
      simp only at h
      split at h
      · rename_i hend
        rw [if_pos hend] at h1
        cases h
        refine ⟨⟨_, h1⟩, rfl, rfl, rfl, ?_⟩
        simp only [markEof, length_resize]
        have := Nat.div_mul_le_self (s.offset + buf.length + s.align - 1) s.align
        have h5 := Nat.div_add_mod (s.offset + buf.length + s.align - 1) s.align
        rw [Nat.mul_comm] at h5
        have := Nat.mod_lt (s.offset + buf.length + s.align - 1) ha
        omega
      · rename_i hend
        rw [if_neg hend] at h1
        split at h
        · cases h
          refine ⟨by simp only [he, Bool.false_eq_true, if_false]; exact h1, rfl, rfl, rfl, ?_⟩
          simp only
          omega
        · rename_i hlt
          obtain ⟨g1, g2, g3, g4, g6, g5⟩ := fillLoop_length hf hR fuel { s with buf := buf } _ h1 ha he _ _ h
          refine ⟨g1, g2, g3, g4, ?_⟩
          simp only at g5 g6 hlt
          omega

/-- `fill_buf` on a buffer of at most `L` bytes that is not at its end. -/
theorem fillBuf_length {f : Closure τ} {P Z : τ → Nat → Prop} {C R : Nat} (hf : Adds f P Z C R) {fuel : Nat} {s : StreamBuf} {t : τ} {req : Nat} (hR : max s.targetLen req < R) (ha : 0 < s.align)
    (hm : s.buf.length = s.len + MARGIN) (he : s.isEof = false) (ht : P t s.len) {r : Bool × Nat} {s' : StreamBuf} {t' : τ} (h : s.fillBuf fuel f t req = .ok (r, s', t')) :
    (if s'.isEof then ∃ n, Z t' n else P t' s'.len) ∧ r = (s'.isEof, s'.len - s'.pos) ∧ s'.align = s.align ∧ s'.targetLen = s.targetLen ∧ s'.pos = s.pos ∧ s'.buf.length = s'.len + MARGIN ∧
      s.len ≤ s'.len ∧ s'.len ≤ max s.len (max s.targetLen req) + C + s.align := by
  unfold fillBuf at h
  rw [if_neg (by simp [he])] at h
  split at h
  · cases h
  · rename_i s1 t1 heq
    cases h
    have hl : (s.buf.take s.len).length = s.len := by rw [List.length_take]; omega
    obtain ⟨g1, g2, g3, g4, g6, g5⟩ := fillLoop_length hf hR fuel { s with buf := s.buf.take s.len } _ (by simp only [hl]; exact ht) ha he _ _ heq
    simp only [hl] at g5 g6
    exact ⟨g1, rfl, g4, g3, g2, length_resize _ _ _, g6, g5⟩

/-- After `fill_buf` the buffer is within the limit. -/
theorem Small.fill {B Q K C R : Nat} {f : Closure τ} {P Z : τ → Nat → Prop} (hf : Adds f P Z C R) (hR : limit B Q K 0 0 < R) {fuel : Nat} {s : StreamBuf} {t : τ} {req : Nat} (hs : s.Small B Q K C)
    (ht : if s.isEof then ∃ n, Z t n else P t s.len) (hreq : req ≤ Q) {r : Bool × Nat} {s' : StreamBuf} {t' : τ} (h : s.fillBuf fuel f t req = .ok (r, s', t')) :
    (if s'.isEof then ∃ n, Z t' n else P t' s'.len) ∧ r = (s'.isEof, s'.len - s'.pos) ∧ s'.align = s.align ∧ s'.targetLen = s.targetLen ∧ s'.pos = s.pos ∧ s'.buf.length = s'.len + MARGIN ∧
      s.len ≤ s'.len ∧ s'.len ≤ limit B Q K C s.align ∧ (s'.isEof = false → s.isEof = false) := by
  have hlen := hs.len
  by_cases he : s.isEof = true
  · unfold fillBuf at h
    rw [if_pos he] at h
    cases h
    rw [if_pos he] at hlen
    exact ⟨ht, by rw [he], rfl, rfl, rfl, hs.margin, Nat.le_refl _, hlen, fun h => h⟩
  · rw [if_neg he] at hlen ht
    have htar := hs.target
    have hR' : max s.targetLen req < R := by
      unfold limit at hR
      omega
    obtain ⟨h1, h2, h3, h4, h5, h6, h7, h8⟩ := fillBuf_length hf hR' hs.align hs.margin (by simpa using he) ht h
    refine ⟨h1, h2, h3, h4, h5, h6, h7, ?_, fun _ => by simpa using he⟩
    unfold limit
    omega

/-- After `consume` it is small again. -/
theorem Small.rest {B Q K C : Nat} {s : StreamBuf} (ha : 0 < s.align) (hm : s.buf.length = s.len + MARGIN) (hl : s.len ≤ limit B Q K C s.align) (ht : s.targetLen ≤ 24 * B + 3 * K + 6) (hp : s.pos ≤ s.len)
    {k : Nat} (hk : k ≤ s.len - s.pos) (hK : s.isEof = false → s.len - s.pos - k ≤ K) : (s.consume B k).Small B Q K C := by
  have hmin : min (s.pos + k) s.buf.length = s.pos + k := by omega
  unfold StreamBuf.consume
  simp only [hmin]
  split
  · rename_i he
    exact ⟨ha, hm, by simp only; omega, by simp [he], ht, by simpa only [he, if_true] using hl⟩
  · rename_i he
    have he : s.isEof = false := by simpa using he
    have hK := hK he
    have hlog := nextPow2_le (s.len + (s.len + 1) / 2)
    have hlog' := nextPow2_le (s.len - (s.pos + k) + (s.len - (s.pos + k) + 1) / 2)
    by_cases hth : s.pos + k ≥ min (7 * s.buf.length / 8) (8 * B)
    · rw [if_pos hth]
      by_cases h0 : k = 0
      · rw [if_pos h0]
        refine ⟨ha, by simp only [List.length_drop]; omega, by simp only; omega, by simp only; omega, by simp only; omega, ?_⟩
        simp only [he, Bool.false_eq_true, if_false]
        omega
      · rw [if_neg h0]
        refine ⟨ha, by simp only [List.length_drop]; omega, by simp only; omega, by simp only; omega, by simp only; omega, ?_⟩
        simp only [he, Bool.false_eq_true, if_false]
        omega
    · rw [if_neg hth]
      by_cases h0 : k = 0
      · rw [if_pos h0]
        refine ⟨ha, hm, by simp only; omega, by simp only; omega, by simp only; omega, ?_⟩
        simp only [he, Bool.false_eq_true, if_false]
        omega
      · rw [if_neg h0]
        refine ⟨ha, hm, by simp only; omega, by simp only; omega, by simp only; omega, ?_⟩
        simp only [he, Bool.false_eq_true, if_false]
        omega

theorem consume_keeps (B : Nat) (s : StreamBuf) (k : Nat) : (s.consume B k).align = s.align ∧ (s.consume B k).isEof = s.isEof := by
  unfold StreamBuf.consume
  simp only
  split
  · exact ⟨rfl, rfl⟩
  · split <;> split <;> exact ⟨rfl, rfl⟩

/-- What is left after `consume`. -/
theorem consume_left (B : Nat) (s : StreamBuf) (k : Nat) (hm : s.buf.length = s.len + MARGIN) (hp : s.pos ≤ s.len) (hk : k ≤ s.len - s.pos) :
    (s.consume B k).length = s.length - k := by
  have hmin : min (s.pos + k) s.buf.length = s.pos + k := by omega
  unfold StreamBuf.consume StreamBuf.length
  simp only [hmin]
  split
  · simp only; omega
  · split <;> split <;> simp only <;> omega

theorem Small.new (B Q K C align : Nat) (filler : Byte) (ha : 0 < align) : (newWithAlign B align filler).Small B Q K C := by
  refine ⟨ha, by simp only [newWithAlign, List.length_replicate, Nat.zero_add], Nat.le_refl _, fun _ => Nat.zero_le _, ?_, ?_⟩
  · simp only [newWithAlign]
    omega
  · simp only [newWithAlign, Bool.false_eq_true, if_false]
    exact Nat.zero_le _

end StreamBuf

/-- A buffered stream between two rounds of a client. -/
structure Buffered.Rests (B Q K C align : Nat) (P Z : τ → Prop) (s : Buffered τ) : Prop where
  small : s.buf.Small B Q K C
  align : s.buf.align = align
  inner : if s.buf.isEof then Z s.inner else P s.inner

theorem Buffered.Rests.fill {B fuel Q K C R align : Nat} {f : StreamBuf.Closure τ} {P Z : τ → Prop} (hf : StreamBuf.Adds f (fun t _ => P t) (fun t _ => Z t) C R) (hR : StreamBuf.limit B Q K 0 0 < R)
    {s s' : Buffered τ} (hs : s.Rests B Q K C align P Z) {req n : Nat} {eof : Bool} (hreq : req ≤ Q) (h : (bufferedSrc B fuel f).fill s req = .ok ((eof, n), s')) :
    s'.buf.buf.length ≤ StreamBuf.limit B Q K C align + MARGIN ∧ n ≤ StreamBuf.limit B Q K C align ∧ n ≤ ((bufferedSrc B fuel f).slice s').length ∧
    ((eof = false → n ≤ K) → s'.Rests B Q K C align P Z) ∧ ∀ k s'', k ≤ n → (eof = false → n - k ≤ K) → (bufferedSrc B fuel f).consume s' k = .ok s'' → s''.Rests B Q K C align P Z := by
  obtain ⟨h1, h2, h3⟩ := hs
  unfold bufferedSrc at h ⊢
  simp only at h ⊢
  split at h
  · cases h
  · rename_i heq
    cases h
    obtain ⟨g1, g2, g3, g4, g5, g6, g7, g8, g9⟩ := h1.fill hf hR (by
      split at h3 <;> rename_i he
      · rw [if_pos he]; exact ⟨0, h3⟩
      · rw [if_neg he]; exact h3) hreq heq
    cases g2
    have hp := h1.pos
    refine ⟨by rw [← h2]; simp only; omega, by rw [← h2]; omega, ?_, fun hK => ⟨?_, ?_, ?_⟩, fun k s'' hk hK hc => ?_⟩
    · simp only [StreamBuf.asSlice, List.length_drop]
      omega
    · refine ⟨by rw [g3]; exact h1.align, g6, by simp only; omega, fun he => ?_, by rw [g4]; exact h1.target, ?_⟩
      · have := h1.back (g9 he)
        simp only
        omega
      · split
        · rw [g3]
          exact g8
        · rename_i he
          have := h1.back (g9 (by simpa using he))
          have := hK (by simpa using he)
          simp only
          omega
    · rw [g3, h2]
    · simp only
      split at g1 <;> rename_i he
      · rw [if_pos he]; exact g1.elim fun _ h => h
      · rw [if_neg he]; exact g1
    · cases hc
      refine ⟨StreamBuf.Small.rest (by rw [g3]; exact h1.align) g6 (by rw [g3]; exact g8) (by rw [g4]; exact h1.target) (by omega) hk hK, ?_, ?_⟩
      · rw [(StreamBuf.consume_keeps _ _ _).1, g3, h2]
      · simp only [(StreamBuf.consume_keeps _ _ _).2]
        split at g1 <;> rename_i he
        · rw [if_pos he]; exact g1.elim fun _ h => h
        · rw [if_neg he]; exact g1

/-- A client that keeps to its bounds finds the stream at rest, -/
theorem Visited.rests {B fuel Q K C R align : Nat} {f : StreamBuf.Closure τ} {P Z : τ → Prop} (hf : StreamBuf.Adds f (fun t _ => P t) (fun t _ => Z t) C R) (hR : StreamBuf.limit B Q K 0 0 < R)
    {s₀ s : Buffered τ} (h₀ : s₀.Rests B Q K C align P Z) (h : Visited (bufferedSrc B fuel f) Q K s₀ s) : s.Rests B Q K C align P Z := by
  induction h with
  | start => exact h₀
  | idle _ hreq hfill hK ih => exact (ih.fill hf hR hreq hfill).2.2.2.1 hK
  | round _ hreq hfill hk hK hc ih => exact (ih.fill hf hR hreq hfill).2.2.2.2 _ _ hk hK hc

/-- and the stream lends to it at most as much as the limit says. -/
theorem LentTo.bounded {B fuel Q K C R align : Nat} {f : StreamBuf.Closure τ} {P Z : τ → Prop} (hf : StreamBuf.Adds f (fun t _ => P t) (fun t _ => Z t) C R) (hR : StreamBuf.limit B Q K 0 0 < R)
    {s₀ s : Buffered τ} (h₀ : s₀.Rests B Q K C align P Z) {n : Nat} {eof : Bool} (h : LentTo (bufferedSrc B fuel f) Q K s₀ s n eof) :
    s.buf.buf.length ≤ StreamBuf.limit B Q K C align + MARGIN ∧ n ≤ StreamBuf.limit B Q K C align ∧ n ≤ ((bufferedSrc B fuel f).slice s).length := by
  obtain ⟨r, req, h1, h2, h3⟩ := h
  obtain ⟨g1, g2, g3, _⟩ := (h1.rests hf hR h₀).fill hf hR h2 h3
  exact ⟨g1, g2, g3⟩

theorem RawStream.adds (B R : Nat) : StreamBuf.Adds (RawStream.feed B) (fun _ _ => True) (fun _ _ => True) B R := by
  intro t req buf eof buf' t' _ _ h
  unfold RawStream.feed at h
  split at h
  · cases h
  · rename_i chunk r heq
    cases h
    have hc : chunk.length ≤ B := by
      unfold Reader.read at heq
      split at heq
      · cases heq
      · cases heq
        rw [List.length_take]
        omega
    rw [List.length_append]
    exact ⟨by omega, by omega, by split <;> trivial⟩

theorem RawStream.new_rests (B Q K align : Nat) (ha : 0 < align) (filler : Byte) (src : Reader) : (RawStream.new B src align filler).Rests B Q K B align (fun _ => True) fun _ => True :=
  ⟨StreamBuf.Small.new _ _ _ _ _ _ ha, rfl, by split <;> trivial⟩

end Nd
