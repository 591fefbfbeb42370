import Verif.Proof.Ample
/-!
# Byte sources that lend more with every call

Every call of `StreamBuf::fill_buf` reads at least once, even if enough bytes are there.  The evaluation of the expressions of `--walk` relies
on that.
-/
namespace Nd

/-- A second fill lends `H` more bytes, or all there are.  After a `consume` it lends more than what is left. -/
structure Grows (S : ByteSrc σ) (R : σ → Phase → Nat → Bytes → Prop) (H : Nat) : Prop where
  more : ∀ s n w rem req n' s', R s (.lent n) w rem → S.fill s req = .ok ((false, n'), s') → n + H ≤ n' ∨ n' = rem.length
  next : ∀ s n w rem k s1 req n' s2, R s (.lent n) w rem → k ≤ n → S.consume s k = .ok s1 → S.fill s1 req = .ok ((false, n'), s2) → n - k < n'

/-- `s` is a fresh stream that delivers `content` and lends `H` more bytes with every further fill. -/
def ServesGrowing (S : ByteSrc σ) (F : Err → Prop) (M : Bytes → Prop) (H : Nat) (s : σ) (w : Nat) (content : Bytes) : Prop :=
  ∃ R L E, Serves S F M R ∧ Ample S R L E ∧ Grows S R H ∧ R s (.idle 1) w content

theorem ServesGrowing.mono {S : ByteSrc σ} {F F' M H s w content} (h : ServesGrowing S F M H s w content) (hF : ∀ e, F e → F' e) : ServesGrowing S F' M H s w content := by
  obtain ⟨R, L, E, h1, h2, h3, h4⟩ := h
  refine ⟨R, L, E, ⟨fun s ph w rem req hR => ?_, h1.consume⟩, h2, h3, h4⟩
  rcases h1.fill s ph w rem req hR with ⟨e, he, h⟩ | h
  · exact Or.inl ⟨e, hF e he, h⟩
  · exact Or.inr h

theorem fillLoop_feed {B H target : Nat} : ∀ (fuel : Nat) (s : StreamBuf) (t : Reader) (s' : StreamBuf) (t' : Reader),
    (∀ i k, t.sched i = some k → H ≤ min (max 1 k) B) → StreamBuf.fillLoop (RawStream.feed B) target fuel s t = .ok (s', t') → s'.isEof = true ∨
      (s'.buf.length + t'.data.length = s.buf.length + t.data.length ∧ (s.buf.length + H ≤ s'.buf.length ∨ t'.data = []) ∧ t'.sched = t.sched ∧ s.buf.length < s'.buf.length)
  | 0, _, _, _, _, _, h => by cases h
  | fuel + 1, s, t, s', t', hs, h => by
    simp only [StreamBuf.fillLoop, RawStream.feed, Reader.read] at h
    cases hk : t.sched t.calls with
    | none => rw [hk] at h; cases h
    | some k =>
      rw [hk] at h
      simp only at h
      have hle := hs _ _ hk
      split at h
      · cases h; left; rfl
      · rename_i hc
        have hpos : s.buf.length < (s.buf ++ t.data.take (min (max 1 k) B)).length := by
          have : 0 < (t.data.take (min (max 1 k) B)).length := by
            rw [beq_iff_eq] at hc; omega
          rw [List.length_append]; omega
        have hlen : (s.buf ++ t.data.take (min (max 1 k) B)).length + (t.data.drop (min (max 1 k) B)).length = s.buf.length + t.data.length := by
          simp only [List.length_append, List.length_take, List.length_drop]; omega
        have hgr : s.buf.length + H ≤ (s.buf ++ t.data.take (min (max 1 k) B)).length ∨ t.data.drop (min (max 1 k) B) = [] := by
          rcases Nat.lt_or_ge t.data.length (min (max 1 k) B) with h1 | h1
          · right; exact List.drop_eq_nil_of_le (Nat.le_of_lt h1)
          · left; simp only [List.length_append, List.length_take]; omega
        split at h
        · cases h; right; exact ⟨hlen, hgr, rfl, hpos⟩
        · rcases fillLoop_feed fuel _ _ s' t' (by exact hs) h with h | ⟨h1, h2, h3, h4⟩
          · exact Or.inl h
          · right
            simp only at h1 h2 h3 h4
            refine ⟨h1.trans hlen, ?_, h3, by omega⟩
            rcases hgr with hgr | hgr
            · rcases h2 with h2 | h2
              · left; omega
              · right; exact h2
            · right
              rw [hgr] at h1
              rcases h2 with h2 | h2
              · simp only [List.length_nil] at h1
                exact List.eq_nil_of_length_eq_zero (by omega)
              · exact h2

/-- The states of a file that is being read. -/
def GrowRel (S : ByteSrc (Buffered Reader)) (F : Err → Prop) (M : Bytes → Prop) (B H : Nat) (s : Buffered Reader) (ph : Phase) (w : Nat) (rem : Bytes) : Prop :=
  AmpleRel S F M B s ph w rem ∧
  (s.buf.isEof = false → rem.length = s.buf.len - s.buf.pos + s.inner.data.length ∧ s.buf.len ≤ s.buf.buf.length ∧ s.buf.pos ≤ s.buf.len ∧ ∀ i k, s.inner.sched i = some k → H ≤ min (max 1 k) B)

/-- The buffer after a fill of a file that does not report the end. -/
theorem raw_fill_shape {B H fuel req n : Nat} {s s' : Buffered Reader} (he : s.buf.isEof = false) (hl : s.buf.len ≤ s.buf.buf.length)
    (hs : ∀ i k, s.inner.sched i = some k → H ≤ min (max 1 k) B) (h : (RawStream.byteSrc B fuel).fill s req = .ok ((false, n), s')) :
    s'.buf.len + s'.inner.data.length = s.buf.len + s.inner.data.length ∧ s'.buf.pos = s.buf.pos ∧ s'.buf.len ≤ s'.buf.buf.length ∧ n = s'.buf.len - s'.buf.pos ∧
    (s.buf.len + H ≤ s'.buf.len ∨ s'.inner.data = []) ∧ s'.inner.sched = s.inner.sched ∧ s.buf.len < s'.buf.len := by
  simp only [RawStream.byteSrc, bufferedSrc] at h
  split at h
  · cases h
  · rename_i r buf t hfill
    cases h
    obtain ⟨h1, h2, h3, _⟩ := StreamBuf.fillBuf_shape hfill
    simp only [StreamBuf.fillBuf, he, Bool.false_eq_true, if_false] at hfill
    split at hfill
    · cases hfill
    · rename_i s1 t1 hloop
      simp only [Except.ok.injEq, Prod.mk.injEq] at hfill
      obtain ⟨⟨f1, f2⟩, rfl, rfl⟩ := hfill
      simp only at h2
      rcases fillLoop_feed fuel _ _ _ _ hs hloop with h | ⟨g1, g2, g3, g4⟩
      · rw [h2] at h; cases h
      · simp only [List.length_take, Nat.min_eq_left hl] at g1 g2 g4
        exact ⟨g1, h3, by simp only [resize, List.length_append, List.length_take, List.length_replicate]; omega, h1, g2, g3, g4⟩

theorem raw_growing {F M} {B H fuel : Nat} (hB : 0 < B) :
    Serves (RawStream.byteSrc B fuel) F M (GrowRel (RawStream.byteSrc B fuel) F M B H) ∧
    Ample (RawStream.byteSrc B fuel) (GrowRel (RawStream.byteSrc B fuel) F M B H) ((B - 1784) / 8) (fun s => s.buf.isEof = true) ∧
    Grows (RawStream.byteSrc B fuel) (GrowRel (RawStream.byteSrc B fuel) F M B H) H := by
  obtain ⟨hS, hA⟩ := buffered_ample (f := RawStream.feed B) (F := F) (M := M) (fuel := fuel) hB
  have hfill : ∀ s ph w rem req eof n s', GrowRel (RawStream.byteSrc B fuel) F M B H s ph w rem → (RawStream.byteSrc B fuel).fill s req = .ok ((eof, n), s') →
      (s'.buf.isEof = false → rem.length = s'.buf.len - s'.buf.pos + s'.inner.data.length ∧ s'.buf.len ≤ s'.buf.buf.length ∧ s'.buf.pos ≤ s'.buf.len ∧ ∀ i k, s'.inner.sched i = some k → H ≤ min (max 1 k) B) ∧
      (eof = false → (s.buf.len - s.buf.pos + H ≤ n ∨ n = rem.length) ∧ s.buf.isEof = false ∧ s.buf.len - s.buf.pos < n) := by
    rintro s ph w rem req eof n s' ⟨hR, hx⟩ heq
    obtain ⟨a1, a2, a3⟩ := hA.fill _ _ _ _ _ _ _ _ hR heq
    cases eof with
    | true => exact ⟨(fun h => by rw [a2.2 rfl] at h; cases h), fun h => by cases h⟩
    | false =>
      have he : s.buf.isEof = false := by
        cases h : s.buf.isEof with
        | false => rfl
        | true => exact absurd (a3 h) (by simp)
      obtain ⟨x1, x2, x3, x4⟩ := hx he
      obtain ⟨g1, g2, g3, g4, g5, g6, g7⟩ := raw_fill_shape he x2 x4 heq
      have hge : s.buf.len ≤ s'.buf.len := by
        rcases g5 with g5 | g5
        · omega
        · rw [g5] at g1; simp only [List.length_nil] at g1; omega
      refine ⟨fun _ => ⟨by omega, g3, by omega, by rw [g6]; exact x4⟩, fun _ => ⟨?_, he, by omega⟩⟩
      rcases g5 with g5 | g5
      · left; omega
      · right; rw [g5] at g1; simp only [List.length_nil] at g1; omega
  have hcons : ∀ s n w rem k s2 w2 rem2 ph, GrowRel (RawStream.byteSrc B fuel) F M B H s (.lent n) w rem → k ≤ n → (RawStream.byteSrc B fuel).consume s k = .ok s2 →
      AmpleRel (RawStream.byteSrc B fuel) F M B s2 ph w2 rem2 → rem2 = rem.drop k → GrowRel (RawStream.byteSrc B fuel) F M B H s2 ph w2 rem2 ∧
        (s2.buf.isEof = false → s2.buf.len - s2.buf.pos = n - k) := by
    rintro s n w rem k s2 w2 rem2 ph ⟨hR, hx⟩ hk heq2 hR2 rfl
    have hc := hA.consume _ _ _ heq2
    have key : s2.buf.isEof = false → (List.length (rem.drop k) = s2.buf.len - s2.buf.pos + s2.inner.data.length ∧ s2.buf.len ≤ s2.buf.buf.length ∧ s2.buf.pos ≤ s2.buf.len ∧
        ∀ i k, s2.inner.sched i = some k → H ≤ min (max 1 k) B) ∧ s2.buf.len - s2.buf.pos = n - k := by
      intro h
      have he : s.buf.isEof = false := by
        cases h' : s.buf.isEof with
        | false => rfl
        | true => rw [hc.2 h'] at h; cases h
      obtain ⟨x1, x2, x3, x4⟩ := hx he
      have hF := hR.2.1
      have hn := hR.2.2 he
      have hleft := hF.left he k (by omega)
      simp only [RawStream.byteSrc, bufferedSrc] at heq2
      cases heq2
      refine ⟨⟨by simp only [List.length_drop, hleft]; omega, ?_, ?_, x4⟩, by simp only [hleft]; omega⟩
      · simp only [StreamBuf.consume, he, Bool.false_eq_true, if_false]
        repeat' split
        all_goals simp only [List.length_drop]
        all_goals omega
      · have hM : MARGIN = 256 := rfl
        rcases hF with hF | ⟨f1, f2, _⟩
        · rw [he] at hF; cases hF
        · simp only [StreamBuf.consume, he, Bool.false_eq_true, if_false]
          repeat' split
          all_goals simp only
          all_goals omega
    exact ⟨⟨hR2, fun h => (key h).1⟩, fun h => (key h).2⟩
  refine ⟨⟨?_, ?_⟩, ⟨?_, hA.consume, ?_, fun hL s n w rem s1 req n' s2 hR => hA.far hL s n w rem s1 req n' s2 hR.1⟩, ⟨?_, ?_⟩⟩
  · rintro s ph w rem req hR
    rcases hS.fill _ _ _ _ req hR.1 with h | ⟨eof, n, w', s', heq, hR', hrest⟩
    · exact Or.inl h
    · exact Or.inr ⟨eof, n, w', s', heq, ⟨hR', (hfill _ _ _ _ _ _ _ _ hR heq).1⟩, hrest⟩
  · rintro s n w rem k hR hk
    obtain ⟨s2, w2, heq2, hR2, hw2⟩ := hS.consume _ _ _ _ k hR.1 hk
    exact ⟨s2, w2, heq2, (hcons _ _ _ _ _ _ _ _ _ hR hk heq2 hR2 rfl).1, hw2⟩
  · intro s ph w rem req eof n s' hR heq
    exact hA.fill _ _ _ _ _ _ _ _ hR.1 heq
  · intro s n w rem k s1 req eof n' s2 hR
    exact hA.keep _ _ _ _ _ _ _ _ _ _ hR.1
  · intro s n w rem req n' s' hR heq
    obtain ⟨h1, h2, _⟩ := (hfill _ _ _ _ _ _ _ _ hR heq).2 rfl
    have := hR.1.2.2 h2
    rcases h1 with h1 | h1
    · left; omega
    · right; exact h1
  · intro s n w rem k s1 req n' s2 hR hk hc hf
    obtain ⟨s1', w1, heq1, hR1, _⟩ := hS.consume _ _ _ _ k hR.1 hk
    have heq : s1' = s1 := by
      have := heq1.symm.trans hc
      cases this; rfl
    subst heq
    obtain ⟨g1, g2⟩ := hcons _ _ _ _ _ _ _ _ _ hR hk heq1 hR1 rfl
    obtain ⟨_, h2, h3⟩ := (hfill _ _ _ _ _ _ _ _ g1 hf).2 rfl
    have := g2 h2
    omega

/-- A file: every `read()` returns at least `H` bytes, as far as there are any. -/
theorem RawStream.growing {F M} {B H fuel w : Nat} {filler : Byte} {content : Bytes} {sched : Nat → Option Nat} (hB : 0 < B)
    (h : Delivers (byteSrc B fuel) F M (new B (Reader.open content sched) 1 filler) w content) (hs : ∀ i k, sched i = some k → H ≤ min (max 1 k) B) :
    ServesGrowing (byteSrc B fuel) F M H (new B (Reader.open content sched) 1 filler) w content := by
  obtain ⟨h1, h2, h3⟩ := raw_growing (F := F) (M := M) (H := H) (fuel := fuel) hB
  refine ⟨_, _, _, h1, h2, h3, ⟨h, StreamBuf.Ready.new B 1 filler⟩, fun _ => ⟨?_, ?_, ?_, hs⟩⟩
  all_goals simp [new, StreamBuf.newWithAlign, Reader.open]

end Nd
