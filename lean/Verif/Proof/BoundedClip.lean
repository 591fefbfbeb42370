import Verif.Proof.BoundedCat
/-!
# The sizes of buffers: `--pad`, `--seek` and `--range`
-/
namespace Nd

/-- To a client within its limits the stream lends at most `C` bytes. -/
def LendsUpTo (S : ByteSrc σ) (Q K C : Nat) (s₀ : σ) : Prop := ∀ s n eof, LentTo S Q K s₀ s n eof → n ≤ C ∧ n ≤ (S.slice s).length

theorem Visited.inl {S : ByteSrc σ} {T : ByteSrc τ} {Q K : Nat} {s₀ : σ} {s : σ ⊕ τ} (h : Visited (sumSrc S T) Q K (.inl s₀) s) : ∃ s', s = .inl s' ∧ Visited S Q K s₀ s' := by
  induction h with
  | start => exact ⟨_, rfl, .start⟩
  | idle _ hreq hf hK ih =>
    obtain ⟨s', rfl, hv⟩ := ih
    simp only [sumSrc] at hf
    split at hf
    · cases hf
    · rename_i heq
      cases hf
      exact ⟨_, rfl, hv.idle hreq heq hK⟩
  | round _ hreq hf hk hK hc ih =>
    obtain ⟨s', rfl, hv⟩ := ih
    simp only [sumSrc] at hf
    split at hf
    · cases hf
    · rename_i heq
      cases hf
      simp only [sumSrc] at hc
      split at hc
      · cases hc
      · rename_i hceq
        cases hc
        exact ⟨_, rfl, hv.round hreq heq hk hK hceq⟩

theorem Visited.inr {S : ByteSrc σ} {T : ByteSrc τ} {Q K : Nat} {t₀ : τ} {s : σ ⊕ τ} (h : Visited (sumSrc S T) Q K (.inr t₀) s) : ∃ t', s = .inr t' ∧ Visited T Q K t₀ t' := by
  induction h with
  | start => exact ⟨_, rfl, .start⟩
  | idle _ hreq hf hK ih =>
    obtain ⟨s', rfl, hv⟩ := ih
    simp only [sumSrc] at hf
    split at hf
    · cases hf
    · rename_i heq
      cases hf
      exact ⟨_, rfl, hv.idle hreq heq hK⟩
  | round _ hreq hf hk hK hc ih =>
    obtain ⟨s', rfl, hv⟩ := ih
    simp only [sumSrc] at hf
    split at hf
    · cases hf
    · rename_i heq
      cases hf
      simp only [sumSrc] at hc
      split at hc
      · cases hc
      · rename_i hceq
        cases hc
        exact ⟨_, rfl, hv.round hreq heq hk hK hceq⟩

/-- While it is used by such a client, the stream holds at most `L` bytes, as counted by `H`. -/
def HoldsUpTo (S : ByteSrc σ) (Q K L : Nat) (H : σ → Nat) (s₀ : σ) : Prop := ∀ s, (Visited S Q K s₀ s ∨ ∃ n eof, LentTo S Q K s₀ s n eof) → H s ≤ L

theorem LendsUpTo.less {S : ByteSrc σ} {Q Q' K C : Nat} {s₀ : σ} (h : LendsUpTo S Q' K C s₀) (hQ : Q ≤ Q') : LendsUpTo S Q K C s₀ := fun s n eof hl => h s n eof (hl.mono hQ (Nat.le_refl _))

theorem HoldsUpTo.less {S : ByteSrc σ} {Q Q' K L : Nat} {H : σ → Nat} {s₀ : σ} (h : HoldsUpTo S Q' K L H s₀) (hQ : Q ≤ Q') : HoldsUpTo S Q K L H s₀ := fun s hs => h s (by
  rcases hs with hs | ⟨n, eof, hs⟩
  · exact Or.inl (hs.mono hQ (Nat.le_refl _))
  · exact Or.inr ⟨n, eof, hs.mono hQ (Nat.le_refl _)⟩)

theorem HoldsUpTo.mono {S : ByteSrc σ} {Q K L L' : Nat} {H : σ → Nat} {s₀ : σ} (h : HoldsUpTo S Q K L H s₀) (hL : L ≤ L') : HoldsUpTo S Q K L' H s₀ := fun s hs => Nat.le_trans (h s hs) hL

theorem LentTo.inl {S : ByteSrc σ} {T : ByteSrc τ} {Q K n : Nat} {eof : Bool} {s₀ : σ} {s : σ ⊕ τ} (h : LentTo (sumSrc S T) Q K (.inl s₀) s n eof) : ∃ s', s = .inl s' ∧ LentTo S Q K s₀ s' n eof := by
  obtain ⟨r, req, h1, h2, h3⟩ := h
  obtain ⟨r', rfl, hv⟩ := h1.inl
  simp only [sumSrc] at h3
  split at h3
  · cases h3
  · rename_i heq
    cases h3
    exact ⟨_, rfl, _, _, hv, h2, heq⟩

theorem LentTo.inr {S : ByteSrc σ} {T : ByteSrc τ} {Q K n : Nat} {eof : Bool} {t₀ : τ} {s : σ ⊕ τ} (h : LentTo (sumSrc S T) Q K (.inr t₀) s n eof) : ∃ t', s = .inr t' ∧ LentTo T Q K t₀ t' n eof := by
  obtain ⟨r, req, h1, h2, h3⟩ := h
  obtain ⟨r', rfl, hv⟩ := h1.inr
  simp only [sumSrc] at h3
  split at h3
  · cases h3
  · rename_i heq
    cases h3
    exact ⟨_, rfl, _, _, hv, h2, heq⟩

theorem HoldsUpTo.inl {S : ByteSrc σ} {T : ByteSrc τ} {Q K L : Nat} {H : σ → Nat} {G : τ → Nat} {s₀ : σ} (h : HoldsUpTo S Q K L H s₀) : HoldsUpTo (sumSrc S T) Q K L (Sum.elim H G) (.inl s₀) := by
  intro s hs
  rcases hs with hs | ⟨n, eof, hs⟩
  · obtain ⟨s', rfl, hv⟩ := hs.inl
    exact h _ (Or.inl hv)
  · obtain ⟨s', rfl, hv⟩ := hs.inl
    exact h _ (Or.inr ⟨_, _, hv⟩)

theorem HoldsUpTo.inr {S : ByteSrc σ} {T : ByteSrc τ} {Q K L : Nat} {H : σ → Nat} {G : τ → Nat} {t₀ : τ} (h : HoldsUpTo T Q K L G t₀) : HoldsUpTo (sumSrc S T) Q K L (Sum.elim H G) (.inr t₀) := by
  intro s hs
  rcases hs with hs | ⟨n, eof, hs⟩
  · obtain ⟨s', rfl, hv⟩ := hs.inr
    exact h _ (Or.inl hv)
  · obtain ⟨s', rfl, hv⟩ := hs.inr
    exact h _ (Or.inr ⟨_, _, hv⟩)

theorem LendsUpTo.inl {S : ByteSrc σ} {T : ByteSrc τ} {Q K C : Nat} {s₀ : σ} (h : LendsUpTo S Q K C s₀) : LendsUpTo (sumSrc S T) Q K C (.inl s₀) := by
  intro s n eof hl
  obtain ⟨s', rfl, hv⟩ := hl.inl
  exact h _ _ _ hv

theorem LendsUpTo.inr {S : ByteSrc σ} {T : ByteSrc τ} {Q K C : Nat} {t₀ : τ} (h : LendsUpTo T Q K C t₀) : LendsUpTo (sumSrc S T) Q K C (.inr t₀) := by
  intro s n eof hl
  obtain ⟨s', rfl, hv⟩ := hl.inr
  exact h _ _ _ hv

theorem LendsUpTo.mono {S : ByteSrc σ} {Q K C C' : Nat} {s₀ : σ} (h : LendsUpTo S Q K C s₀) (hC : C ≤ C') : LendsUpTo S Q K C' s₀ := fun s n eof hl =>
  ⟨Nat.le_trans (h s n eof hl).1 hC, (h s n eof hl).2⟩

namespace ZeroStream

/-- The lengths in a stream of zeros. -/
def Fits (L : Nat) (z : ZeroStream) : Prop := z.nextLen ≤ L ∧ z.bufLen ≤ L + MARGIN

theorem fill_fits {B L : Nat} {z z' : ZeroStream} {req n : Nat} {eof : Bool} (hz : z.Fits L) (hf : (byteSrc B).fill z req = .ok ((eof, n), z')) :
    z'.Fits L ∧ n = z'.nextLen ∧ n ≤ ((byteSrc B).slice z').length ∧ (eof = true → z'.len ≤ z'.offset + z'.nextLen) := by
  simp only [byteSrc] at hf
  split at hf
  · cases hf
    exact ⟨⟨Nat.zero_le _, hz.2⟩, rfl, Nat.zero_le _, fun _ => by simp only; omega⟩
  · cases hf
    refine ⟨⟨hz.1, by simp only; have := hz.1; omega⟩, rfl, ?_, fun h => by simpa using h⟩
    simp only [byteSrc, List.length_take, List.length_replicate]
    omega

theorem visited_fits {B Q K len : Nat} {filler : Byte} {z : ZeroStream} (h : Visited (byteSrc B) Q K (new B len filler) z) : z.Fits (max B (2 * K)) := by
  induction h with
  | start =>
    simp only [new, Fits]
    omega
  | idle _ _ hf _ ih => exact (fill_fits ih hf).1
  | @round _ _ _ _ _ _ eof _ _ hf hk hK hc ih =>
    obtain ⟨⟨g1, g5⟩, g2, -, g4⟩ := fill_fits ih hf
    simp only [byteSrc] at hc
    split at hc
    · cases hc
    · split at hc
      · cases hc
        refine ⟨?_, g5⟩
        simp only
        cases eof with
        | false =>
          have := hK rfl
          omega
        | true =>
          have := g4 rfl
          omega
      · cases hc
        refine ⟨?_, g5⟩
        simp only
        omega

/-- Zeros are lent block by block, unless the client leaves more. -/
theorem lends (B Q K len : Nat) (filler : Byte) : LendsUpTo (byteSrc B) Q K (max B (2 * K)) (new B len filler) := by
  intro z n eof ⟨r, req, h1, _, h3⟩
  obtain ⟨g1, g2, g3, _⟩ := fill_fits (visited_fits h1) h3
  exact ⟨by rw [g2]; exact g1.1, g3⟩

theorem holds (B Q K len : Nat) (filler : Byte) : HoldsUpTo (byteSrc B) Q K (max B (2 * K) + MARGIN) ZeroStream.bufLen (new B len filler) := by
  intro z hz
  rcases hz with hz | ⟨n, eof, r, req, h1, _, h3⟩
  · exact (visited_fits hz).2
  · exact (fill_fits (visited_fits h1) h3).1.2

end ZeroStream

theorem RawStream.lends (B fuel Q K align : Nat) (ha : 0 < align) (filler : Byte) (src : Reader) : LendsUpTo (RawStream.byteSrc B fuel) Q K (StreamBuf.limit B Q K B align) (RawStream.new B src align filler) := by
  intro s n eof h
  obtain ⟨_, h1, h2⟩ := LentTo.bounded (RawStream.adds B _) (Nat.lt_succ_self _) (RawStream.new_rests B Q K align ha filler _) h
  exact ⟨h1, h2⟩

theorem StreamBuf.Small.held {B Q K C : Nat} {s : StreamBuf} (h : s.Small B Q K C) : s.buf.length ≤ StreamBuf.limit B Q K C s.align + MARGIN := by
  have := h.len
  rw [h.margin]
  split at this
  · omega
  · unfold StreamBuf.limit
    omega

theorem RawStream.holds (B fuel Q K align : Nat) (ha : 0 < align) (filler : Byte) (src : Reader) :
    HoldsUpTo (RawStream.byteSrc B fuel) Q K (StreamBuf.limit B Q K B align + MARGIN) (fun s => s.buf.buf.length) (RawStream.new B src align filler) := by
  intro s hs
  rcases hs with hs | ⟨n, eof, hs⟩
  · have hr := hs.rests (RawStream.adds B _) (Nat.lt_succ_self _) (RawStream.new_rests B Q K align ha filler _)
    have := hr.small.held
    rw [hr.align] at this
    exact this
  · exact (LentTo.bounded (RawStream.adds B _) (Nat.lt_succ_self _) (RawStream.new_rests B Q K align ha filler _) hs).1

namespace CatStream

/-- Concatenated streams lend a limited amount if each of them does, -/
theorem lends {S : ByteSrc σ} {B fuel Q K C Q' : Nat} {srcs₀ : List σ} (hm : ∀ s₀ ∈ srcs₀, LendsUpTo S Q' K C s₀) (hQ : StreamBuf.limit B Q K 1 0 < Q') (hne : srcs₀ ≠ []) :
    LendsUpTo (byteSrc S B fuel) Q K (StreamBuf.limit B Q K (2 * C) 1) (new B srcs₀) := by
  intro c n eof ⟨r, req, h1, h2, h3⟩
  have hr := rests_of_visited hm hQ hne h1
  obtain ⟨g1, g2, _⟩ := (hr.fill hm hQ h2 h3).lent (fuel := fuel) hm
  exact ⟨g1, g2⟩

/-- What a `CatStream` holds if its sources hold `H`. -/
def holding (H : σ → Nat) (c : CatStream σ) : Nat := c.cache.buf.length + (c.srcs.map H).sum

theorem sum_le {H : σ → Nat} {L : Nat} : ∀ (l : List σ), (∀ s ∈ l, H s ≤ L) → (l.map H).sum ≤ l.length * L
  | [], _ => by simp
  | s :: l, h => by
    have h1 := h s (by simp)
    have h2 := sum_le l fun x hx => h x (by simp [hx])
    rw [List.map_cons, List.sum_cons, List.length_cons, Nat.add_mul, Nat.one_mul]
    omega

theorem sources_hold {S : ByteSrc σ} {K L Q' : Nat} {H : σ → Nat} {srcs₀ : List σ} (hh : ∀ s₀ ∈ srcs₀, HoldsUpTo S Q' K L H s₀) {s₀ s : σ} {rest : List σ} (h1 : s₀ :: rest <:+ srcs₀)
    (h2 : Visited S Q' K s₀ s ∨ ∃ n eof, LentTo S Q' K s₀ s n eof) : ((s :: rest).map H).sum ≤ srcs₀.length * L := by
  refine Nat.le_trans (sum_le (L := L) _ ?_) (Nat.mul_le_mul_right _ (by simpa using h1.length_le))
  intro x hx
  rcases List.mem_cons.1 hx with rfl | hx
  · exact hh s₀ (h1.subset (by simp)) _ h2
  · exact hh x (h1.subset (by simp [hx])) _ (Or.inl .start)

/-- and hold a limited amount. -/
theorem holds {S : ByteSrc σ} {B fuel Q K C L Q' : Nat} {H : σ → Nat} {srcs₀ : List σ} (hm : ∀ s₀ ∈ srcs₀, LendsUpTo S Q' K C s₀) (hh : ∀ s₀ ∈ srcs₀, HoldsUpTo S Q' K L H s₀)
    (hQ : StreamBuf.limit B Q K 1 0 < Q') (hne : srcs₀ ≠ []) :
    HoldsUpTo (byteSrc S B fuel) Q K (StreamBuf.limit B Q K (2 * C) 1 + MARGIN + srcs₀.length * L) (holding H) (new B srcs₀) := by
  intro c hc
  unfold holding
  rcases hc with hc | ⟨n, eof, r, req, h1, h2, h3⟩
  · have hr := rests_of_visited hm hQ hne hc
    have h1 := hr.small.held
    rw [hr.align] at h1
    have h2 := hr.srcs
    split at h2
    · rw [h2]
      simp only [List.map_nil, List.sum_nil]
      omega
    · obtain ⟨s₀, s, rest, g1, g2, g3⟩ := h2
      have := sources_hold hh g1 (Or.inl g3)
      rw [g2]
      omega
  · have hl := (rests_of_visited hm hQ hne h1).fill hm hQ h2 h3
    obtain ⟨-, -, g⟩ := hl.lent (fuel := fuel) hm
    have h2 := hl.srcs
    split at h2
    · rw [h2]
      simp only [List.map_nil, List.sum_nil]
      omega
    · obtain ⟨_, s₀, s, rest, m, e, g1, g2, g3, _⟩ := h2
      have := sources_hold hh g1 (Or.inr ⟨_, _, g3⟩)
      rw [g2]
      omega

end CatStream

/-- The states in which a client within its limits leaves a stream that has not yet reported its end. -/
inductive Underway (S : ByteSrc σ) (Q K : Nat) (s₀ : σ) : σ → Prop
  | start : Underway S Q K s₀ s₀
  | idle {s s' : σ} {req n : Nat} : Underway S Q K s₀ s → req ≤ Q → S.fill s req = .ok ((false, n), s') → n ≤ K → Underway S Q K s₀ s'
  | round {s s' s'' : σ} {req k n : Nat} : Underway S Q K s₀ s → req ≤ Q → S.fill s req = .ok ((false, n), s') → k ≤ n → n - k ≤ K → S.consume s' k = .ok s'' → Underway S Q K s₀ s''

namespace ClipStream

variable {S : ByteSrc σ} {B Q K C C₀ Q' K' : Nat} {s₀ : σ}

/-- A clipped stream between two rounds of a client: before the start of the range or within the range. -/
def Rests (S : ByteSrc σ) (B Q' K' : Nat) (s₀ : σ) (c : ClipStream σ) : Prop :=
  c.strip = 0 ∧ (c.skip > 0 ∧ Visited S B 0 s₀ c.src ∨ c.skip = 0 ∧ Visited S Q' K' s₀ c.src)

theorem Rests.visited {c : ClipStream σ} (h : c.Rests S B Q' K' s₀) (hQ : B ≤ Q') : Visited S Q' K' s₀ c.src := by
  rcases h.2 with ⟨_, h⟩ | ⟨_, h⟩
  · exact h.mono hQ (Nat.zero_le _)
  · exact h

theorem skipLoop_rests (h₀ : LendsUpTo S B 0 C₀ s₀) (hQ : B ≤ Q') (hK : C₀ ≤ K') : ∀ (fuel : Nat) (c : ClipStream σ), c.Rests S B Q' K' s₀ → ∀ stop c', skipLoop S B fuel c = .ok (stop, c') →
      c'.Rests S B Q' K' s₀ ∧ (stop = false → c'.skip = 0)
  | 0, _, _, _, _, h => by cases h
  | fuel + 1, c, hc, stop, c', h => by
    unfold skipLoop at h
    split at h
    · rename_i hskip
      split at h
      · cases h
      · rename_i e n s hfill
        simp only at h
        split at h
        · cases h
        · rename_i s' hcons
          have hnext : ({ c with src := s', skip := c.skip - min c.skip n } : ClipStream σ).Rests S B Q' K' s₀ := by
            refine ⟨hc.1, ?_⟩
            rcases hc.2 with ⟨_, hv⟩ | ⟨h0, _⟩
            · have hl : LentTo S B 0 s₀ s n e := ⟨_, _, hv, Nat.le_refl _, hfill⟩
              have hn := (h₀ _ _ _ hl).1
              simp only
              by_cases hall : c.skip > n
              · exact Or.inl ⟨by omega, hl.consume (k := min c.skip n) (by omega) (fun _ => by omega) hcons⟩
              · exact Or.inr ⟨by omega, (hl.mono hQ (Nat.zero_le K')).consume (k := min c.skip n) (by omega) (fun _ => by omega) hcons⟩
            · omega
          split at h
          · cases h
            exact ⟨hnext, by simp⟩
          · exact skipLoop_rests h₀ hQ hK fuel _ hnext _ _ h
    · rename_i hskip
      cases h
      exact ⟨hc, fun _ => by omega⟩

/-- A client fetches bytes. -/
theorem Rests.fill (h₀ : LendsUpTo S B 0 C₀ s₀) (h₁ : LendsUpTo S Q' K' C s₀) (hQB : B ≤ Q') (hQ : Q < Q') (hKC : C₀ ≤ K') {fuel : Nat} {c c' : ClipStream σ}
    (hc : c.Rests S B Q' K' s₀) {req n : Nat} {eof : Bool} (hreq : req ≤ Q) (hf : (byteSrc S B fuel).fill c req = .ok ((eof, n), c')) :
    n ≤ C ∧ (Visited S Q' K' s₀ c'.src ∨ ∃ n eof, LentTo S Q' K' s₀ c'.src n eof) ∧ (eof = false → c'.strip = 0 ∧ c'.skip = 0 ∧ LentTo S Q' K' s₀ c'.src n false) := by
  unfold byteSrc at hf
  simp only at hf
  split at hf
  · cases hf
  · rename_i c1 hs
    cases hf
    obtain ⟨g1, -⟩ := skipLoop_rests h₀ hQB hKC _ _ hc _ _ hs
    exact ⟨Nat.zero_le _, Or.inl (g1.visited hQB), by simp⟩
  · rename_i c1 hs
    obtain ⟨g1, g2⟩ := skipLoop_rests h₀ hQB hKC _ _ hc _ _ hs
    have g2 := g2 rfl
    have hv := g1.visited hQB
    have g3 := g1.1
    split at hf
    · cases hf
    · rename_i e m s hfill
      cases hf
      have hl : LentTo S Q' K' s₀ s m e := ⟨_, _, hv, by omega, hfill⟩
      have hm := (h₁ _ _ _ hl).1
      refine ⟨by omega, Or.inr ⟨_, _, hl⟩, fun he => ⟨g3, g2, ?_⟩⟩
      simp only [Bool.or_eq_false_iff, decide_eq_false_iff_not] at he
      rw [he.1] at hl
      rw [show min c1.rem (m - c1.strip) = m by omega]
      exact hl

theorem rests_of_underway (h₀ : LendsUpTo S B 0 C₀ s₀) (h₁ : LendsUpTo S Q' K' C s₀) (hQB : B ≤ Q') (hQ : Q < Q') (hKC : C₀ ≤ K') (hK : K ≤ K') {fuel : Nat} {c₀ c : ClipStream σ} (hc₀ : c₀.src = s₀)
    (hst : c₀.strip = 0) (h : Underway (byteSrc S B fuel) Q K c₀ c) : c.Rests S B Q' K' s₀ := by
  induction h with
  | start =>
    refine ⟨hst, ?_⟩
    rw [hc₀]
    by_cases hs : c₀.skip = 0
    · exact Or.inr ⟨hs, .start⟩
    · exact Or.inl ⟨by omega, .start⟩
  | idle _ hreq hf hn ih =>
    obtain ⟨_, _, g⟩ := ih.fill h₀ h₁ hQB hQ hKC hreq hf
    obtain ⟨g1, g2, g3⟩ := g rfl
    exact ⟨g1, Or.inr ⟨g2, g3.rest fun _ => by omega⟩⟩
  | round _ hreq hf hk hn hc ih =>
    obtain ⟨_, _, g⟩ := ih.fill h₀ h₁ hQB hQ hKC hreq hf
    obtain ⟨g1, g2, g3⟩ := g rfl
    unfold byteSrc at hc
    simp only at hc
    split at hc
    · cases hc
    · split at hc
      · cases hc
      · rename_i s hs
        cases hc
        exact ⟨g1, Or.inr ⟨g2, g3.consume hk (fun _ => by omega) hs⟩⟩

/-- The streams that `pad` concatenates. -/
theorem pad_cases (B : Nat) (src : σ) (params : ClipperParams) (filler : Byte) :
    pad B src params filler = .inl src ∨ ∃ srcs, srcs ≠ [] ∧ srcs.length ≤ 3 ∧ pad B src params filler = .inr (CatStream.new B srcs) ∧
      ∀ s ∈ srcs, s = .inr src ∨ ∃ len, s = .inl (ZeroStream.new B len filler) := by
  unfold pad
  split
  · exact Or.inl rfl
  all_goals
    refine Or.inr ⟨_, ?_, ?_, rfl, ?_⟩
    · simp
    · simp
    · simp
      first | exact ⟨_, rfl⟩ | exact ⟨⟨_, rfl⟩, _, rfl⟩

theorem pad_lends {src : σ} (h : LendsUpTo S Q' K C src) (hQ : StreamBuf.limit B Q K 1 0 < Q') (fuel : Nat) (params : ClipperParams) (filler : Byte) :
    LendsUpTo (paddedSrc S B fuel) Q K (StreamBuf.limit B Q K (2 * max C (max B (2 * K))) 1) (pad B src params filler) := by
  have hle : Q ≤ Q' := by
    unfold StreamBuf.limit at hQ
    omega
  rcases pad_cases B src params filler with h1 | ⟨srcs, h1, -, h2, h3⟩
  · rw [h1]
    exact ((h.less hle).mono (by unfold StreamBuf.limit; omega)).inl
  · rw [h2]
    refine LendsUpTo.inr (CatStream.lends (Q' := Q') (fun s hs => ?_) hQ h1)
    rcases h3 s hs with rfl | ⟨len, rfl⟩
    · exact (h.mono (by omega)).inr
    · exact ((ZeroStream.lends B Q' K len filler).mono (by omega)).inl

/-- What the padded source holds if the source holds `H`. -/
def holding (H : σ → Nat) : Padded σ → Nat := Sum.elim H (CatStream.holding (Sum.elim ZeroStream.bufLen H))

theorem pad_holds {L : Nat} {H : σ → Nat} {src : σ} (h : LendsUpTo S Q' K C src) (hh : HoldsUpTo S Q' K L H src) (hQ : StreamBuf.limit B Q K 1 0 < Q') (fuel : Nat) (params : ClipperParams) (filler : Byte) :
    HoldsUpTo (paddedSrc S B fuel) Q K (StreamBuf.limit B Q K (2 * max C (max B (2 * K))) 1 + MARGIN + 3 * max L (max B (2 * K) + MARGIN)) (holding H) (pad B src params filler) := by
  have hle : Q ≤ Q' := by
    unfold StreamBuf.limit at hQ
    omega
  rcases pad_cases B src params filler with h1 | ⟨srcs, h1, hlen, h2, h3⟩
  · rw [h1]
    exact ((hh.less hle).mono (by omega)).inl
  · rw [h2]
    refine HoldsUpTo.inr ((CatStream.holds (Q' := Q') (C := max C (max B (2 * K))) (L := max L (max B (2 * K) + MARGIN)) (fun s hs => ?_) (fun s hs => ?_) hQ h1).mono ?_)
    · rcases h3 s hs with rfl | ⟨len, rfl⟩
      · exact (h.mono (by omega)).inr
      · exact ((ZeroStream.lends B Q' K len filler).mono (by omega)).inl
    · rcases h3 s hs with rfl | ⟨len, rfl⟩
      · exact (hh.mono (by omega)).inr
      · exact ((ZeroStream.holds B Q' K len filler).mono (by omega)).inl
    · have := Nat.mul_le_mul_right (max L (max B (2 * K) + MARGIN)) hlen
      omega

end ClipStream
end Nd
