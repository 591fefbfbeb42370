import Verif.Proof.Wide
import Verif.Proof.Scatter
/-!
# Slices with gaps over streams of several blocks

`C29_full_reads_counterexample` shows that slices with gaps get lost on regular files.  They do not if the distance between them
divides the size of the blocks: then every read moves the slicer on by exactly the slices it lists.
-/
namespace Nd
open Spec Props

/-- A stream that takes a whole block with every fill.  `T s lent r m fin`: `r` bytes are lent (`lent`) or were lent and not consumed,
`m` remain in all, and `fin` tells that the next fill reports the end. -/
structure Paced (S : ByteSrc σ) (B : Nat) (T : σ → Bool → Nat → Nat → Bool → Prop) : Prop where
  fill : ∀ s r m fin req eof n s', T s false r m fin → (fin = true ∨ req ≤ r + B) → S.fill s req = .ok ((eof, n), s') →
    (fin = true → eof = true) ∧ (eof = false → n = min (r + B) m ∧ T s' true n m (decide (n = m)))
  consume : ∀ s n m fin k s', T s true n m fin → k ≤ n → (0 < k ∨ fin = true) → S.consume s k = .ok s' → T s' false (n - k) (m - k) fin

namespace RawStream

/-- Every read returns all it is asked for. -/
def Full (B : Nat) (sched : Nat → Option Nat) : Prop := ∀ i k, sched i = some k → B ≤ k

/-- The states of a stream over a file that is read in whole blocks. -/
def PacedRel (B : Nat) (s : Buffered Reader) (lent : Bool) (r m : Nat) (fin : Bool) : Prop :=
  Full B s.inner.sched ∧ s.buf.isEof = false ∧ s.buf.buf.length = s.buf.len + MARGIN ∧ s.buf.pos + r = s.buf.len ∧ r + s.inner.data.length = m ∧
    (fin = true → s.inner.data = []) ∧ (lent = false → fin = false → s.buf.targetLen ≤ s.buf.len + B)

theorem read_full {B : Nat} (hB : 0 < B) {t : Reader} (hs : Full B t.sched) {chunk t'} (h : t.read B = .ok (chunk, t')) :
    chunk = t.data.take B ∧ t'.data = t.data.drop B ∧ t'.sched = t.sched := by
  unfold Reader.read at h
  cases hk : t.sched t.calls with
  | none => rw [hk] at h; cases h
  | some k =>
    rw [hk] at h
    have := hs _ _ hk
    simp only [show min (max 1 k) B = B by omega, Except.ok.injEq, Prod.mk.injEq] at h
    obtain ⟨rfl, rfl⟩ := h
    exact ⟨rfl, rfl, rfl⟩

/-- At the end of the file a fill reports the end. -/
theorem fillLoop_end {B : Nat} (hB : 0 < B) {target : Nat} : ∀ {fuel : Nat} {s : StreamBuf} {t : Reader} {s' t'}, Full B t.sched → t.data = [] →
    StreamBuf.fillLoop (feed B) target fuel s t = .ok (s', t') → s'.isEof = true
  | 0, s, t, s', t', _, _, h => by cases h
  | fuel + 1, s, t, s', t', hs, hd, h => by
    unfold StreamBuf.fillLoop feed at h
    cases hr : t.read B with
    | error e => simp only [hr] at h; cases h
    | ok x =>
      obtain ⟨chunk, t1⟩ := x
      obtain ⟨h1, _, _⟩ := read_full hB hs hr
      rw [hd, List.take_nil] at h1
      subst h1
      simp only [hr, List.length_nil, beq_self_eq_true, if_true, Except.ok.injEq, Prod.mk.injEq] at h
      obtain ⟨rfl, _⟩ := h
      rfl

/-- One read is enough for a fill, unless it reports the end. -/
theorem fillLoop_block {B : Nat} (hB : 0 < B) {target fuel : Nat} {s : StreamBuf} {t : Reader} {s' t'} (hs : Full B t.sched) (hd : t.data ≠ [])
    (ht : target ≤ s.buf.length + B) (he : s'.isEof = false)
    (h : StreamBuf.fillLoop (feed B) target fuel s t = .ok (s', t')) :
    s' = { s with buf := s.buf ++ t.data.take B } ∧ t'.data = t.data.drop B ∧ Full B t'.sched := by
  cases fuel with
  | zero => cases h
  | succ fuel =>
    unfold StreamBuf.fillLoop feed at h
    cases hr : t.read B with
    | error e => simp only [hr] at h; cases h
    | ok x =>
      obtain ⟨chunk, t1⟩ := x
      obtain ⟨h1, h2, h3⟩ := read_full hB hs hr
      have hl : 0 < t.data.length := List.length_pos_iff.2 hd
      have hc : (chunk.length == 0) = false := by
        rw [h1, List.length_take]
        simp only [beq_eq_false_iff_ne]
        omega
      simp only [hr, hc, Bool.false_eq_true, if_false] at h
      by_cases hlen : (s.buf ++ chunk).length ≥ target
      · rw [if_pos hlen] at h
        simp only [Except.ok.injEq, Prod.mk.injEq] at h
        obtain ⟨rfl, rfl⟩ := h
        exact ⟨by rw [h1], h2, by rw [h3]; exact hs⟩
      · rw [if_neg hlen] at h
        rw [h1, List.length_append, List.length_take] at hlen
        have := fillLoop_end hB (by rw [h3]; exact hs) (by rw [h2]; exact List.drop_eq_nil_of_le (by omega)) h
        rw [he] at this
        cases this

theorem paced {B : Nat} (hB : 0 < B) (fuel : Nat) : Paced (byteSrc B fuel) B (PacedRel B) := by
  constructor
  · rintro ⟨t, s⟩ r m fin req eof n s' ⟨hs, he, hb, hp, hm, hf, htgt⟩ hreq heq
    simp only at hs he hb hp hm hf htgt
    simp only [byteSrc, bufferedSrc, StreamBuf.fillBuf, he, Bool.false_eq_true, if_false] at heq
    cases hl : StreamBuf.fillLoop (feed B) (max s.targetLen req) fuel { s with buf := s.buf.take s.len, isEof := false } t with
    | error e => rw [hl] at heq; cases heq
    | ok x =>
      obtain ⟨s1, t1⟩ := x
      rw [hl] at heq
      simp only [Except.ok.injEq, Prod.mk.injEq] at heq
      obtain ⟨⟨h1, h2⟩, rfl⟩ := heq
      refine ⟨fun h => ?_, fun h => ?_⟩
      · rw [← h1]
        exact fillLoop_end hB hs (hf h) hl
      · rw [h] at h1
        by_cases hd : t.data = []
        · rw [fillLoop_end hB hs hd hl] at h1
          cases h1
        have hfin : fin = false := by
          cases fin with
          | false => rfl
          | true => exact absurd (hf rfl) hd
        have htg := htgt trivial hfin
        have hlen : (s.buf.take s.len).length = s.len := by rw [List.length_take]; omega
        obtain ⟨rfl, g2, g3⟩ := fillLoop_block hB hs hd (by
          simp only [hlen]
          rcases hreq with hr | hr
          · rw [hfin] at hr; cases hr
          · omega) h1 hl
        simp only [List.length_append, hlen, List.length_take] at h2
        have hn : n = min (r + B) m := by omega
        refine ⟨hn, g3, rfl, ?_, ?_, ?_, fun hx => ?_, by simp⟩
        · simp only [resize, List.length_append, List.length_take, List.length_replicate]
          omega
        · simp only [List.length_append, hlen, List.length_take]
          omega
        · simp only [g2, List.length_drop]
          omega
        · simp only [g2]
          have := of_decide_eq_true hx
          exact List.drop_eq_nil_of_le (by omega)
  · rintro ⟨t, s⟩ n m fin k s' ⟨hs, he, hb, hp, hm, hf, _⟩ hk hpos heq
    simp only at hs he hb hp hm hf
    simp only [byteSrc, bufferedSrc, Except.ok.injEq] at heq
    subst heq
    have hM : MARGIN = 256 := rfl
    unfold StreamBuf.consume
    simp only [he, Bool.false_eq_true, if_false]
    have hmin : min (s.pos + k) s.buf.length = s.pos + k := by omega
    rw [hmin]
    by_cases hth : s.pos + k ≥ min (7 * s.buf.length / 8) (8 * B)
    · simp only [if_pos hth]
      by_cases h0 : k = 0
      · have hfin : fin = true := by rcases hpos with h | h; · omega
                                     · exact h
        simp only [if_pos h0]
        refine ⟨hs, rfl, ?_, ?_, ?_, hf, fun _ h => by rw [hfin] at h; cases h⟩
        · simp only [List.length_drop]; omega
        · simp only; omega
        · simp only; omega
      · simp only [if_neg h0]
        refine ⟨hs, rfl, ?_, ?_, ?_, hf, fun _ _ => ?_⟩
        · simp only [List.length_drop]; omega
        · simp only; omega
        · simp only; omega
        · simp only; omega
    · simp only [if_neg hth]
      by_cases h0 : k = 0
      · have hfin : fin = true := by rcases hpos with h | h; · omega
                                     · exact h
        simp only [if_pos h0]
        refine ⟨hs, rfl, ?_, ?_, ?_, hf, fun _ h => by rw [hfin] at h; cases h⟩
        · simp only; omega
        · simp only; omega
        · simp only; omega
      · simp only [if_neg h0]
        refine ⟨hs, rfl, ?_, ?_, ?_, hf, fun _ _ => ?_⟩
        · simp only; omega
        · simp only; omega
        · simp only; omega
        · simp only; omega

theorem new_paced {B align : Nat} {filler : Byte} {content : Bytes} {sched : Nat → Option Nat} (hs : Full B sched) :
    PacedRel B (new B (Reader.open content sched) align filler) false 0 content.length false :=
  ⟨hs, rfl, by simp [new, StreamBuf.newWithAlign], rfl, by simp [new, Reader.open], by simp, fun _ _ => by simp [new, StreamBuf.newWithAlign]⟩

end RawStream

namespace CatStream

/-- A single stream is passed on. -/
def PacedRel (T : σ → Bool → Nat → Nat → Bool → Prop) (c : CatStream σ) (lent : Bool) (r m : Nat) (fin : Bool) : Prop :=
  ∃ s, c.srcs = [s] ∧ c.cache.length = 0 ∧ c.cache.isEof = false ∧ T s lent r m fin

theorem accumulate_end {S : ByteSrc σ} {fuel : Nat} {c : CatStream σ} {s : σ} (hc : c.srcs = [s]) (he : c.cache.isEof = false) {n req : Nat} {x c'}
    (h : accumulateIntoCache S fuel c true n req = .ok (x, c')) : x.1 = true := by
  unfold accumulateIntoCache at h
  rw [hc] at h
  simp only at h
  by_cases hd : c.dup > n
  · rw [if_pos hd] at h; cases h
  rw [if_neg hd] at h
  unfold StreamBuf.fillBuf at h
  simp only [StreamBuf.extendFromSlice, he, Bool.false_eq_true, if_false] at h
  cases fuel with
  | zero => cases h
  | succ fuel =>
    simp only [StreamBuf.fillLoop, feed] at h
    cases hk : S.consume s n with
    | error e => simp only [hk] at h; cases h
    | ok s1 =>
      simp only [hk, if_true, Except.ok.injEq, Prod.mk.injEq] at h
      obtain ⟨rfl, _⟩ := h
      rfl

theorem paced {S : ByteSrc σ} {B : Nat} {T} (hB : 0 < B) (h : Paced S B T) (fuel : Nat) : Paced (byteSrc S B fuel) B (PacedRel T) := by
  constructor
  · rintro c r m fin req eof n s' ⟨s, hc, hl, he, hT⟩ hreq heq
    simp only [byteSrc, hc, hl, Nat.sub_zero] at heq
    cases hf : S.fill s (max 1 req) with
    | error e => simp only [hf] at heq; cases heq
    | ok x =>
      obtain ⟨⟨eof1, n1⟩, s1⟩ := x
      obtain ⟨g1, g2⟩ := h.fill s r m fin _ _ _ _ hT (hreq.imp id fun h => by omega) hf
      simp only [hf] at heq
      cases eof1 with
      | true =>
        simp only [Bool.true_or, if_true] at heq
        have := accumulate_end (c := { c with srcs := [s1] }) (s := s1) rfl he heq
        simp only at this
        subst this
        exact ⟨fun _ => rfl, by simp⟩
      | false =>
        simp only [Bool.false_or, Nat.lt_irrefl, decide_false, gt_iff_lt, Bool.false_eq_true, if_false, Except.ok.injEq, Prod.mk.injEq] at heq
        obtain ⟨⟨rfl, rfl⟩, rfl⟩ := heq
        exact ⟨g1, fun h => ⟨(g2 h).1, s1, rfl, hl, he, (g2 h).2⟩⟩
  · rintro c n m fin k s' ⟨s, hc, hl, he, hT⟩ hk hpos heq
    simp only [byteSrc, hc, hl, if_true] at heq
    cases hf : S.consume s k with
    | error e => simp only [hf] at heq; cases heq
    | ok s1 =>
      simp only [hf, Except.ok.injEq] at heq
      subst heq
      exact ⟨s1, rfl, hl, he, h.consume s n m fin k s1 hT hk hpos hf⟩

theorem new_paced {T : σ → Bool → Nat → Nat → Bool → Prop} {B : Nat} {s : σ} {r m fin} (h : T s false r m fin) : PacedRel T (new B [s]) false r m fin :=
  ⟨s, rfl, rfl, rfl, h⟩

end CatStream

namespace ConstSlicer
open ConstSegments

/-- Where the slicer stands: before the first fill, between two fills, or before the fill that reports the end. -/
def GapStage (Src : ByteSrc σ) (T : σ → Bool → Nat → Nat → Bool → Prop) (B P S M : Nat) (st : ConstSlicer σ) (base : Int) (n sc : Nat) : Prop :=
  (sc = 0 ∧ 0 ≤ base ∧ (st.segs.minEscape : Int) = base + 1 ∧ st.segs.segments = [] ∧ base + S + 2 * P + 2 ≤ B ∧ T st.src false 0 n false ∧ Prompt Src B st.src) ∨
  (sc = 0 ∧ base = 0 ∧ st.segs.minEscape = 0 ∧ P + 1 ≤ B ∧ st.segs.segments.length * P ≤ B ∧ ∃ r, T st.src false r n false ∧ S ≤ r ∧ r < S + P ∧ r ≤ n) ∨
  ((sc = 0 ∨ sc = ccount base P M n) ∧ ∃ r, T st.src false r n true)

/-- The slicer, `sc` slices of which have been shown, in front of the content `rem`. -/
def GapInv (Src : ByteSrc σ) (R : σ → Phase → Nat → Bytes → Prop) (T : σ → Bool → Nat → Nat → Bool → Prop) (B P S M esc : Nat) (st : ConstSlicer σ) (sc w : Nat) (rem : Bytes)
    (base : Int) : Prop :=
  ∃ lb, R st.src (.idle lb) w rem ∧ Inv st.segs base P S M esc rem.length false ∧ GapStage Src T B P S M st base rem.length sc

/-- What remains to be printed. -/
def GapPending (Src : ByteSrc σ) (R : σ → Phase → Nat → Bytes → Prop) (T : σ → Bool → Nat → Nat → Bool → Prop) (B P S M esc : Nat) (f : Formatting)
    (d : ScatterDrain (ConstSlicer σ)) (w : Nat) (p : Bytes) : Prop :=
  ∃ base rem, GapInv Src R T B P S M esc d.src d.srcConsumed w rem base ∧ d.offset + rem.length < 2 ^ 64 ∧
    p = (absOf d.offset rem ((comb base P S M rem.length).drop d.srcConsumed)).flatMap f.line

theorem minFillLen_le {s : ConstSegments} {base : Int} {P S M esc n e} (h : Inv s base P S M esc n e) : s.minFillLen = max S s.minEscape + P + 1 := by
  unfold ConstSegments.minFillLen
  rw [h.span, h.res]

end ConstSlicer

/-- One round of the drain. -/
theorem ScatterDrain.feed_ok {S : SegSrc σ} (f : Formatting) {d : ScatterDrain σ} {req : Nat} {buf : Bytes} {eof bytes count maxc src rem segs k c src'}
    (hfill : S.fill d.src = .ok ((eof, bytes, count, maxc), src)) (hl : SegLent rem segs (S.slices src) bytes count) (hsc : d.srcConsumed ≤ count)
    (h64 : d.offset + rem.length < 2 ^ 64) (hc : S.consume src maxc = .ok ((k, c), src')) (hcc : c ≤ d.srcConsumed + count) :
    feed S f d req buf = .ok (eof, buf ++ (absOf d.offset rem ((segs.take count).drop d.srcConsumed)).flatMap f.line,
      { src := src', srcConsumed := d.srcConsumed + count - c, offset := d.offset + k, lines := d.lines + c }) := by
  have hfr : ({ d with src := src } : ScatterDrain σ).fresh (S.slices src).2 count = .ok ((segs.take count).drop d.srcConsumed) := by
    unfold fresh
    have := hl.count_le
    rw [hl.segs_eq]
    rw [if_pos ⟨hsc, by simp; omega⟩]
    simp [List.take_take]
  have hseg := Format.segments_line f d.offset (S.slices src).1 ((segs.take count).drop d.srcConsumed) fun x hx => by
    have := hl.inside x (List.mem_of_mem_drop hx)
    omega
  have habs : (((segs.take count).drop d.srcConsumed).map fun x => (d.offset + x.pos, x.bytes (S.slices src).1)) =
      absOf d.offset rem ((segs.take count).drop d.srcConsumed) := by
    have := hl.abs d.offset
    rw [hl.segs_eq, List.take_take, Nat.min_self] at this
    unfold absOf at this ⊢
    rw [List.map_drop, this, ← List.map_drop]
  rw [habs] at hseg
  have had : ({ d with src := src } : ScatterDrain σ).advance S count maxc =
      .ok { src := src', srcConsumed := d.srcConsumed + count - c, offset := d.offset + k, lines := d.lines + c } := by
    unfold advance
    simp only [hc, ckSub, if_pos hcc]
  unfold feed
  simp only [hfill, hfr, hseg, had]

namespace ConstSlicer
open ConstSegments

/-- One round of a drain that consumes what it may. -/
theorem gap_round {Src : ByteSrc σ} {F M' R T} (h : Serves Src F M' R) (hM' : ∀ m, M' m → AnyMargin m) {B P S M esc : Nat} (hT : Paced Src B T) (hdvd : P ∣ B)
    {st : ConstSlicer σ} {sc w : Nat} {rem : Bytes} {base : Int} (hg : GapInv Src R T B P S M esc st sc w rem base) :
    (∃ e, F e ∧ (segSrc Src).fill st = .error e) ∨
    ∃ eof bytes cnt maxc st1 k c st2, (segSrc Src).fill st = .ok ((eof, bytes, cnt, maxc), st1) ∧ SegLent rem (comb base P S M rem.length) ((segSrc Src).slices st1) bytes cnt ∧ sc ≤ cnt ∧
      (segSrc Src).consume st1 maxc = .ok ((k, c), st2) ∧ c ≤ sc + cnt ∧ k ≤ rem.length ∧ (sc = 0 ∨ sc = cnt) ∧ (eof = false → c ≤ cnt) ∧
      (eof = true → bytes = rem.length ∧ cnt = (comb base P S M rem.length).length ∧
        ((∃ e, F e ∧ (segSrc Src).fill st2 = .error e) ∨ ∃ x st3, (segSrc Src).fill st2 = .ok ((true, 0, x), st3))) ∧
      (eof = false → sc = 0 ∧ ∃ w2 base', w2 < w ∧ GapInv Src R T B P S M esc st2 (cnt - c) w2 (rem.drop k) base' ∧
        ∀ o, absOf o rem ((comb base P S M rem.length).drop cnt) = absOf (o + k) (rem.drop k) ((comb base' P S M (rem.drop k).length).drop (cnt - c))) := by
  obtain ⟨lb, hR, hI, hst⟩ := hg
  have hP := hI.P_pos
  have hM := hI.M_pos
  have hMS := hI.M_le
  have hmf := minFillLen_le hI
  rcases h.fill _ _ _ _ st.segs.minFillLen hR with ⟨er, hF, heq⟩ | ⟨eof, n, w', s', heq, hR', hn, hm, he', hne', hw', hw''⟩
  · exact Or.inl ⟨er, hF, by simp only [segSrc, heq]⟩
  right
  have hslice : 0 < n → ∃ m, AnyMargin m ∧ Src.slice s' = rem.take n ++ m := by
    intro h0; obtain ⟨m, h1, h2⟩ := hm h0; exact ⟨m, hM' m h1, h2⟩
  cases eof with
  | true =>
    have hnr := he' rfl
    have hsc : sc ≤ ccount base P M rem.length ∧ (sc = 0 ∨ sc = ccount base P M rem.length) := by
      rcases hst with ⟨h0, _⟩ | ⟨h0, _⟩ | ⟨h0, _⟩ <;> omega
    obtain ⟨sg, hfe, hs1, hs2, hI2, hme⟩ := hI.fill_eof
    obtain ⟨k', c, sg', base', hcons, q1, q2, q3, _, _, hI3, _, q7, _⟩ := hI2.consume _ _ rem.length hs2 (Nat.le_refl _) (Nat.le_refl _) (fun _ => ⟨rfl, rfl, hme⟩) (by simp)
    obtain ⟨s2, w2, hsc2, hR2, _⟩ := h.consume _ _ _ _ k' hR' (by omega)
    have hk : k' = rem.length := q7 rfl (Nat.le_refl _)
    have hl : SegLent rem (comb base P S M rem.length) ((segSrc Src).slices { src := s', segs := sg }) rem.length (ccount base P M rem.length) := by
      refine ⟨by rw [comb_length]; exact Nat.le_refl _, ?_, n, by omega, hn, hslice, ?_⟩
      · simp only [segSrc, hs1, hs2]
      · intro x hx
        obtain ⟨j, h1, h2, rfl⟩ := comb_take_mem hx
        have := (lt_ccount hP).1 h2
        have h0 : 0 ≤ (j : Int) * P := Int.mul_nonneg (by omega) (by omega)
        have hmo := hI.margin_ok
        simp only [cseg, Seg.tail]
        omega
    refine ⟨true, rem.length, ccount base P M rem.length, rem.length, { src := s', segs := sg }, k', c, { src := s2, segs := sg' }, by simp only [segSrc, heq, hnr, hfe, hs2], hl, hsc.1,
      by simp only [segSrc, hcons, hsc2], by omega, by omega, hsc.2, by simp, fun _ => ⟨rfl, by rw [comb_length], ?_⟩, by simp⟩
    rcases h.fill _ _ _ _ sg'.minFillLen hR2 with ⟨er, hF, heq2⟩ | ⟨eof2, n2, w3, s3, heq2, _, hn2, _, he2, hne2, _⟩
    · exact Or.inl ⟨er, hF, by simp only [segSrc, heq2]⟩
    · rw [hk, List.drop_length, List.length_nil] at hn2
      obtain rfl : n2 = 0 := by omega
      cases eof2 with
      | false => exact absurd (hne2 rfl).1 (by omega)
      | true =>
        rw [hk, Nat.sub_self] at hI3
        obtain ⟨sg3, hfe3, _, hs3, _⟩ := hI3.fill_eof
        exact Or.inr ⟨_, { src := s3, segs := sg3 }, by simp only [segSrc, heq2, hfe3, hs3]; rfl⟩
  | false =>
    have hpre : sc = 0 ∧ 0 ≤ base ∧ (st.segs.minEscape : Int) ≤ base + 1 ∧ ∃ r, n = min (r + B) rem.length ∧ T s' true n rem.length (decide (n = rem.length)) ∧ base + S ≤ n + P ∧
        (n ≠ rem.length → base + st.segs.segments.length * P + S ≤ n ∧ P + 1 ≤ B ∧
          ((0 < st.segs.minEscape ∧ (st.segs.minEscape : Int) = base + 1 ∧ r = 0 ∧ base + S + P < n) ∨
          (base = 0 ∧ st.segs.minEscape = 0 ∧ S ≤ r ∧ r < S + P))) := by
      rcases hst with ⟨h0, hb, hme, hsg, hB, hT0, hpr⟩ | ⟨h0, hb, hme, hB, hsg, r, hT0, hr1, hr2, hr3⟩ | ⟨_, r, hT0⟩
      · obtain ⟨_, g⟩ := hT.fill _ _ _ _ _ _ _ _ hT0 (Or.inr (by rw [hmf]; omega)) heq
        obtain ⟨g1, g2⟩ := g rfl
        have := hpr _ _ _ heq
        refine ⟨h0, hb, by omega, 0, g1, g2, by omega, fun _ => ⟨?_, by omega, ?_⟩⟩
        · simp only [hsg, List.length_nil]; omega
        · left; omega
      · obtain ⟨_, g⟩ := hT.fill _ _ _ _ _ _ _ _ hT0 (Or.inr (by rw [hmf]; omega)) heq
        obtain ⟨g1, g2⟩ := g rfl
        subst hb
        refine ⟨h0, by omega, by omega, r, g1, g2, by omega, fun hnm => ⟨?_, hB, ?_⟩⟩
        · have : ((st.segs.segments.length * P : Nat) : Int) = st.segs.segments.length * P := Int.natCast_mul _ _
          omega
        · right; omega
      · have := (hT.fill _ _ _ _ _ _ _ _ hT0 (Or.inl rfl) heq).1 rfl
        cases this
    clear hst
    obtain ⟨h0, hb, hmesc, r, hnr, hT', hL, hst⟩ := hpre
    obtain ⟨cnt, m, sg, hff, hl, hcm, hsg, hup, hdn, hme, hI2, hreach, hover⟩ := hI.fill_more n hL
    clear hreach
    have hc0 := mul_le_int P (Nat.zero_le cnt)
    have htail : ∀ j, j < cnt → base + j * P + S ≤ n := by
      intro j hj
      have h1 := mul_le_int P (show j + 1 ≤ cnt by omega)
      rw [succ_mul_int] at h1
      have := hup (by omega)
      omega
    have hcc : cnt ≤ ccount base P M rem.length := by
      rcases Nat.eq_zero_or_pos cnt with h0 | h0
      · omega
      · have h1 := htail (cnt - 1) (by omega)
        have h2 := (lt_ccount (base := base) (M := M) (n := rem.length) (j := cnt - 1) hP).2 (by omega)
        omega
    have hlent : SegLent rem (comb base P S M rem.length) ((segSrc Src).slices { src := s', segs := sg }) n cnt := by
      refine ⟨by rw [comb_length]; exact hcc, ?_, n, Nat.le_refl _, hn, hslice, ?_⟩
      · simp only [segSrc, hsg, hl]
        exact take_comb hcm hcc fun j hj => by have := htail j hj; omega
      · intro x hx
        obtain ⟨j, h1, h2, rfl⟩ := comb_take_mem hx
        have := htail j h1
        have h0 : 0 ≤ (j : Int) * P := Int.mul_nonneg (by omega) (by omega)
        simp only [cseg, Seg.tail]
        omega
    obtain ⟨k', c, sg', base', hcons, q1, q2, q3, q4, q5, hI3, hcomb, _, q8, q9⟩ := hI2.consume (min (base + cnt * P).toNat n) cnt (min (base + cnt * P).toNat n) hl hcc (by omega)
      (by simp) (fun _ => ⟨by omega, by omega, Nat.le_refl _⟩)
    obtain ⟨s2, w2, hsc2, hR2, hw2⟩ := h.consume _ _ _ _ k' hR' (by omega)
    refine ⟨false, n, cnt, min (base + cnt * P).toNat n, { src := s', segs := sg }, k', c, { src := s2, segs := sg' }, by simp only [segSrc, heq, hff, hl], hlent, by omega,
      by simp only [segSrc, hcons, hsc2], by omega, by omega, Or.inl h0, fun _ => q3, by simp, fun _ => ⟨h0, w2, base', by have := hw'' rfl trivial; omega, ?_, ?_⟩⟩
    · refine ⟨_, hR2, by simpa using hI3, ?_⟩
      show GapStage Src T B P S M { src := s2, segs := sg' } base' (rem.drop k').length (cnt - c)
      simp only [List.length_drop]
      by_cases hnm : n = rem.length
      · right; right
        refine ⟨?_, n - k', ?_⟩
        · have := congrArg List.length hcomb
          simp only [List.length_map, List.length_drop, comb_length] at this
          by_cases hin : base + cnt * P ≤ n
          · left
            rcases q9 rfl with ⟨x, _, _, _, _⟩ | ⟨_, _, z2, _, _, z5⟩
            · rw [hme] at x
              have hz : (cnt : Int) * P = 0 := by omega
              have : cnt = 0 := by
                rcases Int.mul_eq_zero.1 hz with h | h <;> omega
              omega
            · obtain ⟨y1, y2⟩ := z5 cnt (by omega)
              have hcP : (c : Int) * P = cnt * P := by omega
              have := Int.eq_of_mul_eq_mul_right (by omega) hcP
              omega
          · right
            have hge : ¬ cnt < ccount base P M rem.length := by
              rw [lt_ccount hP]
              omega
            omega
        · have := hT.consume _ _ _ _ k' s2 hT' (by omega) (Or.inr (by simp [hnm])) hsc2
          simpa [hnm] using this
      · right; left
        obtain ⟨v1, v2, v3⟩ := hst hnm
        have hov := hover v1
        have hmc := mul_le_int P hcm
        have hcap : ((min (base + cnt * P).toNat n : Nat) : Int) = base + cnt * P := by omega
        have hpos : 0 < base + cnt * P := by
          rcases v3 with ⟨_, _, _, _⟩ | ⟨_, _, _, _⟩ <;> omega
        have hesc : sg.minEscape ≤ min (base + cnt * P).toNat n := by
          rw [hme]
          rcases v3 with ⟨_, _, _, _⟩ | ⟨_, _, _, _⟩ <;> omega
        rcases q9 rfl with ⟨x, _⟩ | ⟨_, z1, z2, z3, z4, z5⟩
        · omega
        obtain ⟨y1, y2⟩ := z5 cnt hcap
        have hcP : (c : Int) * P = cnt * P := by omega
        have hceq : c = cnt := by
          have := Int.eq_of_mul_eq_mul_right (by omega) hcP
          omega
        have hmB : base = 0 → m * P ≤ B := by
          intro hb0
          have hmP : ((m * P : Nat) : Int) = m * P := Int.natCast_mul _ _
          have hlt : m * P < B + P := by
            rcases v3 with ⟨_, _, _, _⟩ | ⟨_, _, _, _⟩ <;> omega
          obtain ⟨q, rfl⟩ := hdvd
          rw [Nat.mul_comm m P] at hlt ⊢
          have : m < q + 1 := Nat.lt_of_mul_lt_mul_left (a := P) (by rw [Nat.mul_add]; omega)
          exact Nat.mul_le_mul_left P (by omega)
        refine ⟨by omega, y2, z1, v2, ?_, n - k', ?_, by omega, by omega, by omega⟩
        · rcases z4 with ⟨z4, _⟩ | ⟨z4, z6⟩
          · rw [z4]; simp
          · rw [z6, hsg, List.length_map, List.length_range]
            exact hmB (by omega)
        · have := hT.consume _ _ _ _ k' s2 hT' (by omega) (Or.inl (by omega)) hsc2
          simpa [hnm] using this
    · intro o
      rw [List.length_drop, ← hcomb, ← List.map_drop, List.drop_drop, show c + (cnt - c) = cnt by omega]
      rw [absOf_shift]
      intro x hx
      obtain ⟨j, h1, h2, rfl⟩ := comb_drop_mem hx
      exact q5 j (by omega) h2

theorem gap_produces {Src : ByteSrc σ} {F M' R T} (h : Serves Src F M' R) (hM' : ∀ m, M' m → AnyMargin m) {B P S M esc : Nat} (hT : Paced Src B T) (hdvd : P ∣ B)
    (f : Formatting) : Produces (ScatterDrain.feed (segSrc Src) f) F (fun d _ w p => GapPending Src R T B P S M esc f d w p) (fun _ => True) := by
  rintro d w p req buf ⟨base, rem, hg, h64, rfl⟩
  rcases gap_round h hM' hT hdvd hg with ⟨er, hF, heq⟩ | ⟨eof, bytes, cnt, maxc, st1, k, c, st2, hfill, hl, hsc, hcons, hcc, hk, _, _, heof, hmore⟩
  · exact Or.inl ⟨er, hF, by simp only [ScatterDrain.feed, heq]⟩
  right
  have hfeed := ScatterDrain.feed_ok f (req := req) (buf := buf) hfill hl hsc h64 hcons hcc
  cases eof with
  | true =>
    obtain ⟨_, hcnt, _⟩ := heof rfl
    refine ⟨true, _, _, [], hfeed, ?_, fun _ => ⟨rfl, trivial⟩, by simp⟩
    rw [List.append_nil, List.take_of_length_le (by omega)]
  | false =>
    obtain ⟨h0, w2, base', hw2, hg2, habs⟩ := hmore rfl
    refine ⟨false, _, _, (absOf d.offset rem ((comb base P S M rem.length).drop cnt)).flatMap f.line, hfeed, ?_, by simp, fun _ => ⟨w2, hw2, base', rem.drop k, ?_, ?_, ?_⟩⟩
    · rw [h0, List.drop_zero, List.drop_zero, ← List.flatMap_append]
      simp only [absOf, ← List.map_append, List.take_append_drop]
    · simp only [h0, Nat.zero_add]
      exact hg2
    · simp only [List.length_drop]
      omega
    · simp only [h0, Nat.zero_add]
      rw [habs]

/-- The drain writes the slices to files. -/
theorem gap_scatter {Src : ByteSrc σ} {F M' R T} (h : Serves Src F M' R) (hM' : ∀ m, M' m → AnyMargin m) {B P S M esc : Nat} (hT : Paced Src B T) (hdvd : P ∣ B)
    {ν : Type} [DecidableEq ν] (f : Formatting) : ∀ (fuel : Nat) (d : ScatterDrain (ConstSlicer σ)) (c : ScatterContext ν) (w : Nat) (rem : Bytes) (base : Int),
      GapInv Src R T B P S M esc d.src d.srcConsumed w rem base → d.offset + rem.length < 2 ^ 64 → w + 1 < fuel →
      (∃ e, F e ∧ ScatterDrain.scatter (segSrc Src) f fuel d c = .error e) ∨
      ScatterDrain.scatter (segSrc Src) f fuel d c = ScatterDrain.dumpSlices f (d.lines + d.srcConsumed) (absOf d.offset rem ((comb base P S M rem.length).drop d.srcConsumed)) c
  | 0, _, _, _, _, _, _, _, hf => by omega
  | fuel + 1, d, c, w, rem, base, hg, h64, hf => by
    unfold ScatterDrain.scatter
    have hI : ∃ n, Inv d.src.segs base P S M esc n false ∧ n = rem.length := by
      obtain ⟨_, _, hI, _⟩ := hg
      exact ⟨_, hI, rfl⟩
    rcases gap_round h hM' hT hdvd hg with ⟨er, hF, heq⟩ | ⟨eof, bytes, cnt, maxc, st1, k, cc, st2, hfill, hl, hsc, hcons, hcc, hk, hsome, hcle, heof, hmore⟩
    · exact Or.inl ⟨er, hF, by simp only [heq]⟩
    simp only [hfill]
    by_cases hend : eof = true ∧ bytes = 0
    · right
      rw [if_pos hend]
      have hz : rem.length = 0 := by rw [← (heof hend.1).1]; exact hend.2
      have : comb base P S M rem.length = [] := by
        obtain ⟨n, hI, rfl⟩ := hI
        rw [← List.length_eq_zero_iff, comb_length]
        have h1 := hI.margin_ok
        have h2 : ¬ 0 < ccount base P M rem.length := by
          rw [lt_ccount hI.P_pos]
          omega
        omega
      rw [this]
      simp [absOf, ScatterDrain.dumpSlices]
    · rw [if_neg hend]
      have hfr : ({ d with src := st1 } : ScatterDrain (ConstSlicer σ)).fresh ((segSrc Src).slices st1).2 cnt = .ok (((comb base P S M rem.length).take cnt).drop d.srcConsumed) := by
        unfold ScatterDrain.fresh
        have := hl.count_le
        rw [hl.segs_eq, if_pos ⟨hsc, by simp; omega⟩]
        simp [List.take_take]
      have hall := ScatterDrain.dumpAll_eq f d.offset d.lines ((segSrc Src).slices st1).1 0 (((comb base P S M rem.length).take cnt).drop d.srcConsumed) c fun x hx => by
        have := hl.inside x (List.mem_of_mem_drop hx)
        omega
      have habs : ((((comb base P S M rem.length).take cnt).drop d.srcConsumed).map fun x => (d.offset + x.pos, x.bytes ((segSrc Src).slices st1).1)) =
          absOf d.offset rem (((comb base P S M rem.length).take cnt).drop d.srcConsumed) := by
        have := hl.abs d.offset
        rw [hl.segs_eq, List.take_take, Nat.min_self] at this
        unfold absOf at this ⊢
        rw [List.map_drop, this, ← List.map_drop]
      have hnum : ScatterDrain.dumpSlices f (d.lines + 0) (absOf d.offset rem (((comb base P S M rem.length).take cnt).drop d.srcConsumed)) c =
          ScatterDrain.dumpSlices f (d.lines + d.srcConsumed) (absOf d.offset rem (((comb base P S M rem.length).take cnt).drop d.srcConsumed)) c := by
        rcases hsome with h0 | h0
        · rw [h0]
        · rw [List.drop_of_length_le (by simp; omega)]
          rfl
      rw [habs, hnum] at hall
      have had : ({ d with src := st1 } : ScatterDrain (ConstSlicer σ)).advance (segSrc Src) cnt maxc =
          .ok { src := st2, srcConsumed := d.srcConsumed + cnt - cc, offset := d.offset + k, lines := d.lines + cc } := by
        unfold ScatterDrain.advance
        simp only [hcons, ckSub, if_pos hcc]
      simp only [hfr, hall, had]
      cases eof with
      | true =>
        obtain ⟨_, hcnt, hnext⟩ := heof rfl
        rw [List.take_of_length_le (by omega)]
        cases ScatterDrain.dumpSlices f (d.lines + d.srcConsumed) (absOf d.offset rem ((comb base P S M rem.length).drop d.srcConsumed)) c with
        | error => exact Or.inr rfl
        | ok c' =>
          obtain ⟨g, rfl⟩ : ∃ g, fuel = g + 1 := ⟨fuel - 1, by omega⟩
          unfold ScatterDrain.scatter
          rcases hnext with ⟨e, hF, heq⟩ | ⟨x, st3, heq⟩
          · exact Or.inl ⟨e, hF, by simp only [heq]⟩
          · right
            simp only [heq, true_and, if_true]
      | false =>
        obtain ⟨h0, w2, base', hw2, hg2, hrest⟩ := hmore rfl
        have hcle := hcle rfl
        have hsplit : absOf d.offset rem ((comb base P S M rem.length).drop d.srcConsumed) =
            absOf d.offset rem (((comb base P S M rem.length).take cnt).drop d.srcConsumed) ++ absOf (d.offset + k) (rem.drop k) ((comb base' P S M (rem.drop k).length).drop (cnt - cc)) := by
          rw [← hrest, h0]
          simp only [absOf, List.drop_zero, ← List.map_append, List.take_append_drop]
        rw [hsplit, ScatterDrain.dumpSlices_append]
        cases ScatterDrain.dumpSlices f (d.lines + d.srcConsumed) (absOf d.offset rem (((comb base P S M rem.length).take cnt).drop d.srcConsumed)) c with
        | error => exact Or.inr rfl
        | ok c' =>
          have hlen : d.lines + d.srcConsumed + (absOf d.offset rem (((comb base P S M rem.length).take cnt).drop d.srcConsumed)).length = d.lines + cc + (cnt - cc) := by
            have := hl.count_le
            simp only [absOf, List.length_map, List.length_drop, List.length_take, h0]
            omega
          simp only [h0, Nat.zero_add] at hlen ⊢
          rw [hlen]
          exact gap_scatter h hM' hT hdvd f fuel { src := st2, srcConsumed := cnt - cc, offset := d.offset + k, lines := d.lines + cc } c' w2 (rem.drop k) base' hg2
            (by simp only [List.length_drop]; omega) (by omega)

/-- The drain prints the slices of a stream that is read in whole blocks, or writes them to files. -/
theorem gap_drains {Src : ByteSrc σ} {F M' R T} (h : Serves Src F M' R) (hM' : ∀ m, M' m → AnyMargin m) {B : Nat} (hB : 0 < B) (hT : Paced Src B T)
    (ps : ConstSlicerParams) (ok : ParamsOk ps) (hd : ps.pitch ∣ B) (hh : 0 ≤ ps.head) (hroom : ps.head + ps.span + 2 * ps.pitch + 2 ≤ B) {lb w : Nat} {content : Bytes} {src : σ}
    (hR : R src (.idle lb) w content) (hs : T src false 0 content.length false) (hp : Prompt Src B src) (h64 : content.length < 2 ^ 64) :
    ∃ st, new src ps = .ok st ∧
      (∀ (f : Formatting) fuel, w < fuel → Delivers (ScatterDrain.byteSrc (segSrc Src) f B fuel) F NlMargin (ScatterDrain.through B st) w
        ((slicesOf content (comb ps.head ps.pitch ps.span (ps.tail + ps.span).toNat content.length)).flatMap f.line)) ∧
      ∀ (f : Formatting) fuel (c : ScatterContext (List Char)), w + 1 < fuel →
        (∃ e, F e ∧ ScatterDrain.scatter (segSrc Src) f fuel (ScatterDrain.new st) c = .error e) ∨
        ScatterDrain.scatter (segSrc Src) f fuel (ScatterDrain.new st) c =
          ScatterDrain.dumpSlices f 0 (slicesOf content (comb ps.head ps.pitch ps.span (ps.tail + ps.span).toNat content.length)) c := by
  obtain ⟨st, h1, h2, h3, h4, h5⟩ := new_inv ps ok src content.length
  have hg : GapInv Src R T B ps.pitch ps.span (ps.tail + ps.span).toNat (escape ps) st 0 w content ps.head := by
    refine ⟨lb, by rw [← h2] at hR; exact hR, h5, Or.inl ⟨rfl, hh, ?_, h3, hroom, ?_, ?_⟩⟩
    · simp only [h4, escape, if_neg (show ¬ ps.head < 0 by omega)]
      omega
    · rw [← h2] at hs; exact hs
    · rw [← h2] at hp; exact hp
  refine ⟨st, h1, fun f fuel hf => buffered_delivers' (gap_produces h hM' hT hd f) hB ⟨_, content, hg, by simpa [ScatterDrain.new] using h64, by rw [← absOf_zero]; rfl⟩ hf, fun f fuel c hf => ?_⟩
  rw [← absOf_zero]
  exact gap_scatter h hM' hT hd f fuel (ScatterDrain.new st) c w content _ hg (by simpa [ScatterDrain.new] using h64) hf

end ConstSlicer
end Nd
