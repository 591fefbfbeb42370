import Verif.Proof.Map
import Verif.Proof.Exact
/-!
# Slice streams that hold nothing back

A stream is tight if every slice it lends starts in the part that may be consumed, and if it consumes all it is
asked to.  `--find` is, and so are `--invert` and `--extend` above it for the ranges that keep the start of the image near
the start of the gap or slice: their clients then see every slice once.
-/
namespace Nd
open Spec

/-- The stream lends no slice that starts behind the part that may be consumed, consumes all it is asked to, and does
not take back the permission to consume. -/
structure SegTight (S : SegSrc σ) (R : σ → SegPhase → Nat → Bytes → List Seg → Prop) (D : Nat) : Prop where
  strict : ∀ s lb w rem segs bytes count maxc s', R s (.idle lb) w rem segs → S.fill s = .ok ((false, bytes, count, maxc), s') →
    D ≤ maxc ∧ ∀ x ∈ segs.take count, x.pos < maxc ∧ 0 < x.len
  complete : ∀ s eof count cap w rem segs k k' c s', R s (.lent eof count cap) w rem segs → k ≤ cap → S.consume s k = .ok ((k', c), s') → k' = k
  clamp : ∀ s eof count cap w rem segs k, R s (.lent eof count cap) w rem segs → cap ≤ k → S.consume s k = S.consume s cap
  forward : ∀ s lb w rem segs bytes count maxc s1 k k' c s2 bytes' count' maxc' s3, R s (.idle lb) w rem segs →
    S.fill s = .ok ((false, bytes, count, maxc), s1) → S.consume s1 k = .ok ((k', c), s2) → k' ≤ maxc →
    S.fill s2 = .ok ((false, bytes', count', maxc'), s3) → maxc ≤ k' + maxc'

/-- The guarantees of a tight stream. -/
structure SegKind.Firm (K : SegKind) : Prop where
  full : K.full = true
  exact : K.exact = true
  honest : K.honest = true
  steady : K.steady = true
  early : K.early = true
  snap : K.snap = true
  free : K.Free
  lax : K.strict = false

/-- What an instance of `MapStream` needs for its images to start in the part that may be consumed. -/
structure SnugLaws (ops : MapOps α) (Inv : α → List Seg → List Seg → Nat → Prop) (D : Nat) : Prop where
  snug : ∀ aux seen news later len bytes maxc, Inv aux seen (news ++ later) len → bytes ≤ len → (∀ x ∈ news, x.tail ≤ bytes) → D ≤ maxc →
    (∀ x ∈ news, x.pos < maxc ∧ 0 < x.len) → ∀ z ∈ (ops.grow aux false bytes news).1, z.pos < min maxc (ops.limit (ops.grow aux false bytes news).2 maxc)
  grows : ∀ aux seen news later len bytes maxc, Inv aux seen (news ++ later) len → bytes ≤ len → (∀ x ∈ news, x.tail ≤ bytes) →
    ops.limit aux maxc ≤ ops.limit (ops.grow aux false bytes news).2 maxc
  unwinds : ∀ aux k mc mc', mc ≤ k + mc' → min mc (ops.limit aux mc) ≤ k + min mc' (ops.limit (ops.unwind aux k) mc')

namespace MapStream

/-- The guarantees over a tight source. -/
def firm : SegKind where
  full := true
  exact := true
  honest := true
  steady := true
  early := true
  moving := false
  snap := true
  policy := fun _ _ => True

theorem firm_firm : firm.Firm := ⟨rfl, rfl, rfl, rfl, rfl, rfl, fun _ _ => trivial, rfl⟩

/-- Where the slices of the stream start. -/
def Ext (S : SegSrc σ) (R : σ → SegPhase → Nat → Bytes → List Seg → Prop) (ops : MapOps α) (m : MapStream σ α) (rem : Bytes) : SegPhase → Prop
  | .idle _ => ∀ b c mc s', S.fill m.src = .ok ((false, b, c, mc), s') → ∀ z ∈ m.segments, z.pos < min mc (ops.limit m.aux mc)
  | .lent eof _ cap => (∀ z ∈ m.segments, z.pos < cap) ∧
      (0 < rem.length → eof = false → ∃ s0 lb w0 segs bytes mc, R s0 (.idle lb) w0 rem segs ∧ S.fill s0 = .ok ((false, bytes, m.srcScanned, mc), m.src) ∧
        cap = min mc (ops.limit m.aux mc))
  | .done => True

/-- The states over a tight source. -/
def Tight (S : SegSrc σ) (R : σ → SegPhase → Nat → Bytes → List Seg → Prop) (ops : MapOps α) (rest : α → List Seg → Nat → List Seg)
    (Inv : α → List Seg → List Seg → Nat → Prop) (H : Nat) (m : MapStream σ α) (ph : SegPhase) (w : Nat) (rem : Bytes) (out : List Seg) : Prop :=
  Rel S R rest Inv H m ph w rem out ∧ Ext S R ops m rem ph

/-- What a successful fill computes. -/
theorem fill_inv' {S : SegSrc σ} {ops : MapOps α} {m : MapStream σ α} {eof bytes count maxc m'} (h : (segSrc S ops).fill m = .ok ((eof, bytes, count, maxc), m')) :
    ∃ mc, S.fill m.src = .ok ((eof, bytes, m'.srcScanned, mc), m'.src) ∧
      m'.segments = m.segments ++ (ops.grow m.aux eof bytes (((S.slices m'.src).2.take m'.srcScanned).drop m.srcScanned)).1 ∧
      m'.aux = (ops.grow m.aux eof bytes (((S.slices m'.src).2.take m'.srcScanned).drop m.srcScanned)).2 ∧
      maxc = min mc (if eof then bytes else ops.limit m'.aux mc) := by
  simp only [segSrc] at h
  split at h
  · cases h
  · rename_i eof' bytes' count' maxc' s' heq
    split at h
    · cases h
    · cases h
      exact ⟨maxc', heq, rfl, rfl, rfl⟩

/-- What a successful consume computes. -/
theorem consume_inv' {S : SegSrc σ} {ops : MapOps α} {m : MapStream σ α} {k k' c m'} (h : (segSrc S ops).consume m k = .ok ((k', c), m')) :
    ∃ c', S.consume m.src (min k m.maxConsume) = .ok ((k', c'), m'.src) ∧ m'.aux = ops.unwind m.aux k' ∧ cutSegs k' m.segments = .ok (c, m'.segments) := by
  simp only [segSrc] at h
  split at h
  · cases h
  · rename_i bytes srcCount s' heq
    split at h
    · cases h
    · split at h
      · cases h
      · rename_i hcut
        split at h
        · cases h
        · cases h
          exact ⟨srcCount, heq, rfl, hcut⟩

section
variable {S : SegSrc σ} {K : SegKind} {F : Err → Prop} {R : σ → SegPhase → Nat → Bytes → List Seg → Prop} {D : Nat} (h : SegFaithful S K F R) (hk : SegKeeps S R)
  (ht : SegTight S R D) (hK : K.Firm) {ops : MapOps α} {rest : α → List Seg → Nat → List Seg} {Inv : α → List Seg → List Seg → Nat → Prop} {H : Nat}
  (laws : MapLaws ops rest Inv H) (snug : SnugLaws ops Inv D)
include h hk ht hK laws snug

omit laws snug in
/-- The new slices of a fill before the end, as slices of the source. -/
theorem grow_news {m m' : MapStream σ α} {lb w : Nat} {rem : Bytes} {segs : List Seg} {bytes mc : Nat} (hR : R m.src (.idle lb) w rem segs) (hlb : lb = m.srcScanned)
    (hf : S.fill m.src = .ok ((false, bytes, m'.srcScanned, mc), m'.src)) (hInv : Inv m.aux (segs.take m.srcScanned) (segs.drop m.srcScanned) rem.length) :
    ∃ news later, ((S.slices m'.src).2.take m'.srcScanned).drop m.srcScanned = news ∧ Inv m.aux (segs.take m.srcScanned) (news ++ later) rem.length ∧
      bytes ≤ rem.length ∧ (∀ x ∈ news, x.tail ≤ bytes) ∧ D ≤ mc ∧ ∀ x ∈ news, x.pos < mc ∧ 0 < x.len := by
  obtain ⟨hD, hstrict⟩ := ht.strict _ _ _ _ _ _ _ _ _ hR hf
  have hwit := hk.within _ _ _ _ _ _ _ _ _ hR hf
  rcases h.fill _ _ _ _ _ hR with ⟨e, hF, heq⟩ | ⟨eof, b2, c2, maxc2, cap, w', s', heq, hR', hl, hcb, hdrop, hmax, heof, hearly, hw, hw', hsteady, hmov⟩
  · rw [heq] at hf; cases hf
  rw [heq] at hf
  cases hf
  have hsc := hsteady hK.steady
  subst hlb
  have hse := hl.segs_eq
  obtain ⟨avail, hav1, hav2, -, -⟩ := hl.bytes_eq
  have hcl := hl.count_le
  have hsplit : segs.drop m.srcScanned = (segs.take m'.srcScanned).drop m.srcScanned ++ segs.drop m'.srcScanned := by
    conv => lhs; rw [← List.take_append_drop m'.srcScanned segs]
    rw [List.drop_append_of_le_length (by simp; omega)]
  refine ⟨(segs.take m'.srcScanned).drop m.srcScanned, segs.drop m'.srcScanned, ?_, ?_, by omega, ?_, hD, ?_⟩
  · rw [hse, List.take_take, Nat.min_self]
  · rwa [← hsplit]
  · exact fun x hx => hwit x (List.mem_of_mem_drop hx)
  · exact fun x hx => hstrict x (List.mem_of_mem_drop hx)

omit laws in
/-- Every slice lent before the end starts in the part that may be consumed. -/
theorem fill_ext {m m' : MapStream σ α} {lb w : Nat} {rem : Bytes} {out : List Seg} {bytes count maxc : Nat} (hT : Tight S R ops rest Inv H m (.idle lb) w rem out)
    (hf : (segSrc S ops).fill m = .ok ((false, bytes, count, maxc), m')) :
    (∀ z ∈ m'.segments, z.pos < maxc) ∧ ∃ lb w0 segs mc, R m.src (.idle lb) w0 rem segs ∧ S.fill m.src = .ok ((false, bytes, m'.srcScanned, mc), m'.src) ∧
      maxc = min mc (ops.limit m'.aux mc) := by
  obtain ⟨⟨segs, sph, hR, rfl, hInv, hgood, hsl, rfl, hlb, hfl⟩, hext⟩ := hT
  obtain ⟨mc, hfs, hseg, haux, hmax⟩ := fill_inv' hf
  obtain ⟨news, later, hn, hI, hb, hnt, hD, hns⟩ := grow_news h hk ht hK hR rfl hfs hInv
  rw [hn] at hseg haux
  simp only [Bool.false_eq_true, if_false] at hmax
  refine ⟨?_, _, w, segs, mc, hR, hfs, hmax⟩
  intro z hz
  rw [hseg] at hz
  rw [hmax, haux]
  rcases List.mem_append.1 hz with hz | hz
  · have h1 := hext _ _ _ _ hfs z hz
    have h2 := snug.grows _ _ _ _ _ _ mc hI hb hnt
    omega
  · exact snug.snug _ _ _ _ _ _ _ hI hb hnt hD hns z hz

omit h hk hK laws snug in
theorem complete {m : MapStream σ α} {eof count cap w rem out k k' c m'} (hT : Tight S R ops rest Inv H m (.lent eof count cap) w rem out) (hkc : k ≤ cap)
    (hc : (segSrc S ops).consume m k = .ok ((k', c), m')) : k' = k := by
  obtain ⟨⟨segs, sph, hR, rfl, hInv, hgood, hsl, rfl, scap, rfl, rfl, hscap, hlim, hfin, hne, hprov⟩, hext⟩ := hT
  clear hprov hext hfin hne hlim
  obtain ⟨c', hc', -, -⟩ := consume_inv' hc
  have := ht.complete _ _ _ _ _ _ _ _ _ _ _ hR (by omega) hc'
  omega

omit h hk hK laws snug in
theorem clamp {m : MapStream σ α} {eof count cap w rem out k} (hT : Tight S R ops rest Inv H m (.lent eof count cap) w rem out) (hkc : cap ≤ k) :
    (segSrc S ops).consume m k = (segSrc S ops).consume m cap := by
  obtain ⟨⟨segs, sph, hR, rfl, hInv, hgood, hsl, rfl, scap, rfl, rfl, hscap, hlim, hfin, hne, hprov⟩, hext⟩ := hT
  clear hprov hext hfin hne hlim
  have : S.consume m.src (min k m.maxConsume) = S.consume m.src (min (min scap m.maxConsume) m.maxConsume) := by
    rcases Nat.le_total m.maxConsume scap with hle | hle
    · rw [show min k m.maxConsume = min (min scap m.maxConsume) m.maxConsume by omega]
    · rw [show min (min scap m.maxConsume) m.maxConsume = scap by omega]
      exact ht.clamp _ _ _ _ _ _ _ _ hR (by omega)
  simp only [segSrc, this]

theorem tight_faithful : SegFaithful (segSrc S ops) firm F (Tight S R ops rest Inv H) := by
  have hb := faithful h hk hK.full hK.honest hK.steady hK.early laws (fun lent k _ => hK.free lent k) hK.lax
  refine ⟨?_, ?_, ?_⟩
  · rintro m lb w rem out hT
    rcases hb.fill _ _ _ _ _ hT.1 with he | ⟨eof, bytes, count, maxc, cap, w', m', heq, hR', hl, hcb, hdrop, hmax, heof, hearly, hw, hw', hsteady, hmov⟩
    · exact Or.inl he
    have hmc : maxc = cap := by
      rcases hmax with h | ⟨_, _, h⟩
      · exact h
      · simp [kind] at h
    subst hmc
    have hE : Ext S R ops m' rem (.lent eof count maxc) := by
      cases eof with
      | false =>
        obtain ⟨h1, lb, w0, segs, mc, h2, h3, h4⟩ := fill_ext h hk ht hK snug hT heq
        exact ⟨h1, fun _ _ => ⟨_, lb, w0, segs, _, mc, h2, h3, h4⟩⟩
      | true =>
        obtain ⟨segs, sph, hR, hout, hInv, hgood, -⟩ := hR'.inner
        obtain ⟨g1, g2, g3⟩ := heof rfl
        have g3 := g3 rfl
        refine ⟨fun z hz => ?_, by simp⟩
        have := hgood.2 z (by rw [hout]; simp [hz])
        simp only [Seg.tail] at this
        omega
    refine Or.inr ⟨eof, bytes, count, maxc, maxc, w', m', heq, ⟨hR', hE⟩, hl, hcb, hdrop, Or.inl rfl, fun he => ?_, fun _ x hx => ?_, hw, hw', fun _ => hsteady rfl, by simp [firm]⟩
    · obtain ⟨g1, g2, g3⟩ := heof he
      exact ⟨g1, g2, fun _ => g3 rfl⟩
    · rw [← hl.segs_eq] at hx
      exact Nat.le_of_lt (hE.1 x hx)
  · rintro m eof count cap w rem out k hT hkk
    obtain ⟨k', c, w', m', heq, c1, c2, c3, c4, c5, hR', c6, c7, c8, c9⟩ := hb.consume _ _ _ _ _ _ _ k hT.1 (by
      rcases hkk with h1 | h1 | h1
      · exact Or.inl h1
      · exact Or.inr (Or.inl h1)
      · exact Or.inr (Or.inr ⟨h1.1, fun _ _ => hK.free _ _⟩))
    have hcap : cap ≤ k → k' = cap := fun hle => by
      rw [clamp ht hT hle] at heq
      exact complete ht hT (Nat.le_refl _) heq
    refine ⟨k', c, w', m', heq, c1, c2, c3, c4, c5, ⟨hR', ?_⟩, c6, c7, fun _ hle => ?_, fun _ _ hle _ _ _ _ _ _ => complete ht hT hle heq⟩
    · split
      · trivial
      · rename_i hnd
        rintro b cc mc' s' hf z hz
        obtain ⟨c', hc, haux, hcut⟩ := consume_inv' heq
        obtain ⟨⟨segs, sph, hR, hout, hInv, hgood, hsl, hcount, scap, rfl, hcapeq, hscap, hlim, hfin, hne, hprov⟩, hpos, hext⟩ := hT
        obtain ⟨fr, hcut', f1, f2, f3⟩ := cutSegs_spec k' m.segments (by
          have := hgood.1
          rw [hout] at this
          exact (List.pairwise_append.1 this).1)
        rw [hcut'] at hcut
        simp only [Except.ok.injEq, Prod.mk.injEq] at hcut
        rw [← hcut.2] at hz
        obtain ⟨y, hy, rfl⟩ := List.mem_map.1 hz
        have hym := List.mem_of_mem_drop hy
        have hrem : 0 < rem.length := by
          have := hgood.2 y (by rw [hout]; simp [hym])
          simp only [Seg.tail] at this
          omega
        have hy1 := hpos y hym
        have hy2 := f3 y hy
        obtain ⟨s0, lb0, w0, bytes, mc0, hR0, hf0, hb0, hbb⟩ := hprov hrem
        cases eof with
        | true =>
          have := (hk.keep _ _ _ _ _ _ _ _ _ _ _ _ _ _ _ _ _ _ _ hR0 hf0 hc (by omega) hf).1 rfl
          cases this
        | false =>
          obtain ⟨s0, lb0, w0, segs, bytes, mc, hR0, hf0, hcapm⟩ := hext hrem rfl
          have h1 := ht.forward _ _ _ _ _ _ _ _ _ _ _ _ _ _ _ _ _ hR0 hf0 hc (by omega) hf
          have h2 := snug.unwinds m.aux k' mc mc' h1
          rw [haux]
          simp only [Seg.shift]
          omega
    · have hk' := hcap hle
      have hpos := hT.2.1
      obtain ⟨segs, sph, hR, hout, hInv, hgood, hsl, hcount, -⟩ := hT.1.inner
      rcases Nat.lt_or_ge c count with hlt | hge
      · exfalso
        have hmem : m.segments[c]'(by omega) ∈ out.drop c := by
          rw [hout, List.drop_append_of_le_length (by omega), List.drop_eq_getElem_cons (by omega)]
          exact List.mem_append_left _ List.mem_cons_self
        have h1 := c5 _ hmem
        have h2 := hpos (m.segments[c]'(by omega)) (List.getElem_mem _)
        omega
      · omega
  · rintro m w rem out hT
    rcases hb.rest _ _ _ _ hT.1 with he | ⟨w', m', heq, hR', hl, hw⟩
    · exact Or.inl he
    refine Or.inr ⟨w', m', heq, ⟨hR', ?_⟩, hl, hw⟩
    obtain ⟨segs, sph, -, -, -, -, -, -, hnil, -, hrem⟩ := hT.1.inner
    refine ⟨fun z hz => ?_, by simp⟩
    obtain ⟨segs', sph', -, hout', -⟩ := hR'.inner
    have : z ∈ out := by rw [hout']; simp [hz]
    rw [hnil] at this
    simp at this

omit ht snug in
theorem tight_keeps : SegKeeps (segSrc S ops) (Tight S R ops rest Inv H) := by
  have := keeps h hk hK.steady laws
  exact ⟨fun s lb w rem segs bytes count maxc s' hT => this.within _ _ _ _ _ _ _ _ _ hT.1,
    fun s lb w rem segs eof bytes count maxc s1 k k' c s2 eof' bytes' count' maxc' s3 hT => this.keep _ _ _ _ _ _ _ _ _ _ _ _ _ _ _ _ _ _ _ hT.1⟩

theorem tight_tight : SegTight (segSrc S ops) (Tight S R ops rest Inv H) 0 := by
  refine ⟨?_, ?_, ?_, ?_⟩
  · intro m lb w rem out bytes count maxc m' hT hf
    obtain ⟨h1, -⟩ := fill_ext h hk ht hK snug hT hf
    refine ⟨Nat.zero_le _, fun x hx => ⟨?_, ?_⟩⟩
    · rcases (tight_faithful h hk ht hK laws snug).fill _ _ _ _ _ hT with ⟨e, hF, heq⟩ | ⟨eof, b2, c2, maxc2, cap, w', s', heq, hR', hl, -⟩
      · rw [heq] at hf; cases hf
      · rw [heq] at hf
        cases hf
        rw [← hl.segs_eq] at hx
        exact h1 x hx
    · obtain ⟨segs, sph, -, -, -, hgood, -⟩ := hT.1.inner
      exact (hgood.2 x (List.mem_of_mem_take hx)).1
  · intro m eof count cap w rem out k k' c m' hT
    exact complete ht hT
  · intro m eof count cap w rem out k hT
    exact clamp ht hT
  · intro m lb w rem out bytes count maxc m1 k k' c m2 bytes' count' maxc' m3 hT hf hc hk' hf'
    obtain ⟨-, lb0, w0, segs0, mc, hR0, hfs, hmax⟩ := fill_ext h hk ht hK snug hT hf
    obtain ⟨c', hcs, haux, -⟩ := consume_inv' hc
    obtain ⟨mc', hfs', hseg', haux', hmax'⟩ := fill_inv' hf'
    simp only [Bool.false_eq_true, if_false] at hmax'
    have h1 := ht.forward _ _ _ _ _ _ _ _ _ _ _ _ _ _ _ _ _ hR0 hfs hcs (by omega) hfs'
    have h2 := snug.unwinds m1.aux k' mc mc' h1
    rw [← haux] at h2
    have hFa := tight_faithful h hk ht hK laws snug
    obtain ⟨w2, rem2, out2, lb2, hT2⟩ : ∃ w2 rem2 out2 lb2, Tight S R ops rest Inv H m2 (.idle lb2) w2 rem2 out2 := by
      rcases hFa.fill _ _ _ _ _ hT with ⟨e, hF, heq⟩ | ⟨eof, b2, c2, maxc2, cap, w', s', heq, hR', -⟩
      · rw [heq] at hf; cases hf
      rw [heq] at hf
      cases hf
      have hcons : ∀ j, j ≤ cap → (segSrc S ops).consume m1 j = .ok ((k', c), m2) → ∃ w2 rem2 out2 lb2, Tight S R ops rest Inv H m2 (.idle lb2) w2 rem2 out2 := by
        intro j hj hcj
        obtain ⟨k2, c2, w2, s2, heq2, -, -, -, -, -, hR2, -⟩ := hFa.consume _ _ _ _ _ _ _ j hR' (Or.inr (Or.inr ⟨hj, trivial⟩))
        rw [heq2] at hcj
        cases hcj
        rw [if_neg (by simp)] at hR2
        exact ⟨_, _, _, _, hR2⟩
      rcases Nat.le_total k cap with hle | hle
      · exact hcons k hle hc
      · exact hcons cap (Nat.le_refl _) (by rw [← hc]; exact (clamp ht hR' hle).symm)
    obtain ⟨segs, sph, hR, -, hInv, -, -, rfl, -⟩ := hT2.1.inner
    obtain ⟨news, later, hn, hI, hb, hnt, hD, hns⟩ := grow_news h hk ht hK hR rfl hfs' hInv
    have h3 := snug.grows _ _ _ _ _ _ mc' hI hb hnt
    rw [hn] at haux'
    rw [← haux'] at h3
    omega

end

end MapStream

/-! ## The instances -/

theorem phantomLimit_one (m : SegmentMapper) (g : Int × Int) : phantomLimit [m] g = (max 0 (min (m.toSpec.1.on g) (m.toSpec.2.on g))).toNat := by
  simp [phantomLimit, evaluate_spec]

theorem Bridge.snug {m : SegmentMapper} {H : Nat} (h1 : m.toSpec.1.fromEnd = false) (h2 : 0 ≤ m.toSpec.1.off) (h3 : m.toSpec.2.fromEnd = true) (h4 : m.toSpec.2.off ≤ 0) :
    SnugLaws (Bridge.ops [m]) (Bridge.Inv [m] H) 0 := by
  have hgrow : ∀ (aux : Int) seen news later len bytes, Bridge.Inv [m] H aux seen (news ++ later) len → bytes ≤ len → (∀ x ∈ news, x.tail ≤ bytes) →
      (Bridge.ops [m]).grow aux false bytes news = ((gapsBefore aux news).flatMap (images [m.toSpec] len), lastEnd aux news) := by
    intro p seen news later len bytes hI hb hn
    have hs := Bridge.scan_spec [m] len usizeMax news p fun g hg m' hm => by
      obtain ⟨_, _, x, hx, h3⟩ := gapsBefore_mem _ _ _ hg
      have h1 := hI.fits g (by rw [gapsBefore_append]; simp [hg]) m' hm
      have h2 := hn x hx
      simp only [Seg.tail] at h2
      exact Or.inr ⟨hI.len_le, by omega⟩
    simp only [Bridge.ops, Bool.false_eq_true, false_and, if_false, hs, List.map_cons, List.map_nil]
  have hlim : ∀ (aux : Int) mc, ((Bridge.ops [m]).limit aux mc : Int) = max 0 (min (aux + m.toSpec.1.off) (aux + 1 + m.toSpec.2.off)) := by
    intro aux mc
    simp only [Bridge.ops, phantomLimit_one, RangeEnd.on, h1, h3, if_true, Bool.false_eq_true, if_false]
    omega
  refine ⟨?_, ?_, ?_⟩
  · intro aux seen news later len bytes maxc hI hb hn _ hpos z hz
    rw [hgrow _ _ _ _ _ _ hI hb hn] at hz ⊢
    obtain ⟨g, hg, hz⟩ := List.mem_flatMap.1 hz
    obtain ⟨r, hr, i1, i2, i3, i4⟩ := images_mem hz
    simp only [List.mem_singleton] at hr
    subst hr
    obtain ⟨g1, g2, x, hx, g3⟩ := gapsBefore_mem _ _ _ hg
    have hl := (le_lastEnd news aux).2 x hx
    have hp := hpos x hx
    have hlm := hlim (lastEnd aux news) maxc
    simp only [RangeEnd.on, h1, h3, if_true, Bool.false_eq_true, if_false, Seg.tail] at i3 i4 hl
    show z.pos < min maxc ((Bridge.ops [m]).limit (lastEnd aux news) maxc)
    omega
  · intro aux seen news later len bytes maxc hI hb hn
    rw [hgrow _ _ _ _ _ _ hI hb hn]
    have hl := (le_lastEnd news aux).1
    have h5 := hlim aux maxc
    have h6 := hlim (lastEnd aux news) maxc
    simp only
    omega
  · intro aux k mc mc' hmc
    have h5 := hlim aux mc
    have h6 := hlim ((Bridge.ops [m]).unwind aux k) mc'
    simp only [Bridge.ops] at h5 h6 ⊢
    omega

theorem Extend.snug {m : SegmentMapper} {D W : Nat} (h1 : m.toSpec.1.fromEnd = false) (h2 : m.toSpec.1.off ≤ 0) (h3 : -(D : Int) < m.toSpec.1.off)
    (h4 : m.toSpec.1.off ≤ m.toSpec.2.on (0, 1)) : SnugLaws (Extend.ops [m]) (Extend.Inv [m] W) D := by
  have hon : ∀ (p : Int), m.toSpec.2.on (p, p + 1) = m.toSpec.2.on (0, 1) + p := by
    intro p; simp only [RangeEnd.on]; split <;> omega
  have hlim : ∀ aux (mc : Nat), ((Extend.ops [m]).limit aux mc : Int) = max 0 ((mc : Int) + m.toSpec.1.off) := by
    intro aux mc
    simp only [Extend.ops, phantomLimit_one]
    rw [hon]
    simp only [RangeEnd.on, h1, Bool.false_eq_true, if_false] at h4 ⊢
    omega
  refine ⟨?_, fun _ _ _ _ _ _ _ _ _ _ => Nat.le_refl _, ?_⟩
  · intro aux seen news later len bytes maxc hI hb hn hD hpos z hz
    have hg := Extend.grow_spec [m] len usizeMax news (fun x hx m' hm => by
      have h1 := hI.fits x (by simp [hx]) m' hm
      have h2 := hn x hx
      exact Or.inr ⟨hI.len_le, by omega⟩) (by
        have hso := hI.sorted
        simp only [extend, List.flatMap_append] at hso
        exact (List.pairwise_append.1 hso).1)
    simp only [Extend.ops, Bool.false_eq_true, if_false, List.map_cons, List.map_nil] at hz hg
    rw [hg] at hz
    obtain ⟨x, hx, hz⟩ := List.mem_flatMap.1 hz
    obtain ⟨r, hr, i1, i2, i3, i4⟩ := images_mem hz
    simp only [List.mem_singleton] at hr
    subst hr
    have hp := hpos x hx
    have h5 := hlim ((Extend.ops [m]).grow aux false bytes news).2 maxc
    simp only [RangeEnd.on, h1, Bool.false_eq_true, if_false] at i4
    omega
  · intro aux k mc mc' hmc
    have h5 := hlim aux mc
    have h6 := hlim ((Extend.ops [m]).unwind aux k) mc'
    omega

namespace ExactMatchSlicer

/-- How much may be consumed before the end. -/
theorem fill_max {Src : ByteSrc σ} {B : Nat} {st st' : ExactMatchSlicer σ} {bytes count maxc} (h : (segSrc Src B).fill st = .ok ((false, bytes, count, maxc), st')) :
    maxc = if st.pattern = [] then bytes else holdBack bytes st.pattern.length := by
  simp only [segSrc, fill] at h
  split at h
  · cases h
  · split at h
    · rename_i he
      cases h
      rw [if_pos (by simpa using he)]
    · rename_i he
      split at h
      · cases h
      · cases h
        have hne : st.pattern ≠ [] := by simpa using he
        simp [hne]

theorem tight {p : Bytes} (hp : Unbordered p) {Src : ByteSrc σ} {F M R L E} (h : Serves Src F M R) (hA : Ample Src R L E) (hM : ∀ m, M m → AnyMargin m)
    (hL : p.length ≤ L) (hL0 : 0 < L) (B : Nat) : SegTight (segSrc Src B) (Rel p Src R E) (L + 1 - max 1 p.length) := by
  have hmax : ∀ st lb w rem segs bytes count maxc st', Rel p Src R E st (.idle lb) w rem segs → (segSrc Src B).fill st = .ok ((false, bytes, count, maxc), st') →
      maxc = bytes + 1 - max 1 p.length ∧ L ≤ bytes := by
    rintro st lb w rem segs bytes count maxc st' ⟨⟨hC, lb', l, hR, hK, hW⟩, hlb⟩ hf
    have h1 := fill_max hf
    have h2 := (hA.fill _ _ _ _ _ _ _ _ hR (fill_inv hf)).1 rfl
    rw [hC.pat] at h1
    refine ⟨?_, h2⟩
    by_cases hp0 : p = []
    · subst hp0
      rw [if_pos rfl] at h1
      simp only [List.length_nil]
      omega
    · have : 0 < p.length := List.length_pos_iff.2 hp0
      rw [if_neg hp0, holdBack, if_pos (by omega)] at h1
      omega
  refine ⟨?_, ?_, ?_, ?_⟩
  · intro st lb w rem segs bytes count maxc st' hR hf
    obtain ⟨h1, h2⟩ := hmax _ _ _ _ _ _ _ _ _ hR hf
    refine ⟨by omega, ?_⟩
    rcases fill_spec hp h hA hM hL hL0 B st w rem segs hR.1 with ⟨e, _, heq⟩ | ⟨eof, bytes', w', s', g1, g2, g3, g4, g5, g6, g7, g8, g9, g10⟩
    · rw [heq] at hf; cases hf
    rw [g1] at hf
    cases hf
    intro x hx
    rw [g2.1.take, List.take_left, g2.1.buf] at hx
    obtain ⟨_, h3, h4, h5, _⟩ := mem_occIn.1 hx
    refine ⟨h3, ?_⟩
    rw [h4]
    exact List.length_pos_iff.2 h5
  · rintro st eof count cap w rem segs k k' c st' ⟨hC, rfl, rfl, -⟩ hk hc
    simp only [segSrc] at hc
    split at hc
    · cases hc
    · split at hc
      · cases hc
      · cases hc
        omega
  · rintro st eof count cap w rem segs k ⟨hC, rfl, rfl, -⟩ hk
    simp only [segSrc, Nat.min_eq_right hk, Nat.min_self]
  · intro st lb w rem segs bytes count maxc s1 k k' c s2 bytes' count' maxc' s3 hR hf hc hk' hf'
    obtain ⟨h1, h2⟩ := hmax _ _ _ _ _ _ _ _ _ hR hf
    have hk2 : k' ≤ bytes := by omega
    have h3 := ((keeps hp h hA hM hL hL0 B).keep _ _ _ _ _ _ _ _ _ _ _ _ _ _ _ _ _ _ _ hR hf hc hk2 hf').2 rfl
    have h4 := fill_max hf'
    have hpat : s2.pattern = p := by
      have e1 : s1.pattern = st.pattern := by
        simp only [segSrc, fill] at hf
        split at hf
        · cases hf
        · split at hf
          · cases hf; rfl
          · split at hf
            · cases hf
            · cases hf; rfl
      have e2 : s2.pattern = s1.pattern := by
        simp only [segSrc] at hc
        split at hc
        · cases hc
        · split at hc
          · cases hc
          · cases hc; rfl
      rw [e2, e1]
      exact hR.1.1.pat
    rw [hpat] at h4
    by_cases hp0 : p = []
    · subst hp0
      rw [if_pos rfl] at h4
      simp only [List.length_nil] at h1
      omega
    · have : 0 < p.length := List.length_pos_iff.2 hp0
      rw [if_neg hp0, holdBack] at h4
      split at h4 <;> omega

end ExactMatchSlicer

end Nd
