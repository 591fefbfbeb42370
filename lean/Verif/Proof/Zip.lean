import Verif.Model.Byte
import Verif.Spec.Byte
import Verif.Proof.StreamBuf
import Mathlib.Data.List.Forall2
/-! Protocol proof of `ZipStream`. -/
namespace Nd

namespace Spec

theorem minLen_le {c : Bytes} : ∀ {cs : List Bytes}, c ∈ cs → minLen cs ≤ c.length
  | [_], h => by simp at h; simp [minLen, h]
  | d :: e :: cs, h => by
    rcases List.mem_cons.1 h with h | h
    · subst h; simp only [minLen]; omega
    · have := minLen_le h; simp only [minLen]; omega

theorem minLen_map_drop (k : Nat) : ∀ cs : List Bytes, minLen (cs.map (List.drop k)) = minLen cs - k
  | [] => by simp [minLen]
  | [c] => by simp [minLen]
  | c :: d :: cs => by
    have := minLen_map_drop k (d :: cs)
    simp only [List.map_cons, minLen, List.length_drop] at this ⊢
    omega

theorem zip_split (w j : Nat) (hw : 0 < w) (cs : List Bytes) (h : j * w ≤ minLen cs) :
    zip w cs = ((List.range j).flatMap fun i => cs.flatMap fun c => (c.drop (i * w)).take w) ++
      zip w (cs.map (List.drop (j * w))) := by
  unfold zip
  have h1 : minLen cs / w = j + (minLen cs - j * w) / w := by
    have : minLen cs = minLen cs - j * w + j * w := by omega
    conv => lhs; rw [this]
    rw [Nat.add_mul_div_right _ _ hw, Nat.add_comm]
  rw [minLen_map_drop, h1, List.range_add, List.flatMap_append]
  congr 1
  rw [List.flatMap_map]
  congr 1
  funext i
  rw [List.flatMap_map]
  congr 1
  funext c
  rw [List.drop_drop, Nat.add_mul]

end Spec

namespace Zipper

theorem gather_eq (w : Nat) : ∀ (n : Nat) (ptrs : List Bytes),
    gather w n ptrs = (List.range n).flatMap fun i => ptrs.flatMap fun p => (p.drop (i * w)).take w := by
  intro n
  induction n with
  | zero => intro ptrs; rfl
  | succ n ih =>
    intro ptrs
    rw [gather, ih, List.range_succ_eq_map, List.flatMap_cons, List.flatMap_map]
    congr 1
    · simp [List.flatMap_def]
    · congr 1; funext i
      rw [List.flatMap_map]
      congr 1; funext p
      rw [List.drop_drop, Nat.succ_mul, Nat.add_comm]

def ZRel (R : σ → Phase → Nat → Bytes → Prop) : List σ → Nat → List Bytes → Prop
  | [], _, rs => rs = []
  | s :: ss, μ, rs => ∃ lb w r rs' μ', rs = r :: rs' ∧ R s (.idle lb) w r ∧ ZRel R ss μ' rs' ∧ w + μ' ≤ μ

def ZLent (S : ByteSrc σ) (R : σ → Phase → Nat → Bytes → Prop) (k : Nat) : List σ → Nat → List Bytes → Prop
  | [], _, rs => rs = []
  | s :: ss, μ, rs => ∃ n w r rs' μ', rs = r :: rs' ∧ R s (.lent n) w r ∧ k ≤ n ∧ n ≤ r.length ∧
      (S.slice s).take n = r.take n ∧ ZLent S R k ss μ' rs' ∧ w + μ' ≤ μ

theorem ZLent.mono {S : ByteSrc σ} {R} {k k' : Nat} (hk : k' ≤ k) :
    ∀ {srcs : List σ} {μ rs}, ZLent S R k srcs μ rs → ZLent S R k' srcs μ rs
  | [], _, _, h => h
  | _ :: _, _, _, ⟨n, w, r, rs', μ', h1, h2, h3, h4, h5, h6, h7⟩ =>
    ⟨n, w, r, rs', μ', h1, h2, by omega, h4, h5, h6.mono hk, h7⟩

theorem fillAll_spec {S : ByteSrc σ} {F M R} (h : Faithful S F M R) (req : Nat) :
    ∀ (srcs : List σ) (μ : Nat) (rs : List Bytes) (acc : Bool) (len : Nat), ZRel R srcs μ rs →
      (∃ e, F e ∧ fillAll S req srcs acc len = .error e) ∨
      ∃ b k μ' srcs', fillAll S req srcs acc len = .ok (b, k, srcs') ∧ ZLent S R k srcs' μ' rs ∧
        srcs'.length = srcs.length ∧
        k ≤ len ∧ μ' ≤ μ ∧ (b = true → acc = true ∧ k = rs.foldr (fun r x => min r.length x) len) ∧
        (b = false → acc = true → μ' < μ) := by
  intro srcs
  induction srcs with
  | nil =>
    intro μ rs acc len hz
    right
    simp only [ZRel] at hz
    subst hz
    exact ⟨acc, len, μ, [], rfl, rfl, rfl, Nat.le_refl _, Nat.le_refl _, by simp, by simp_all⟩
  | cons s ss ih =>
    intro μ rs acc len hz
    obtain ⟨lb, w, r, rs', μ', rfl, hR, hz, hμ⟩ := hz
    unfold fillAll
    rcases h.fill s _ _ _ req hR with ⟨e, hF, heq⟩ | ⟨eof, n, w', s', heq, hR', hn, hm, he', hne', hw', hw''⟩
    · left; exact ⟨e, hF, by simp only [heq]⟩
    · simp only [heq]
      rcases ih μ' rs' (acc && eof) (min len n) hz with ⟨e, hF, heq2⟩ | ⟨b, k, μ2, srcs', heq2, g1, g0, g2, g3, g4, g5⟩
      · left; exact ⟨e, hF, by simp only [heq2]⟩
      · right
        refine ⟨b, k, w' + μ2, s' :: srcs', by simp only [heq2], ⟨n, w', r, rs', μ2, rfl, hR', by omega, hn, slice_take hn hm, g1, Nat.le_refl _⟩, by simp [g0], by omega, by omega, ?_, ?_⟩
        · intro hb
          obtain ⟨h1, h2⟩ := g4 hb
          simp only [Bool.and_eq_true] at h1
          refine ⟨h1.1, ?_⟩
          rw [h2, he' h1.2]
          have : ∀ (rs : List Bytes) (a b : Nat), rs.foldr (fun r x => min r.length x) (min a b) = min b (rs.foldr (fun r x => min r.length x) a) := by
            intro rs; induction rs with
            | nil => intro a b; simp; omega
            | cons r rs ih => intro a b; simp only [List.foldr_cons, ih]; omega
          rw [this]; rfl
        · intro hb hacc
          cases eof with
          | true => have := g5 hb (by simp [hacc]); omega
          | false => have := hw'' rfl trivial; omega

theorem consumeAll_spec {S : ByteSrc σ} {F M R} (h : Faithful S F M R) (k : Nat) :
    ∀ (srcs : List σ) (μ : Nat) (rs : List Bytes), ZLent S R k srcs μ rs →
      ∃ srcs', consumeAll S k srcs = .ok srcs' ∧ ZRel R srcs' μ (rs.map (List.drop k)) := by
  intro srcs
  induction srcs with
  | nil => intro μ rs hz; simp only [ZLent] at hz; subst hz; exact ⟨[], rfl, rfl⟩
  | cons s ss ih =>
    intro μ rs hz
    obtain ⟨n, w, r, rs', μ', rfl, hR, hk, hn, _, hz, hμ⟩ := hz
    obtain ⟨s', w', heq, hR', hw'⟩ := h.consume _ _ _ _ k hR hk
    obtain ⟨srcs', heq2, hz'⟩ := ih μ' rs' hz
    exact ⟨s' :: srcs', by simp only [consumeAll, heq, heq2], _, w', _, _, μ', rfl, hR', hz', by omega⟩

theorem slices_eq {S : ByteSrc σ} {R} {k w i : Nat} (hi : (i + 1) * w ≤ k) :
    ∀ (srcs : List σ) (μ : Nat) (rs : List Bytes), ZLent S R k srcs μ rs →
      ((srcs.map S.slice).flatMap fun p => (p.drop (i * w)).take w) = rs.flatMap fun p => (p.drop (i * w)).take w := by
  intro srcs
  induction srcs with
  | nil => intro μ rs hz; simp only [ZLent] at hz; subst hz; rfl
  | cons s ss ih =>
    intro μ rs hz
    obtain ⟨n, _, r, rs', μ', rfl, hR, hk, hn, hs, hz, hμ⟩ := hz
    simp only [List.map_cons, List.flatMap_cons]
    rw [ih μ' rs' hz]
    congr 1
    rw [Nat.succ_mul] at hi
    have hh : ∀ l : Bytes, (l.drop (i * w)).take w = ((l.take n).drop (i * w)).take w := by
      intro l
      rw [List.drop_take, List.take_take, Nat.min_eq_left (by omega)]
    rw [hh, hs, ← hh]

theorem ZLent.le_minLen {S : ByteSrc σ} {R} {k : Nat} : ∀ (rs : List Bytes) (srcs : List σ) (μ : Nat), rs ≠ [] →
    ZLent S R k srcs μ rs → k ≤ Spec.minLen rs
  | [], _, _, h, _ => absurd rfl h
  | r :: rs, [], _, _, hl => by simp [ZLent] at hl
  | [r], s :: ss, μ, _, ⟨n, w, r', rs', μ'', h1, _, hk, hn, _⟩ => by
    cases h1; simp only [Spec.minLen]; omega
  | r :: d :: ds, s :: ss, μ, _, ⟨n, w, r', rs', μ'', h1, _, hk, hn, _, hz, _⟩ => by
    cases h1
    have := ZLent.le_minLen (d :: ds) ss μ'' (by simp) hz
    simp only [Spec.minLen]; omega

/-- What a zipper still has to produce. -/
def P (R : σ → Phase → Nat → Bytes → Prop) (ws : Nat) (z : Zipper σ) (μ : Nat) (p : Bytes) : Prop :=
  z.wordSize = ws ∧ z.srcs ≠ [] ∧ ∃ rs, ZRel R z.srcs μ rs ∧ p = Spec.zip ws rs ∧ ∀ r ∈ rs, r.length ≤ usizeMax

theorem foldr_minLen : ∀ (rs : List Bytes), rs ≠ [] → (∀ r ∈ rs, r.length ≤ usizeMax) →
    rs.foldr (fun r x => min r.length x) usizeMax = Spec.minLen rs
  | [], h, _ => absurd rfl h
  | [c], _, h => by have := h c (by simp); simp [Spec.minLen]; omega
  | c :: d :: cs, _, h => by
    rw [List.foldr_cons, foldr_minLen (d :: cs) (by simp) (fun r hr => h r (List.mem_cons_of_mem _ hr))]
    rfl

theorem feed_produces {S : ByteSrc σ} {F M R} (h : Faithful S F M R) (B ws : Nat) (hws : 0 < ws) :
    Produces (feed S B) F (fun z _ => P R ws z) (fun _ => True) := by
  rintro z μ p req buf ⟨hz1, hz2, rs, hz, rfl, hlen⟩
  unfold feed
  simp only
  rcases fillAll_spec h ((B + z.srcs.length - 1) / z.srcs.length) z.srcs μ rs true usizeMax hz with
    ⟨e, hF, heq⟩ | ⟨b, k, μ', srcs', heq, g1, g0, g2, g3, g4, g5⟩
  · left; exact ⟨e, hF, by simp only [heq]⟩
  · right
    simp only [heq, hz1]
    have hne : rs ≠ [] := by
      intro h0; subst h0
      cases hs : z.srcs with
      | nil => exact hz2 hs
      | cons => rw [hs] at hz; obtain ⟨_, _, _, _, _, h0, _⟩ := hz; cases h0
    have hkm : k ≤ Spec.minLen rs := ZLent.le_minLen rs srcs' μ' hne g1
    have hj : k / ws * ws ≤ k := Nat.div_mul_le_self k ws
    obtain ⟨srcs2, heq2, hz2'⟩ := consumeAll_spec h (k / ws * ws) srcs' μ' rs (g1.mono hj)
    simp only [heq2]
    have hjw : k / ws * ws / ws = k / ws := Nat.mul_div_cancel _ hws
    have hne2 : srcs2 ≠ [] := by
      intro h0; subst h0
      simp only [ZRel, List.map_eq_nil_iff] at hz2'
      exact hne hz2'
    have hlen2 : ∀ r ∈ rs.map (List.drop (k / ws * ws)), r.length ≤ usizeMax := by
      intro r hr
      simp only [List.mem_map] at hr
      obtain ⟨a, ha, rfl⟩ := hr
      have := hlen a ha
      simp; omega
    refine ⟨b, gather ws (k / ws * ws / ws) (srcs'.map S.slice), { srcs := srcs2, wordSize := ws }, Spec.zip ws (rs.map (List.drop (k / ws * ws))), by rw [hz1.symm], ?_, ?_, ?_⟩
    · rw [Spec.zip_split ws (k / ws) hws rs (by omega), hjw, gather_eq]
      congr 1
      have : ∀ l : List Nat, (∀ i ∈ l, i < k / ws) → (l.flatMap fun i => rs.flatMap fun c => (c.drop (i * ws)).take ws) =
          l.flatMap fun i => (srcs'.map S.slice).flatMap fun p => (p.drop (i * ws)).take ws := by
        intro l hl
        induction l with
        | nil => rfl
        | cons i l ih =>
          simp only [List.flatMap_cons]
          rw [ih (fun j hj => hl j (List.mem_cons_of_mem _ hj))]
          have hi : (i + 1) * ws ≤ k := by
            have := hl i (by simp)
            exact Nat.le_trans (Nat.mul_le_mul_right ws this) hj
          rw [slices_eq hi srcs' μ' rs g1]
      exact this _ (fun i hi => List.mem_range.1 hi)
    · intro hb
      refine ⟨?_, trivial⟩
      obtain ⟨_, h2⟩ := g4 hb
      rw [foldr_minLen rs hne hlen] at h2
      unfold Spec.zip
      rw [Spec.minLen_map_drop, ← h2]
      have : k - k / ws * ws < ws := by
        have := Nat.div_add_mod k ws
        have h3 := Nat.mod_lt k hws
        rw [Nat.mul_comm] at this
        omega
      rw [Nat.div_eq_of_lt this]; rfl
    · intro hb
      exact ⟨μ', g5 hb rfl, rfl, hne2, _, hz2', rfl, hlen2⟩

theorem zrel_of_forall {R : σ → Phase → Nat → Bytes → Prop} :
    ∀ {srcs : List σ} {cs : List (Nat × Bytes)}, List.Forall₂ (fun s c => R s (.idle 1) c.1 c.2) srcs cs →
      ZRel R srcs (cs.map Prod.fst).sum (cs.map Prod.snd) := by
  intro srcs cs h
  induction h with
  | nil => rfl
  | cons h _ ih => exact ⟨_, _, _, _, _, rfl, h, ih, by simp⟩

end Zipper

theorem ZipStream.delivers {S : ByteSrc σ} {F M} {B fuel ws : Nat} (hB : 0 < B) (hws : 0 < ws) {srcs : List σ}
    {cs : List (Nat × Bytes)} (h : List.Forall₂ (fun s c => Delivers S F M s c.1 c.2) srcs cs) (hne : srcs ≠ [])
    (hlen : ∀ c ∈ cs, c.2.length ≤ usizeMax) (hf : (cs.map Prod.fst).sum < fuel) :
    Delivers (byteSrc S B fuel) F NlMargin (ZipStream.new B srcs ws) (cs.map Prod.fst).sum
      (Spec.zip ws (cs.map Prod.snd)) := by
  have h' : List.Forall₂ (fun s c => Live S F M s (.idle 1) c.1 c.2) srcs cs := h
  refine buffered_delivers' (Zipper.feed_produces Live.faithful B ws hws) hB ⟨rfl, hne, _, Zipper.zrel_of_forall h', rfl, ?_⟩ hf
  intro r hr
  simp only [List.mem_map] at hr
  obtain ⟨c, hc, rfl⟩ := hr
  exact hlen c hc

end Nd
