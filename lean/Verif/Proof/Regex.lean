import Verif.Model.Regex
import Verif.Spec.Regex
import Verif.Proof.Whole
import Verif.Proof.SegTools
/-!
# `RegexSlicer` over a stream that is read at once
-/
namespace Nd
open Nd.Spec

theorem Seg.shift_zero (l : List Seg) : l.map (Seg.shift 0) = l := by
  induction l with
  | nil => rfl
  | cons x l ih => simp [ih, Seg.shift]

theorem takeWhile_all {p : α → Bool} : ∀ {l : List α}, (∀ x ∈ l, p x = true) → l.takeWhile p = l
  | [], _ => rfl
  | a :: l, h => by
    rw [List.takeWhile_cons, if_pos (h a List.mem_cons_self), takeWhile_all fun x hx => h x (List.mem_cons_of_mem _ hx)]

namespace RegexSlicer

/-- `ord`: the matches ascend; `ex`: no match is empty and at the end of the stream. -/
def kind (K : SegKind) (ord ex : Bool) : SegKind :=
  { full := true, exact := ex, honest := true, steady := true, early := true, moving := true, snap := true, strict := K.strict,
    policy := fun _ k => ord = true ∧ ∀ l, K.policy l k }

/-- The matches can be split at any place, or at least taken together. -/
def Fine (ord ex : Bool) (rem : Bytes) (ms : List Seg) : Prop :=
  (ord = true → Sorted ms) ∧ (ord = false → ex = true) ∧ (ex = true → ∀ x ∈ ms, x.pos < rem.length) ∧ ∀ x ∈ ms, x.tail ≤ rem.length

/-- Every later fill reports the end. -/
def Final (S : SegSrc σ) (s : σ) (n : Nat) : Prop :=
  ∀ k k' c s2 eof b ct m s3, S.consume s k = .ok ((k', c), s2) → k' ≤ n → S.fill s2 = .ok ((eof, b, ct, m), s3) → eof = true

def Inside (rem : Bytes) (segs : List Seg) : Prop := ∀ x ∈ segs, x.pos < rem.length ∧ x.tail ≤ rem.length

def Rel (find : Bytes → List Seg) (S : SegSrc σ) (F : Err → Prop) (R : σ → SegPhase → Nat → Bytes → List Seg → Prop) (ord ex : Bool) (st : RegexSlicer σ) : SegPhase → Nat → Bytes → List Seg → Prop
  | .idle lb, w, rem, ms => ∃ segs lb', R st.src (.idle lb') w rem segs ∧ Inside rem segs ∧ Fine ord ex rem ms ∧ lb ≤ ms.length ∧
      SegWhole S F st.src ∧ ((lb = 0 ∧ st.matches_ = [] ∧ st.scanned = 0 ∧ ms = searched find rem segs) ∨ (st.matches_ = ms ∧ rem.length ≤ st.scanned))
  | .lent eof count cap, w, rem, ms => ∃ segs, R st.src (.lent true segs.length cap) w rem segs ∧ Inside rem segs ∧ Fine ord ex rem ms ∧ eof = true ∧
      count = ms.length ∧ cap = rem.length ∧ st.matches_ = ms ∧ rem.length ≤ st.scanned ∧ (0 < rem.length → Final S st.src rem.length)
  | .done, w, rem, ms => R st.src .done w rem [] ∧ rem = [] ∧ Fine ord ex rem ms ∧ st.matches_ = ms

theorem scan_skip (find : Bytes → List Seg) (scanned : Nat) (stream : Bytes) : ∀ (segs : List Seg), (∀ x ∈ segs, x.pos < scanned) → scan find scanned stream segs = .ok []
  | [], _ => rfl
  | s :: rest, h => by
    rw [scan, if_pos (h s List.mem_cons_self), scan_skip find scanned stream rest fun x hx => h x (List.mem_cons_of_mem _ hx)]

theorem scan_all (find : Bytes → List Seg) (rem m : Bytes) : ∀ (segs : List Seg), (∀ x ∈ segs, x.tail ≤ rem.length) → scan find 0 (rem ++ m) segs = .ok (searched find rem segs)
  | [], _ => rfl
  | s :: rest, h => by
    have h1 := h s List.mem_cons_self
    have h2 := Seg.bytes_take s rem m rem.length (Nat.le_refl _) h1
    rw [List.take_length] at h2
    rw [scan, if_neg (by omega), if_neg (by rw [List.length_append]; omega), scan_all find rem m rest fun x hx => h x (List.mem_cons_of_mem _ hx), h2]
    rfl

theorem searched_tail {find : Bytes → List Seg} (hf : Searcher find) {rem : Bytes} {segs : List Seg} (h : ∀ x ∈ segs, x.tail ≤ rem.length) :
    ∀ x ∈ searched find rem segs, x.tail ≤ rem.length := by
  intro x hx
  obtain ⟨s, hs, hx⟩ := List.mem_flatMap.1 hx
  obtain ⟨m, hm, rfl⟩ := List.mem_map.1 hx
  have h1 := hf.within _ m hm
  have h2 := h s hs
  simp only [Seg.bytes, List.length_take, List.length_drop, Seg.tail] at h1 h2 ⊢
  omega

theorem fill_spec {find : Bytes → List Seg} {S : SegSrc σ} {K F R} {ord ex : Bool} (h : SegFaithful S K F R) (hk : SegKeeps S R) (hfull : K.full = true)
    (st : RegexSlicer σ) (lb w : Nat) (rem : Bytes) (ms : List Seg) (hR : Rel find S F R ord ex st (.idle lb) w rem ms) :
    (∃ e, F e ∧ (segSrc find S).fill st = .error e) ∨
    ∃ w' s', (segSrc find S).fill st = .ok ((true, rem.length, ms.length, rem.length), s') ∧ Rel find S F R ord ex s' (.lent true ms.length rem.length) w' rem ms ∧
      SegLent rem ms ((segSrc find S).slices s') rem.length ms.length ∧ w' ≤ w := by
  obtain ⟨segs, lb', hR, hin, hfine, hlb, hw, hst⟩ := hR
  simp only [segSrc, fill]
  rcases h.fill _ _ _ _ _ hR with ⟨e, hF, heq⟩ | ⟨eof, bytes, count, maxc, cap, w', s', heq, hR', hl, hcap, _, hmax, heof, _, hw', _⟩
  · exact Or.inl ⟨e, hF, by rw [heq]⟩
  have he : eof = true := by
    rcases hw with ⟨e, _, h'⟩ | ⟨_, _, _, _, h'⟩
    · rw [h'] at heq; cases heq
    · rw [h'] at heq; cases heq; rfl
  subst he
  obtain ⟨rfl, rfl, hb⟩ := heof rfl
  have hb := hb hfull
  subst hb
  have hmx : maxc = rem.length := by
    rcases hmax with h | ⟨_, h, _⟩
    · exact h
    · cases h
  subst hmx
  obtain ⟨avail, ha1, ha2, ha3, ha4⟩ := hl.bytes_eq
  have hav : avail = rem.length := by omega
  subst hav
  have hsl : (S.slices s').2 = segs := by rw [hl.segs_eq, List.take_length]
  right
  have hfin : Final S s' rem.length := fun k k' c s2 eof b ct m s3 h1 h2 h3 => (hk.keep _ _ _ _ _ _ _ _ _ _ _ _ _ _ _ _ _ _ _ hR heq h1 h2 h3).1 rfl
  have hscan : ∃ ms', scan find st.scanned (S.slices s').1 segs = .ok ms' ∧ st.matches_ ++ ms' = ms ∧ rem.length ≤ st.scanned + rem.length := by
    rcases hst with ⟨_, h1, h2, h3⟩ | ⟨h1, h2⟩
    · refine ⟨ms, ?_, by rw [h1]; rfl, by omega⟩
      rw [h2, h3]
      by_cases h0 : 0 < rem.length
      · obtain ⟨m, _, hm⟩ := ha3 h0
        rw [hm, List.take_length]
        exact scan_all find rem m segs fun x hx => (hin x hx).2
      · have : segs = [] := by
          cases segs with
          | nil => rfl
          | cons x _ => exact absurd (hin x List.mem_cons_self).1 (by omega)
        subst this
        rfl
    · exact ⟨[], scan_skip find _ _ _ fun x hx => by have := (hin x hx).1; omega, by simp [h1], by omega⟩
  obtain ⟨ms', hs1, hs2, hs3⟩ := hscan
  refine ⟨w', { src := s', matches_ := st.matches_ ++ ms', scanned := st.scanned + rem.length }, ?_, ?_, ?_, hw'⟩
  · rw [heq]
    simp only
    rw [if_neg (by rw [hsl]; omega), hsl, List.take_length, hs1]
    simp only [hs2]
  · exact ⟨segs, hR', hin, hfine, rfl, rfl, rfl, hs2, hs3, fun _ => hfin⟩
  · refine ⟨Nat.le_refl _, by simp only [hs2, List.take_length], rem.length, Nat.le_refl _, Nat.le_refl _, ha3, ?_⟩
    rw [List.take_length]
    exact hfine.2.2.2

theorem consume_spec {find : Bytes → List Seg} {S : SegSrc σ} {K F R} {ord ex : Bool} (h : SegFaithful S K F R)
    (st : RegexSlicer σ) (eof : Bool) (count cap w : Nat) (rem : Bytes) (ms : List Seg) (k : Nat) (hR : Rel find S F R ord ex st (.lent eof count cap) w rem ms)
    (hk : (cap = 0 ∧ K.strict = false) ∨ k = cap ∨ (k ≤ cap ∧ (kind K ord ex).policy (ms.take count) k)) :
    ∃ k' c w' s', (segSrc find S).consume st k = .ok ((k', c), s') ∧ k' ≤ k ∧ k' ≤ cap ∧ c ≤ count ∧
      (∀ x ∈ ms.take c, x.pos < k') ∧ (∀ x ∈ ms.drop c, k' ≤ x.pos) ∧
      Rel find S F R ord ex s' (if eof = true ∧ k' = cap then .done else .idle (count - c)) w' (rem.drop k') ((ms.drop c).map (Seg.shift k')) ∧
      w' ≤ w ∧ (k = cap → k' = cap) := by
  obtain ⟨segs, hR, hin, hfine, rfl, rfl, rfl, hms, hsc, hfin⟩ := hR
  obtain ⟨k', c, w', s2, heq, h1, h2, h3, h4, h5, h6, h7, h8, _⟩ := h.consume _ _ _ _ _ _ _ k hR (by
    rcases hk with h | h | ⟨h, _, h'⟩
    · exact Or.inl h
    · exact Or.inr (Or.inl h)
    · exact Or.inr (Or.inr ⟨h, h' _⟩))
  simp only [true_and] at h6 ⊢
  -- the slices that are left
  have hin' : Inside (rem.drop k') ((segs.drop c).map (Seg.shift k')) := by
    intro x hx
    obtain ⟨y, hy, rfl⟩ := List.mem_map.1 hx
    have a1 := h5 y hy
    have a2 := hin y (List.mem_of_mem_drop hy)
    rw [Seg.shift_tail _ _ a1]
    simp only [Seg.shift, List.length_drop]
    omega
  have hdone : k' = rem.length → (segs.drop c).map (Seg.shift k') = [] := by
    intro hk'
    cases hd : segs.drop c with
    | nil => rfl
    | cons y ys =>
      have hy : y ∈ segs.drop c := by rw [hd]; exact List.mem_cons_self
      have a1 := h5 y hy
      have a2 := hin y (List.mem_of_mem_drop hy)
      omega
  -- the cut in the matches
  have hcut : ∃ d, (k' ≠ 0 → cutSegs k' st.matches_ = .ok (d, (ms.drop d).map (Seg.shift k'))) ∧ d ≤ ms.length ∧ (∀ x ∈ ms.take d, x.pos < k') ∧ (∀ x ∈ ms.drop d, k' ≤ x.pos) ∧ (k' = 0 → d = 0) := by
    by_cases h0 : k' = 0
    · exact ⟨0, fun h => absurd h0 h, Nat.zero_le _, by simp, fun _ _ => by omega, fun _ => rfl⟩
    · rw [hms]
      cases hord : ord with
      | true =>
        obtain ⟨d, a1, a2, a3, a4⟩ := cutSegs_spec k' ms (hfine.1 hord)
        exact ⟨d, fun _ => a1, a2, a3, a4, fun h => absurd h h0⟩
      | false =>
        have hk' : k' = rem.length := by
          rcases hk with h | h | ⟨_, h, _⟩
          · omega
          · exact h8 rfl h
          · rw [hord] at h; cases h
        have hall : ∀ x ∈ ms, x.pos < k' := by
          rw [hk']
          exact hfine.2.2.1 (hfine.2.1 hord)
        refine ⟨ms.length, fun _ => ?_, Nat.le_refl _, ?_, by simp, fun h => absurd h h0⟩
        · rw [cutSegs, takeWhile_all fun x hx => by simpa using hall x hx]
          simp [unwindAll]
        · rw [List.take_length]; exact hall
  obtain ⟨d, hd0, hd1, hd2, hd3, hd4⟩ := hcut
  have hfine' : Fine ord ex (rem.drop k') ((ms.drop d).map (Seg.shift k')) := by
    refine ⟨fun ho => (hfine.1 ho).shift d k', hfine.2.1, fun he x hx => ?_, fun x hx => ?_⟩
    · obtain ⟨y, hy, rfl⟩ := List.mem_map.1 hx
      have a1 := hd3 y hy
      have a2 := hfine.2.2.1 he y (List.mem_of_mem_drop hy)
      simp only [Seg.shift, List.length_drop]
      omega
    · obtain ⟨y, hy, rfl⟩ := List.mem_map.1 hx
      have a1 := hd3 y hy
      have a2 := hfine.2.2.2 y (List.mem_of_mem_drop hy)
      rw [Seg.shift_tail _ _ a1, List.length_drop]
      omega
  have hex : ∃ s', (segSrc find S).consume st k = .ok ((k', d), s') ∧ s'.src = s2 ∧ s'.matches_ = (ms.drop d).map (Seg.shift k') ∧ rem.length - k' ≤ s'.scanned := by
    simp only [segSrc, heq]
    by_cases h0 : k' = 0
    · have hd := hd4 h0
      subst h0
      subst hd
      exact ⟨_, by rw [if_pos rfl], rfl, by rw [List.drop_zero, Seg.shift_zero]; exact hms, by simp only; omega⟩
    · rw [if_neg h0, hd0 h0, ckSub, if_pos (by omega)]
      exact ⟨_, rfl, rfl, rfl, by simp only; omega⟩
  obtain ⟨s', e1, e2, e3, e4⟩ := hex
  refine ⟨k', d, w', s', e1, h1, h2, hd1, hd2, hd3, ?_, h7, fun h => h8 rfl h⟩
  by_cases hk' : k' = rem.length
  · rw [if_pos hk'] at h6 ⊢
    rw [hdone hk'] at h6
    exact ⟨by rw [e2]; exact h6, by rw [hk', List.drop_length], hfine', e3⟩
  · rw [if_neg hk'] at h6 ⊢
    refine ⟨_, _, by rw [e2]; exact h6, hin', hfine', by simp, ?_, Or.inr ⟨e3, by rw [List.length_drop]; omega⟩⟩
    rw [e2]
    rcases h.fill _ _ _ _ _ h6 with ⟨e, hF, hf⟩ | ⟨eof, bytes, count, maxc, cap, _, s3, hf, _⟩
    · exact Or.inl ⟨e, hF, hf⟩
    · have := hfin (by omega) _ _ _ _ _ _ _ _ _ heq h2 hf
      subst this
      exact Or.inr ⟨_, _, _, _, hf⟩

theorem faithful {find : Bytes → List Seg} {S : SegSrc σ} {K F R} (ord ex : Bool) (h : SegFaithful S K F R) (hk : SegKeeps S R) (hfull : K.full = true) :
    SegFaithful (segSrc find S) (kind K ord ex) F (Rel find S F R ord ex) := by
  constructor
  · intro st lb w rem ms hR
    rcases fill_spec h hk hfull st lb w rem ms hR with h' | ⟨w', s', h1, h2, h3, h4⟩
    · exact Or.inl h'
    · have hlb : lb ≤ ms.length := hR.choose_spec.choose_spec.2.2.2.1
      have hf : Fine ord ex rem ms := hR.choose_spec.choose_spec.2.2.1
      refine Or.inr ⟨true, _, _, _, _, w', s', h1, h2, h3, Nat.le_refl _, by simp, Or.inl rfl, fun _ => ⟨rfl, rfl, fun _ => rfl⟩, fun _ x hx => ?_, h4, by simp, fun _ => hlb, by simp⟩
      have := hf.2.2.2 x (List.mem_of_mem_take hx)
      simp only [Seg.tail] at this
      omega
  · intro st eof count cap w rem ms k hR hkk
    obtain ⟨k', c, w', s', h1, h2, h3, h4, h5, h6, h7, h8, h9⟩ := consume_spec h st eof count cap w rem ms k hR hkk
    obtain ⟨segs, _, _, hfine, rfl, rfl, rfl, _⟩ := hR
    refine ⟨k', c, w', s', h1, h2, h3, h4, h5, h6, h7, h8, fun _ => h9, fun he hle => ?_, by simp⟩
    by_cases h0 : rem.length = 0
    · have : ms = [] := by
        cases ms with
        | nil => rfl
        | cons x _ => exact absurd (hfine.2.2.1 he x List.mem_cons_self) (by omega)
      subst this
      simpa using h4
    · have hk' : k' = rem.length := by
        rcases hkk with h | h | ⟨h, _⟩
        · exact absurd h.1 h0
        · exact h9 h
        · exact h9 (by omega)
      exact cut_all h6 h4 fun x hx => by rw [hk']; exact hfine.2.2.1 he x hx
  · rintro st w rem ms ⟨hR, rfl, hfine, hms⟩
    simp only [segSrc, fill]
    rcases h.rest _ _ _ _ hR with ⟨e, hF, heq⟩ | ⟨w', s', heq, hR', hl, hw⟩
    · exact Or.inl ⟨e, hF, by rw [heq]⟩
    · right
      refine ⟨w', { src := s', matches_ := st.matches_, scanned := st.scanned + 0 }, ?_, ⟨[], hR', fun x hx => by simp at hx, hfine, rfl, rfl, rfl, hms, Nat.zero_le _, by simp⟩, ?_, hw⟩
      · rw [heq]
        simp [scan, hms]
      · refine ⟨Nat.le_refl _, by simp only [hms, List.take_length], 0, Nat.le_refl _, Nat.zero_le _, by omega, fun x hx => hfine.2.2.2 x (List.mem_of_mem_take hx)⟩

theorem fill_inv {find : Bytes → List Seg} {S : SegSrc σ} {st st' : RegexSlicer σ} {eof b c m} (h : (segSrc find S).fill st = .ok ((eof, b, c, m), st')) :
    ∃ c', S.fill st.src = .ok ((eof, b, c', m), st'.src) := by
  simp only [segSrc, fill] at h
  split at h
  · cases h
  · rename_i heq
    split at h
    · cases h
    · split at h
      · cases h
      · cases h
        exact ⟨_, heq⟩

theorem consume_inv {find : Bytes → List Seg} {S : SegSrc σ} {st st' : RegexSlicer σ} {k k' c} (h : (segSrc find S).consume st k = .ok ((k', c), st')) :
    ∃ c', S.consume st.src k = .ok ((k', c'), st'.src) := by
  simp only [segSrc] at h
  split at h
  · cases h
  · rename_i heq
    split at h
    · rename_i h0
      cases h
      subst h0
      exact ⟨_, heq⟩
    · split at h
      · cases h
        exact ⟨_, heq⟩
      · cases h

theorem keeps {find : Bytes → List Seg} {S : SegSrc σ} {K F R} (ord ex : Bool) (h : SegFaithful S K F R) (hk : SegKeeps S R) (hfull : K.full = true) :
    SegKeeps (segSrc find S) (Rel find S F R ord ex) := by
  have hf : ∀ st lb w rem ms eof b c m s', Rel find S F R ord ex st (.idle lb) w rem ms → (segSrc find S).fill st = .ok ((eof, b, c, m), s') → eof = true := by
    intro st lb w rem ms eof b c m s' hR heq
    rcases fill_spec h hk hfull st lb w rem ms hR with ⟨e, _, h'⟩ | ⟨w', s', h', _⟩
    · rw [h'] at heq; cases heq
    · rw [h'] at heq; cases heq; rfl
  refine ⟨fun st lb w rem ms b c m s' hR heq => ?_, ?_⟩
  · cases hf _ _ _ _ _ _ _ _ _ _ hR heq
  · intro st lb w rem ms eof b c m s1 k k' c1 s2 eof' b' c' m' s3 hR h1 h2 h3 h4
    obtain ⟨_, g1⟩ := fill_inv h1
    obtain ⟨_, g2⟩ := consume_inv h2
    obtain ⟨_, g4⟩ := fill_inv h4
    have he := hf _ _ _ _ _ _ _ _ _ _ hR h1
    subst he
    obtain ⟨segs, lb', hR, _⟩ := hR
    exact ⟨fun h => (hk.keep _ _ _ _ _ _ _ _ _ _ _ _ _ _ _ _ _ _ _ hR g1 g2 h3 g4).1 h, (hk.keep _ _ _ _ _ _ _ _ _ _ _ _ _ _ _ _ _ _ _ hR g1 g2 h3 g4).2⟩

theorem serves {find : Bytes → List Seg} (hf : Searcher find) {S : SegSrc σ} {K F} {s : σ} {w : Nat} {content : Bytes} {segs : List Seg} (h : SegServes S K F s w content segs)
    (hfull : K.full = true) (hw : SegWhole S F s) (hin : ∀ x ∈ segs, 0 < x.len ∧ x.tail ≤ content.length) (ord ex : Bool) (hoe : ord = false → ex = true)
    (ho : ord = true → Sorted (searched find content segs)) (he : ex = true → ∀ x ∈ searched find content segs, x.pos < content.length) :
    SegServes (segSrc find S) (kind K ord ex) F (new s) w content (searched find content segs) := by
  obtain ⟨R, h1, h2, h3⟩ := h
  refine ⟨_, faithful ord ex h1 h2 hfull, keeps ord ex h1 h2 hfull, segs, 0, h3, fun x hx => ?_, ⟨ho, hoe, he, searched_tail hf fun x hx => (hin x hx).2⟩, Nat.zero_le _, hw, Or.inl ⟨rfl, rfl, rfl, rfl⟩⟩
  have := hin x hx
  simp only [Seg.tail] at this ⊢
  omega

end RegexSlicer
end Nd
