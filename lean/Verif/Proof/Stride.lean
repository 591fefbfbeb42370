import Verif.Model.Stride
import Verif.Proof.Segment
import Verif.Proof.Ample
/-!
# The constant-stride slicer delivers equally spaced slices
-/
namespace Nd

/-! ## Equally spaced slices -/

/-- The `j`-th of the slices `[base + j * P, base + j * P + S)` clipped to `[0, n)`. -/
def cseg (base : Int) (P S n : Nat) (j : Nat) : Seg :=
  { pos := (base + j * P).toNat, len := (min (base + j * P + S) n - max 0 (base + j * P)).toNat }

/-- The same slice, clipped only on the left. -/
def useg (base : Int) (P S : Nat) (j : Nat) : Seg :=
  { pos := (base + j * P).toNat, len := (base + j * P + S - max 0 (base + j * P)).toNat }

/-- How many `j` there are with `base + j * P + M ≤ n`. -/
def ccount (base : Int) (P M n : Nat) : Nat := ((n - base - M) / P + 1).toNat

def comb (base : Int) (P S M n : Nat) : List Seg := (List.range (ccount base P M n)).map (cseg base P S n)

theorem lt_ccount {base : Int} {P M n j : Nat} (hP : 0 < P) : j < ccount base P M n ↔ base + j * P + M ≤ n := by
  unfold ccount
  have h : (j : Int) ≤ (n - base - M) / P ↔ (j : Int) * P ≤ n - base - M := Int.le_ediv_iff_mul_le (by omega)
  constructor
  · intro hj
    have := h.1 (by omega)
    omega
  · intro hj
    have := h.2 (by omega)
    omega

theorem comb_length (base : Int) (P S M n : Nat) : (comb base P S M n).length = ccount base P M n := by simp [comb]

theorem succ_mul_int (j P : Nat) : ((j + 1 : Nat) : Int) * P = j * P + P := by
  rw [Int.natCast_add, Int.add_mul]; simp

theorem mul_le_int {a b : Nat} (P : Nat) (h : a ≤ b) : (a : Int) * P ≤ b * P := by
  exact Int.mul_le_mul_of_nonneg_right (by omega) (by omega)

theorem ccount_shift {base : Int} {P M n : Nat} (hP : 0 < P) (c k : Nat) (hk : k ≤ n) :
    ccount (base + c * P - k) P M (n - k) = ccount base P M n - c := by
  have key : ∀ j, j < ccount (base + c * P - k) P M (n - k) ↔ j < ccount base P M n - c := by
    intro j
    rw [lt_ccount hP]
    have : j < ccount base P M n - c ↔ j + c < ccount base P M n := by omega
    rw [this, lt_ccount hP, Int.natCast_add, Int.add_mul, Int.ofNat_sub hk]
    omega
  have h1 := key (ccount base P M n - c)
  have h2 := key (ccount (base + c * P - k) P M (n - k))
  omega

theorem comb_drop {base : Int} {P S M n : Nat} (hP : 0 < P) (c k : Nat) (hk : k ≤ n) (hc : (k : Int) ≤ base + c * P) :
    ((comb base P S M n).drop c).map (Seg.shift k) = comb (base + c * P - k) P S M (n - k) := by
  apply List.ext_getElem
  · simp [comb, ccount_shift hP c k hk]
  · intro j h1 h2
    simp only [comb, List.getElem_map, List.getElem_drop, List.getElem_range, cseg, Seg.shift, Int.natCast_add, Int.add_mul,
      Int.ofNat_sub hk]
    have h0 : 0 ≤ (j : Int) * P := Int.mul_nonneg (by omega) (by omega)
    refine congr (congrArg Seg.mk ?_) ?_
    · omega
    · omega

theorem cseg_eq_useg {base : Int} {P S n j : Nat} (h : base + j * P + S ≤ n) : cseg base P S n j = useg base P S j := by
  unfold cseg useg
  congr 2
  omega

theorem comb_mem {base : Int} {P S M n : Nat} {x : Seg} : x ∈ comb base P S M n ↔ ∃ j < ccount base P M n, cseg base P S n j = x := by
  simp [comb]

/-! ## The state of the slicer -/

namespace ConstSegments

/-- The invariant: the next slices start at `base`, `base + P`, ... -/
structure Inv (s : ConstSegments) (base : Int) (P S M esc n : Nat) (eof : Bool) : Prop where
  pitch : s.pitch = P
  span : s.span = S
  margin : s.tailMargin = M
  res : s.reserved = P
  P_pos : 0 < P
  M_pos : 0 < M
  M_le : M ≤ S
  base_eq : base = (s.curr : Int) - s.off
  off : ∃ q : Nat, s.off = q * P ∧ (q = 0 ∨ s.curr < P)
  tail_pos : 0 < base + S
  margin_ok : 0 < base + M
  steps : 0 < base + 15 * P
  head : base < 0 → 0 < s.minEscape ∨ (eof = true ∧ n = 0)
  headOff : 0 < s.off → eof = false → 0 < s.minEscape
  esc_le : s.minEscape ≤ esc ∧ (s.minEscape : Int) ≤ base + S
  first : s.curr < P ∨ s.curr ≤ esc
  cached : eof = false → s.segments = (List.range s.segments.length).map (useg base P S)
  eof_eq : s.isEof = eof

theorem clipLoop_spec {s : ConstSegments} {base : Int} {P S M n : Nat} (hs : s.span = S) (hm : s.tailMargin = M) (hp : s.pitch = P)
    (hP : 0 < P) (hM : 0 < M) (hb : 0 < base + S) : ∀ (fuel j : Nat), j ≤ ccount base P M n →
    0 < fuel → n + S < fuel + (base + j * P + S).toNat →
    clipLoop s n fuel (base + j * P + S).toNat ((List.range j).map (cseg base P S n)) = .ok (comb base P S M n)
  | 0, j, hj, hf, _ => absurd hf (by omega)
  | fuel + 1, j, hj, _, hf => by
    have h0 : 0 ≤ (j : Int) * P := Int.mul_nonneg (by omega) (by omega)
    unfold clipLoop
    rw [hs, hm, hp]
    by_cases hc : j < ccount base P M n
    · have hle := (lt_ccount hP).1 hc
      rw [if_pos (by omega)]
      have hsub : ckSub (min (base + j * P + S).toNat n) ((base + j * P + S).toNat - S) = .ok (cseg base P S n j).len := by
        unfold ckSub cseg
        rw [if_pos (by omega)]
        congr 1
        simp only
        omega
      rw [hsub]
      simp only
      have hpos : (base + j * P + S).toNat - S = (cseg base P S n j).pos := by simp only [cseg]; omega
      rw [hpos]
      have hnext : (base + j * P + S).toNat + P = (base + (j + 1 : Nat) * P + S).toNat := by rw [succ_mul_int]; omega
      rw [hnext]
      have := clipLoop_spec hs hm hp hP hM hb fuel (j + 1) hc (by omega) (by rw [succ_mul_int]; omega)
      rw [List.range_succ, List.map_append] at this
      exact this
    · have : j = ccount base P M n := by omega
      have hn : ¬ (base + j * P + M ≤ n) := fun h => hc ((lt_ccount hP).2 h)
      rw [if_neg (by omega), this]
      rfl

/-- The loop without clipping stops at the first slice that comes too close to the end of what is lent. -/
theorem extendLoop_spec {s : ConstSegments} {base : Int} {P S n : Nat} (hs : s.span = S) (hr : s.reserved = P) (hp : s.pitch = P)
    (hP : 0 < P) (hb : 0 < base + S) : ∀ (fuel j : Nat), 0 < fuel → n < fuel + (base + j * P + S).toNat →
    ∃ j', j ≤ j' ∧ (j < j' → base + j' * P + S ≤ n) ∧ (n : Int) < base + j' * P + S + P ∧
      extendLoop s n fuel (base + j * P + S).toNat ((List.range j).map (useg base P S)) =
        .ok ((List.range j').map (useg base P S), (base + j' * P + S).toNat)
  | 0, j, hf, _ => absurd hf (by omega)
  | fuel + 1, j, _, hf => by
    have h0 : 0 ≤ (j : Int) * P := Int.mul_nonneg (by omega) (by omega)
    unfold extendLoop
    rw [hs, hr, hp]
    by_cases hc : base + j * P + S + P ≤ n
    · rw [if_pos (by omega)]
      have hu : ({ pos := (base + j * P + S).toNat - S, len := (base + j * P + S).toNat - ((base + j * P + S).toNat - S) } : Seg) = useg base P S j := by
        unfold useg
        refine congr (congrArg Seg.mk ?_) ?_ <;> omega
      rw [hu]
      have hnext : (base + j * P + S).toNat + P = (base + (j + 1 : Nat) * P + S).toNat := by rw [succ_mul_int]; omega
      rw [hnext]
      obtain ⟨j', h1, h2, h3, h4⟩ := extendLoop_spec (n := n) hs hr hp hP hb fuel (j + 1) (by omega) (by rw [succ_mul_int]; omega)
      refine ⟨j', by omega, fun _ => ?_, h3, ?_⟩
      · by_cases he : j + 1 = j'
        · subst he; rw [succ_mul_int]; omega
        · exact h2 (by omega)
      · rw [List.range_succ, List.map_append] at h4
        exact h4
    · rw [if_neg (by omega)]
      exact ⟨j, Nat.le_refl _, fun h => absurd h (Nat.lt_irrefl _), by omega, rfl⟩

theorem Inv.nextTail {s : ConstSegments} {base P S M esc n eof} (h : Inv s base P S M esc n eof)
    (hc : s.segments = (List.range s.segments.length).map (useg base P S)) :
    s.nextTail = .ok (base + s.segments.length * P + S).toNat := by
  have htp := h.tail_pos
  unfold ConstSegments.nextTail
  cases hl : s.segments.length with
  | zero =>
    have : s.segments = [] := List.length_eq_zero_iff.1 hl
    rw [this]
    simp only [List.getLast?_nil, ckSub]
    have := h.base_eq
    have := h.span
    rw [if_pos (by omega)]
    congr 1
    simp only [Int.natCast_zero, Int.zero_mul]
    omega
  | succ m =>
    rw [hl, List.range_succ, List.map_append] at hc
    have h0 : 0 ≤ (m : Int) * P := Int.mul_nonneg (by omega) (by omega)
    rw [hc]
    simp only [List.map_cons, List.map_nil, List.getLast?_append, List.getLast?_singleton, Option.some_or]
    congr 1
    rw [h.pitch, succ_mul_int]
    simp only [useg, Seg.tail]
    omega

theorem ceil_spec (x P : Nat) (hP : 0 < P) : x ≤ (x + P - 1) / P * P ∧ (x + P - 1) / P * P < x + P := by
  have h1 := Nat.div_add_mod (x + P - 1) P
  have h2 := Nat.mod_lt (x + P - 1) hP
  rw [Nat.mul_comm] at h1
  omega

theorem Inv.fill_eof {s : ConstSegments} {base P S M esc n e} (h : Inv s base P S M esc n e) :
    ∃ s', s.fill true n = .ok s' ∧ s'.segments = comb base P S M n ∧ s'.lend = (n, ccount base P M n) ∧
      Inv s' base P S M esc n true ∧ s'.minEscape ≤ n := by
  have h1 : Inv { s with isEof := true, minEscape := min n s.minEscape, segments := [] } base P S M esc n true := by
    refine ⟨h.pitch, h.span, h.margin, h.res, h.P_pos, h.M_pos, h.M_le, h.base_eq, h.off, h.tail_pos, h.margin_ok, h.steps, ?_, by simp, ?_, h.first, by simp, rfl⟩
    · intro hb
      simp only
      rcases h.head hb with hh | ⟨_, hh⟩
      · by_cases hn : n = 0
        · exact Or.inr ⟨trivial, hn⟩
        · left; omega
      · exact Or.inr ⟨trivial, hh⟩
    · have := h.esc_le; simp only; omega
  unfold ConstSegments.fill
  rw [if_pos rfl]
  simp only
  rw [h1.nextTail rfl]
  simp only
  have htp := h.tail_pos
  have hsp := h.span
  have := clipLoop_spec (n := n) h1.span h1.margin h1.pitch h.P_pos h.M_pos h.tail_pos (n + s.span + 2) 0 (Nat.zero_le _) (by omega)
    (by simp only [Int.natCast_zero, Int.zero_mul]; omega)
  simp only [List.range_zero, List.map_nil] at this
  simp only [List.length_nil]
  rw [this]
  refine ⟨_, rfl, rfl, ?_, ?_, ?_⟩
  · simp [comb_length]
  · exact ⟨h1.pitch, h1.span, h1.margin, h1.res, h1.P_pos, h1.M_pos, h1.M_le, h1.base_eq, h1.off, h1.tail_pos, h1.margin_ok, h1.steps, h1.head, h1.headOff, h1.esc_le, h1.first, by simp, rfl⟩
  · simp only; omega

theorem Inv.withSegs {s : ConstSegments} {base P S M esc n} (h : Inv s base P S M esc n false) (j : Nat) (l : Nat × Nat) :
    Inv { s with segments := (List.range j).map (useg base P S), lend := l } base P S M esc n false :=
  ⟨h.pitch, h.span, h.margin, h.res, h.P_pos, h.M_pos, h.M_le, h.base_eq, h.off, h.tail_pos, h.margin_ok, h.steps, h.head, h.headOff, h.esc_le, h.first,
    fun _ => by simp, h.eof_eq⟩

theorem Inv.fill_more {s : ConstSegments} {base P S M esc n} (h : Inv s base P S M esc n false) (len : Nat)
    (hL : base + S ≤ len + P) :
    ∃ (cnt m : Nat) (s' : ConstSegments), s.fill false len = .ok s' ∧ s'.lend = (min (base + cnt * P).toNat len, cnt) ∧ cnt ≤ m ∧
      s'.segments = (List.range m).map (useg base P S) ∧ (0 < cnt → base + cnt * P + S ≤ len + P) ∧
      (len : Int) < base + cnt * P + S + P ∧ s'.minEscape = s.minEscape ∧
      Inv s' base P S M esc n false ∧
      (∀ lb : Nat, (lb ≤ s.segments.length ∧ base + lb * P + S ≤ len + P) ∨ base + lb * P + S ≤ len ∨ lb = 0 → lb ≤ cnt) ∧
      (base + s.segments.length * P + S ≤ len → base + m * P + S ≤ len) := by
  have hP := h.P_pos
  have htp := h.tail_pos
  have hsp := h.span
  have hpi := h.pitch
  have hre := h.res
  have hcur := h.first
  have hbase := h.base_eq
  have hseg := h.cached rfl
  unfold ConstSegments.fill
  rw [if_neg (by simp), h.nextTail hseg]
  simp only
  rw [hre]
  obtain ⟨m, hm⟩ : ∃ m, m = s.segments.length := ⟨_, rfl⟩
  rw [← hm] at hseg ⊢
  have h0 : 0 ≤ (m : Int) * P := Int.mul_nonneg (by omega) (by omega)
  have reach : ∀ cnt lb : Nat, (len : Int) < base + cnt * P + S + P → ((m ≤ cnt ∨ (len : Int) < base + cnt * P + S) ∧ lb ≤ m ∧ base + lb * P + S ≤ len + P) ∨
      base + lb * P + S ≤ len ∨ lb = 0 → lb ≤ cnt := by
    intro cnt lb hc hlb
    rcases Nat.lt_or_ge cnt lb with hlt | hge
    · exfalso
      have h1 := mul_le_int P (show cnt + 1 ≤ lb by omega)
      rw [succ_mul_int] at h1
      omega
    · exact hge
  by_cases c1 : (base + m * P + S).toNat + P ≤ len
  · rw [if_pos c1]
    obtain ⟨j', h1, h2, h3, h4⟩ := extendLoop_spec (n := len) hsp hre hpi hP htp (len + s.span + 2) m (by omega) (by omega)
    rw [hseg, h4]
    refine ⟨j', j', _, rfl, ?_, Nat.le_refl _, rfl, ?_, h3, rfl,
      ⟨h.pitch, h.span, h.margin, rfl, h.P_pos, h.M_pos, h.M_le, h.base_eq, h.off, h.tail_pos, h.margin_ok, h.steps, h.head, h.headOff, h.esc_le, h.first,
        fun _ => by simp [updateLend], h.eof_eq⟩, fun lb hlb => reach j' lb h3 (by omega), ?_⟩
    · have h0' : 0 ≤ (j' : Int) * P := Int.mul_nonneg (by omega) (by omega)
      simp only [updateLend, List.length_map, List.length_range, hsp]
      congr 2
      omega
    · intro _
      by_cases he : m = j'
      · subst he; omega
      · have := h2 (by omega); omega
    · intro hle
      by_cases he : m = j'
      · subst he; omega
      · exact h2 (by omega)
  · rw [if_neg c1, hpi]
    have hs : s = { s with segments := (List.range m).map (useg base P S) } := by rw [← hseg]
    by_cases c2 : (base + m * P + S).toNat + P ≤ len + P
    · rw [if_pos c2]
      refine ⟨m, m, _, rfl, ?_, Nat.le_refl _, hseg, ?_, ?_, rfl, ?_, fun lb hlb => reach m lb (by omega) (by omega), fun hle => hle⟩
      · simp only [updateLend, hsp]
        congr 2
        omega
      · intro _; omega
      · omega
      · have := h.withSegs m (min ((base + m * P + S).toNat - s.span) len, m)
        rw [← hseg] at this
        exact this
    · rw [if_neg c2]
      obtain ⟨x1, x2⟩ := ceil_spec ((base + m * P + S).toNat - (len + P)) P hP
      simp only [countSegments, hpi]
      obtain ⟨ex, hex⟩ : ∃ ex, ex = ((base + m * P + S).toNat - (len + P) + P - 1) / P := ⟨_, rfl⟩
      rw [← hex] at x1 x2 ⊢
      have x1' : (((base + m * P + S).toNat - (len + P) : Nat) : Int) ≤ ex * P := by rw [← Int.natCast_mul]; omega
      have x2' : (ex : Int) * P < ((base + m * P + S).toNat - (len + P) : Nat) + P := by rw [← Int.natCast_mul]; omega
      have hexm : ex ≤ m := by
        by_cases hgt : ex ≤ m
        · exact hgt
        · have := mul_le_int P (show m + 1 ≤ ex by omega)
          rw [succ_mul_int] at this
          omega
      have hc1 : ckSub (base + m * P + S).toNat (ex * P) = .ok ((base + (m - ex : Nat) * P + S).toNat) := by
        have : ((m - ex : Nat) : Int) * P = m * P - ex * P := by rw [Int.ofNat_sub hexm, Int.sub_mul]
        have h0' : 0 ≤ ((m - ex : Nat) : Int) * P := Int.mul_nonneg (by omega) (by omega)
        unfold ckSub
        rw [if_pos (by
          have : (ex : Int) * P = ((ex * P : Nat) : Int) := by rw [Int.natCast_mul]
          omega)]
        congr 1
        rw [this]
        have : (ex : Int) * P = ((ex * P : Nat) : Int) := by rw [Int.natCast_mul]
        omega
      have hc2 : ckSub m ex = .ok (m - ex) := by unfold ckSub; rw [if_pos hexm]
      rw [hc1, hc2]
      have hmul : ((m - ex : Nat) : Int) * P = m * P - ex * P := by rw [Int.ofNat_sub hexm, Int.sub_mul]
      refine ⟨m - ex, m, _, rfl, ?_, by omega, hseg, ?_, ?_, rfl, ?_, fun lb hlb => ?_, fun hle => hle⟩
      rotate_right
      · have : m - ex = m ∨ (len : Int) < base + (m - ex : Nat) * P + S := by
          by_cases hx : (base + m * P + S).toNat ≤ len + P
          · left
            rcases Nat.eq_zero_or_pos ex with h0 | h0
            · omega
            · have := Nat.mul_le_mul_right P (show 1 ≤ ex by omega)
              omega
          · right; omega
        exact reach (m - ex) lb (by omega) (by omega)
      · simp only [updateLend, hsp]
        congr 2
        omega
      · intro _; omega
      · omega
      · have := h.withSegs m (min ((base + (m - ex : Nat) * P + S).toNat - s.span) len, m - ex)
        rw [← hseg] at this
        exact this

theorem phase_spec (k curr q P : Nat) (hP : 0 < P) (hq : q = 0 ∨ curr < P) :
    k + (if k ≤ curr then curr - k else if (k - curr) % P = 0 then 0 else P - (k - curr) % P) + q * P =
      (k + q * P - curr + P - 1) / P * P + curr := by
  obtain ⟨c1, c2⟩ := ceil_spec (k + q * P - curr) P hP
  obtain ⟨c, hc⟩ : ∃ c, c = (k + q * P - curr + P - 1) / P := ⟨_, rfl⟩
  rw [← hc] at c1 c2 ⊢
  have uniq : ∀ d x : Nat, x ≤ c * P → c * P < x + P → x ≤ d * P → d * P < x + P → c = d := by
    intro d x h1 h2 h3 h4
    have hcd : c * P < (d + 1) * P := by rw [Nat.add_mul]; omega
    have hdc : d * P < (c + 1) * P := by rw [Nat.add_mul]; omega
    have := Nat.lt_of_mul_lt_mul_right hcd
    have := Nat.lt_of_mul_lt_mul_right hdc
    omega
  by_cases hk : k ≤ curr
  · rw [if_pos hk]
    have : c = q := by
      rcases hq with hq | hq
      · subst hq
        apply uniq 0 (k + 0 * P - curr) c1 c2 <;> omega
      · by_cases hq0 : q = 0
        · subst hq0
          apply uniq 0 (k + 0 * P - curr) c1 c2 <;> omega
        · have : P ≤ q * P := Nat.le_mul_of_pos_left P (by omega)
          apply uniq q (k + q * P - curr) c1 c2 <;> omega
    rw [this]; omega
  · rw [if_neg hk]
    have h1 := Nat.div_add_mod (k - curr) P
    have h2 := Nat.mod_lt (k - curr) hP
    obtain ⟨d, hd⟩ : ∃ d, d = (k - curr) / P := ⟨_, rfl⟩
    rw [← hd, Nat.mul_comm] at h1
    by_cases hs : (k - curr) % P = 0
    · rw [if_pos hs]
      have : c = d + q := by
        apply uniq (d + q) (k + q * P - curr) c1 c2 <;> rw [Nat.add_mul] <;> omega
      rw [this, Nat.add_mul]; omega
    · rw [if_neg hs]
      have : c = d + q + 1 := by
        apply uniq (d + q + 1) (k + q * P - curr) c1 c2 <;> rw [Nat.add_mul, Nat.add_mul] <;> omega
      rw [this, Nat.add_mul, Nat.add_mul]; omega

/-- What a consume does. -/
def Consumed (s : ConstSegments) (base : Int) (P S M esc n : Nat) (e : Bool) (cap cnt k : Nat) : Prop :=
  ∃ (k' c : Nat) (s' : ConstSegments) (base' : Int), s.consume k = .ok ((k', c), s') ∧ k' ≤ k ∧ k' ≤ cap ∧ c ≤ cnt ∧
    (∀ j, j < c → (base + j * P).toNat < k') ∧ (∀ j, c ≤ j → j < ccount base P M n → k' ≤ (base + j * P).toNat) ∧
    Inv s' base' P S M esc (n - k') e ∧ ((comb base P S M n).drop c).map (Seg.shift k') = comb base' P S M (n - k') ∧
    (e = true → cap ≤ k → k' = cap) ∧
    (e = false → k = cap → s.minEscape ≤ cap → (cap : Int) = base + cnt * P → k' = cap) ∧
    (e = false → (k < s.minEscape ∧ s' = s ∧ base' = base ∧ k' = 0 ∧ c = 0) ∨
      (s.minEscape ≤ k ∧ s'.minEscape = 0 ∧ base' = base + c * P - k' ∧ k < k' + P ∧
        ((s'.segments = [] ∧ ¬ (base' = base ∧ s.minEscape = 0)) ∨ (base' = base ∧ s'.segments = s.segments)) ∧
        ∀ j : Nat, (k : Int) = base + j * P → k' = k ∧ base' = 0))

theorem shift_zero (l : List Seg) : l.map (Seg.shift 0) = l := by
  have : Seg.shift 0 = id := by funext x; simp [Seg.shift]
  rw [this, List.map_id]

theorem Inv.consume {s : ConstSegments} {base P S M esc n e} (h : Inv s base P S M esc n e) (cap cnt k : Nat)
    (hl : s.lend = (cap, cnt)) (hcnt : cnt ≤ ccount base P M n) (hcap : cap ≤ n)
    (he : e = true → cap = n ∧ cnt = ccount base P M n ∧ s.minEscape ≤ n)
    (hne : e = false → cap ≤ (base + cnt * P).toNat ∧ 0 ≤ base + cnt * P ∧ k ≤ cap) :
    Consumed s base P S M esc n e cap cnt k := by
  have hP := h.P_pos
  have htp := h.tail_pos
  have hmo := h.margin_ok
  have hsp := h.span
  have hpi := h.pitch
  have hcur := h.first
  have hbase := h.base_eq
  have hst := h.steps
  unfold Consumed ConstSegments.consume
  by_cases c0 : k < s.minEscape
  · rw [if_pos c0]
    refine ⟨0, 0, s, base, rfl, Nat.zero_le _, Nat.zero_le _, Nat.zero_le _, by omega, by omega, h, ?_, ?_, ?_, ?_⟩
    · rw [shift_zero]; rfl
    · intro h1 h2; have := he h1; omega
    · intro h1 h2 h3; omega
    · intro _; exact Or.inl ⟨c0, rfl, rfl, rfl, rfl⟩
  · rw [if_neg c0]
    simp only
    obtain ⟨q, hq1, hq2⟩ := h.off
    -- the state with the head forgotten
    obtain ⟨t, ht⟩ : ∃ t : ConstSegments, t = if 0 < s.minEscape then { s with minEscape := 0, segments := [] } else s := ⟨_, rfl⟩
    rw [← ht]
    have t1 : t.pitch = P ∧ t.span = S ∧ t.tailMargin = M ∧ t.reserved = P ∧ t.curr = s.curr ∧ t.off = s.off ∧ t.isEof = e ∧
        t.lend = (cap, cnt) ∧ t.minEscape = 0 ∧ (s.off = 0 → e = false → t.segments = (List.range t.segments.length).map (useg base P S)) ∧
        (0 < s.off → e = false → t.segments = []) ∧ ((0 < s.minEscape ∧ t.segments = []) ∨ (s.minEscape = 0 ∧ t.segments = s.segments)) := by
      by_cases hm : 0 < s.minEscape
      · rw [if_pos hm] at ht; subst ht
        exact ⟨h.pitch, h.span, h.margin, h.res, rfl, rfl, h.eof_eq, hl, rfl, by simp, by simp, Or.inl ⟨hm, rfl⟩⟩
      · rw [if_neg hm] at ht; subst ht
        refine ⟨h.pitch, h.span, h.margin, h.res, rfl, rfl, h.eof_eq, hl, by omega, fun _ => h.cached, ?_, Or.inr ⟨by omega, rfl⟩⟩
        intro ho hee
        have := h.headOff ho hee
        omega
    obtain ⟨tp, tsp, tm, tr, tc, tof, te, tl, tme, tseg, tseg', tkeep⟩ := t1
    -- the invariant of the state after a move of the phase
    have hM := h.M_pos
    have hMS := h.M_le
    have mk : ∀ (u : ConstSegments) (n' : Nat), u.pitch = P → u.span = S → u.tailMargin = M → u.reserved = P → u.off = 0 → u.minEscape = 0 →
        u.isEof = e → (u.curr < P ∨ u.curr ≤ esc) → (e = false → u.segments = (List.range u.segments.length).map (useg u.curr P S)) →
        Inv u u.curr P S M esc n' e := by
      intro u n' h1 h2 h3 h4 h5 h6 h7 h8 h9
      exact ⟨h1, h2, h3, h4, hP, h.M_pos, h.M_le, by omega, ⟨0, by omega, Or.inl rfl⟩, by omega, by omega, by omega, by omega, by omega, by omega, h8, h9, h7⟩
    by_cases c1 : e = true ∧ cap ≤ k
    · rw [if_pos (by rw [te, tl]; exact c1)]
      obtain ⟨he1, he2, _⟩ := he c1.1
      rw [tl]
      refine ⟨cap, cnt, _, (s.curr : Int), rfl, c1.2, Nat.le_refl _, Nat.le_refl _, ?_, ?_, ?_, ?_, fun _ _ => rfl, fun _ _ _ _ => rfl, fun hf => by rw [c1.1] at hf; cases hf⟩
      · intro j hj
        rw [he2] at hj
        have := (lt_ccount hP).1 hj
        have h0 : 0 ≤ (j : Int) * P := Int.mul_nonneg (by omega) (by omega)
        have := h.M_pos
        omega
      · intro j h1 h2; omega
      · rw [← tc]
        exact mk _ _ tp tsp tm tr rfl tme te (by simp only; omega) (by intro hf; rw [c1.1] at hf; cases hf)
      · have hz : ccount (s.curr : Int) P M (n - cap) = 0 := by
          rcases Nat.eq_zero_or_pos (ccount (s.curr : Int) P M (n - cap)) with h0 | h0
          · exact h0
          · have h2 := (lt_ccount hP).1 h0
            simp only [Int.natCast_zero, Int.zero_mul] at h2
            omega
        rw [List.drop_eq_nil_of_le (by rw [comb_length]; omega)]
        unfold comb
        rw [hz]; rfl
    · rw [if_neg (by rw [te, tl]; exact c1)]
      have hkpos : base < 0 → 0 < k := by
        intro hb
        rcases h.head hb with hh | ⟨hh1, hh2⟩
        · omega
        · have := he hh1
          exact absurd ⟨hh1, by omega⟩ c1
      have hkcap : k ≤ cap := by
        cases e with
        | true => have := he rfl; by_cases hk : cap ≤ k
                  · exact absurd ⟨rfl, hk⟩ c1
                  · omega
        | false => exact (hne rfl).2.2
      have hps := phase_spec k s.curr q P hP hq2
      obtain ⟨ce1, ce2⟩ := ceil_spec (k + q * P - s.curr) P hP
      simp only [countSegments, tp, tof, tc, tl, updatePhase, hq1]
      obtain ⟨c, hc⟩ : ∃ c, c = (k + q * P - s.curr + P - 1) / P := ⟨_, rfl⟩
      rw [← hc] at ce1 ce2 hps ⊢
      obtain ⟨ph, hph⟩ : ∃ ph, ph = (if k ≤ s.curr then s.curr - k else if (k - s.curr) % P = 0 then 0 else P - (k - s.curr) % P) := ⟨_, rfl⟩
      rw [← hph] at hps ⊢
      have hoffI : (s.off : Int) = q * P := by rw [hq1, Int.natCast_mul]
      have hcI : ((c * P : Nat) : Int) = c * P := Int.natCast_mul _ _
      have hqI : ((q * P : Nat) : Int) = q * P := Int.natCast_mul _ _
      have hcP : base + c * P = k + ph := by omega
      have hless : ∀ j, j < c → base + j * P < k := by
        intro j hj
        have h1 := mul_le_int P (show j + 1 ≤ c by omega)
        rw [succ_mul_int] at h1
        have h2 := mul_le_int P (show 1 ≤ c by omega)
        omega
      -- not limited by what is lent, unless at the end
      have hlim : cnt < c → e = true := by
        intro hlt
        cases e with
        | true => rfl
        | false =>
          have h1 := hless cnt hlt
          have := hne rfl
          omega
      have hdropc : ((comb base P S M n).drop (min c cnt)).map (Seg.shift k) = comb (base + c * P - k) P S M (n - k) := by
        rw [← comb_drop hP c k (by omega) (by omega)]
        by_cases hlt : cnt < c
        · have := (he (hlim hlt)).2.1
          rw [List.drop_eq_nil_of_le (by rw [comb_length]; omega), List.drop_eq_nil_of_le (by rw [comb_length]; omega)]
        · rw [Nat.min_eq_left (by omega)]
      have hposlt : ∀ j, j < min c cnt → (base + j * P).toNat < k := by
        intro j hj
        have := hless j (by omega)
        have h0 : 0 ≤ (j : Int) * P := Int.mul_nonneg (by omega) (by omega)
        by_cases hb : base < 0
        · have := hkpos hb; omega
        · omega
      have hposge : ∀ j, min c cnt ≤ j → j < ccount base P M n → k ≤ (base + j * P).toNat := by
        intro j h1 h2
        have hcj : c ≤ j := by
          by_cases hlt : cnt < c
          · have := (he (hlim hlt)).2.1; omega
          · omega
        have := mul_le_int P hcj
        omega
      -- what happens to the cached segments when the phase moves to `x`
      have hkept : ∀ x : Nat, e = false → ((if s.curr ≠ x then [] else t.segments) = ([] : List Seg) ∧ ¬ ((x : Int) = base ∧ s.minEscape = 0)) ∨
          ((x : Int) = base ∧ (if s.curr ≠ x then [] else t.segments) = s.segments) := by
        intro x hee
        rcases tkeep with ⟨h1, h2⟩ | ⟨h1, h2⟩
        · left
          rw [h2]
          exact ⟨by split <;> rfl, by omega⟩
        · have hoff : s.off = 0 := by
            rcases Nat.eq_zero_or_pos s.off with h0 | h0
            · exact h0
            · have := h.headOff h0 hee; omega
          by_cases hx : s.curr = x
          · right
            rw [if_neg (by simpa using hx), h2]
            exact ⟨by omega, rfl⟩
          · left
            rw [if_pos hx]
            exact ⟨rfl, by omega⟩
      have hmc : e = false → min c cnt = c := by
        intro hee
        have hle : ¬ cnt < c := fun hlt => by rw [hlim hlt] at hee; cases hee
        omega
      -- a consume up to the start of a slice
      have hbound : ∀ j : Nat, (k : Int) = base + j * P → ph = 0 := by
        intro j hj
        rcases Nat.lt_or_ge j c with hlt | hge
        · have := hless j hlt; omega
        · have := mul_le_int P hge; omega
      by_cases cA : min c cnt = 0 ∧ k < s.curr
      · rw [if_pos cA]
        have hphA : ph = s.curr - k := by rw [hph, if_pos (by omega)]
        refine ⟨k, min c cnt, _, ((s.curr - k : Nat) : Int), rfl, Nat.le_refl _, hkcap, Nat.min_le_right _ _, hposlt, hposge, ?_, ?_, ?_, fun _ _ _ _ => by omega, ?_⟩
        rotate_right
        · intro hee
          refine Or.inr ⟨by omega, tme, ?_, by omega, hkept _ hee, fun j hj => ?_⟩
          · rw [hmc hee]; omega
          · have := hbound j hj; omega
        · refine mk _ _ rfl tsp tm tr rfl tme te (by simp only; omega) ?_
          simp only
          intro hee
          by_cases hz : s.curr ≠ s.curr - k
          · rw [if_pos hz]; rfl
          · rw [if_neg hz]
            have hk0 : k = 0 := by omega
            by_cases ho : 0 < s.off
            · rw [tseg' ho hee]; rfl
            · have := tseg (by omega) hee
              rw [show ((s.curr - k : Nat) : Int) = base by omega]
              exact this
        · rw [hdropc]
          congr 1
          omega
        · intro h1 h2; have := he h1; omega
      · rw [if_neg cA]
        by_cases c16 : min c cnt < 16
        · rw [if_pos c16]
          have hphlt : ph < P ∨ ph ≤ esc := by
            rw [hph]
            split
            · omega
            · left
              have := Nat.mod_lt (k - s.curr) hP
              split <;> omega
          refine ⟨k, min c cnt, _, (ph : Int), rfl, Nat.le_refl _, hkcap, Nat.min_le_right _ _, hposlt, hposge, ?_, ?_, ?_, fun _ _ _ _ => by omega, ?_⟩
          rotate_right
          · intro hee
            refine Or.inr ⟨by omega, tme, ?_, by omega, hkept _ hee, fun j hj => ?_⟩
            · rw [hmc hee]; omega
            · have := hbound j hj; omega
          · refine mk _ _ rfl tsp tm tr rfl tme te hphlt ?_
            simp only
            intro hee
            by_cases hz : s.curr ≠ ph
            · rw [if_pos hz]; rfl
            · rw [if_neg hz]
              by_cases ho : 0 < s.off
              · rw [tseg' ho hee]; rfl
              · have := tseg (by omega) hee
                rw [show ((ph : Nat) : Int) = base by omega]
                exact this
          · rw [hdropc]
            congr 1
            omega
          · intro h1 h2; have := he h1; omega
        · rw [if_neg c16]
          obtain ⟨c', hc'⟩ : ∃ c', c' = if ph = 0 then min c cnt else min c cnt - 1 := ⟨_, rfl⟩
          rw [← hc']
          have h15 : 15 ≤ c' := by rw [hc']; split <;> omega
          have hc'le : c' ≤ min c cnt := by rw [hc']; split <;> omega
          have hbpos : 0 < base + c' * P := by
            have := mul_le_int P h15
            omega
          have hc'I : ((c' * P : Nat) : Int) = c' * P := Int.natCast_mul _ _
          have hsub : ckSub (c' * P + s.curr) (q * P) = .ok (base + c' * P).toNat := by
            unfold ckSub
            rw [if_pos (by omega)]
            congr 1
            omega
          rw [hsub]
          have hk' : base + c' * P ≤ k := by
            rw [hc']
            split
            · have := mul_le_int P (show min c cnt ≤ c by omega)
              omega
            · have := hless (min c cnt - 1) (by omega)
              omega
          refine ⟨(base + c' * P).toNat, c', _, 0, rfl, by omega, by omega, by omega, ?_, ?_, ?_, ?_, ?_, ?_, ?_⟩
          rotate_right
          · intro hee
            have hmc' := hmc hee
            have hge : (k : Int) < base + c' * P + P := by
              rw [hc']
              split
              · rw [hmc']; omega
              · have h1 : ((min c cnt - 1 + 1 : Nat) : Int) * P = base * 0 + c * P := by
                  rw [show min c cnt - 1 + 1 = c by omega]; omega
                rw [succ_mul_int] at h1
                omega
            refine Or.inr ⟨by omega, tme, by omega, by omega, hkept 0 hee, fun j hj => ?_⟩
            have hp0 := hbound j hj
            rw [hp0, if_pos rfl, hmc'] at hc'
            subst hc'
            exact ⟨by omega, rfl⟩
          · intro j hj
            have h1 := mul_le_int P (show j + 1 ≤ c' by omega)
            rw [succ_mul_int] at h1
            omega
          · intro j h1 h2
            have := mul_le_int P h1
            omega
          · refine mk _ _ rfl tsp tm tr rfl tme te (by simp only; omega) ?_
            simp only
            intro hee
            by_cases hz : s.curr ≠ 0
            · rw [if_pos hz]; rfl
            · rw [if_neg hz]
              by_cases ho : 0 < s.off
              · rw [tseg' ho hee]; rfl
              · have := tseg (by omega) hee
                rw [show ((0 : Nat) : Int) = base by omega]
                exact this
          · rw [comb_drop hP c' _ (by omega) (by omega)]
            congr 1
            omega
          · intro h1 h2; exact absurd ⟨h1, h2⟩ c1
          · intro h1 h2 h3 h4
            have hcc : c = cnt := by
              have hle : ¬ cnt < c := fun hlt => by rw [hlim hlt] at h1; cases h1
              by_cases hlt : c < cnt
              · have h5 := mul_le_int P (show c + 1 ≤ cnt by omega)
                rw [succ_mul_int] at h5
                omega
              · omega
            have hph0 : ph = 0 := by
              subst hcc; omega
            rw [hph0, if_pos rfl, hcc, Nat.min_self] at hc'
            subst hcc
            rw [hc']
            omega

end ConstSegments

/-! ## The stream -/

namespace ConstSlicer
open ConstSegments

/-- What is demanded of the clients: nothing; that they stop only at the start of a lent slice; or that they leave
at most `h` lent bytes. -/
inductive Manner where
  | any
  | polite
  | slack (h : Nat)

/-- Whether lent slices stay lent. -/
def Manner.steady : Manner → Bool
  | .any => false
  | _ => true

/-- The requests allowed. -/
def Manner.policy : Manner → List Seg → Nat → Prop
  | .any, _, _ => True
  | .polite, lent, k => ∃ x ∈ lent, x.pos = k
  | .slack h, lent, k => ∀ x ∈ lent, x.tail ≤ k + h

/-- What a slicer of equally spaced slices guarantees. -/
def kind (mode : Manner) (P S : Nat) : SegKind where
  full := true
  exact := decide (P ≤ S)
  honest := true
  steady := mode.steady
  early := true
  moving := true
  snap := true
  policy := mode.policy

/-- The amount to be lent at least. -/
def Manner.need (mode : Manner) (P S esc : Nat) : Nat :=
  match mode with
  | .any => S + esc + P + 1
  | .polite => S + esc + 2 * P + 1
  | .slack h => S + esc + 2 * P + h + 1

theorem Manner.need_le (mode : Manner) (P S esc : Nat) : S + esc + P < mode.need P S esc := by
  cases mode <;> simp only [Manner.need] <;> omega

/-- Between fills: the next fill lends at least `l` bytes, and then the first `lb` slices. -/
def Steady (Src : ByteSrc σ) (L P S : Nat) (mode : Manner) (st : ConstSlicer σ) (base : Int) (lb : Nat) : Prop :=
  ∃ l, (∀ req n' s2, Src.fill st.src req = .ok ((false, n'), s2) → l ≤ n') ∧
    ((lb ≤ st.segs.segments.length ∧ base + lb * P + S ≤ (max l L : Nat) + P) ∨ base + lb * P + S ≤ (max l L : Nat) ∨ lb = 0) ∧
    (mode = .polite → (base = 0 ∧ st.segs.minEscape = 0) ∨ base + st.segs.segments.length * P + S ≤ (max l L : Nat))

/-- The states of the slicer. -/
def Rel (Src : ByteSrc σ) (R : σ → Phase → Nat → Bytes → Prop) (E : σ → Prop) (L : Nat) (mode : Manner) (P S M esc : Nat) (st : ConstSlicer σ) (ph : SegPhase)
    (w : Nat) (rem : Bytes) (segs : List Seg) : Prop :=
  ∃ base e, segs = comb base P S M rem.length ∧ Inv st.segs base P S M esc rem.length e ∧ (E st.src ↔ e = true) ∧
    match ph with
    | .idle lb => (∃ l, R st.src (.idle l) w rem) ∧ lb ≤ ccount base P M rem.length ∧ (mode ≠ .any → e = false → Steady Src L P S mode st base lb)
    | .lent eof count cap => ∃ n, R st.src (.lent n) w rem ∧ eof = e ∧ st.segs.lend = (cap, count) ∧ count ≤ ccount base P M rem.length ∧
      cap ≤ n ∧ n ≤ rem.length ∧ (e = true → cap = rem.length ∧ count = ccount base P M rem.length ∧ st.segs.minEscape ≤ rem.length) ∧
      (e = false → cap ≤ (base + count * P).toNat ∧ 0 < base + count * P ∧ 0 < cap ∧
        (P ≤ S → (cap : Int) = base + count * P ∧ st.segs.minEscape ≤ cap)) ∧
      (e = false → cap = min (base + count * P).toNat n ∧ count ≤ st.segs.segments.length ∧ (0 < count → base + count * P + S ≤ n + P) ∧
        (mode = .polite → (base = 0 ∧ st.segs.minEscape = 0) ∨ base + st.segs.segments.length * P + S ≤ n))
    | .done => e = true ∧ rem = [] ∧ ∃ lb, R st.src (.idle lb) w rem

theorem take_comb {base : Int} {P S M n cnt m : Nat} (h1 : cnt ≤ m) (h2 : cnt ≤ ccount base P M n)
    (h3 : ∀ j, j < cnt → base + j * P + S ≤ n) :
    ((List.range m).map (useg base P S)).take cnt = (comb base P S M n).take cnt := by
  unfold comb
  rw [← List.map_take, ← List.map_take, List.take_range, List.take_range, Nat.min_eq_left h1, Nat.min_eq_left h2]
  apply List.map_congr_left
  intro j hj
  rw [cseg_eq_useg (h3 j (by simpa using hj))]

theorem comb_drop_mem {base : Int} {P S M n c : Nat} {x : Seg} (hx : x ∈ (comb base P S M n).drop c) :
    ∃ j, c ≤ j ∧ j < ccount base P M n ∧ x = cseg base P S n j := by
  obtain ⟨i, hi, rfl⟩ := List.mem_iff_getElem.1 hx
  simp only [List.length_drop, comb_length] at hi
  exact ⟨c + i, by omega, by omega, by simp [comb]⟩

theorem comb_take_mem {base : Int} {P S M n c : Nat} {x : Seg} (hx : x ∈ (comb base P S M n).take c) :
    ∃ j, j < c ∧ j < ccount base P M n ∧ x = cseg base P S n j := by
  obtain ⟨i, hi, rfl⟩ := List.mem_iff_getElem.1 hx
  simp only [List.length_take, comb_length] at hi
  exact ⟨i, by omega, by omega, by simp [comb]⟩

theorem steady_after {Src : ByteSrc σ} {R L E} {mode : Manner} {P S M esc N : Nat} {st : ConstSlicer σ} {base base' : Int} {s2 : σ}
    {sg : ConstSegments} {w n count cap k k' c : Nat} {rem : Bytes}
    (hI : st.segs.Inv base P S M esc rem.length false) (hI2 : sg.Inv base' P S M esc N false)
    (hL : mode.need P S esc ≤ L) (hmo : mode ≠ .any) (hR : R st.src (.lent n) w rem) (hA : Ample Src R L E)
    (heq : Src.consume st.src k' = .ok s2) (hkn : k' ≤ n) (hkk' : k' ≤ k)
    (hk : (cap = 0 ∧ (kind mode P S).strict = false) ∨ k = cap ∨ (k ≤ cap ∧ (kind mode P S).policy ((comb base P S M rem.length).take count) k)) (hnr : n ≤ rem.length)
    (hcap : 0 < cap)
    (hst : cap = min (base + count * P).toNat n ∧ count ≤ st.segs.segments.length ∧ (0 < count → base + count * P + S ≤ n + P) ∧
        (mode = .polite → (base = 0 ∧ st.segs.minEscape = 0) ∨ base + st.segs.segments.length * P + S ≤ n))
    (hc1 : count ≤ ccount base P M rem.length) (hc : c ≤ count) (h4 : ∀ j : Nat, j < c → (base + j * P).toNat < k')
    (h8 : (k < st.segs.minEscape ∧ sg = st.segs ∧ base' = base ∧ k' = 0 ∧ c = 0) ∨
      (st.segs.minEscape ≤ k ∧ sg.minEscape = 0 ∧ base' = base + c * P - k' ∧ k < k' + P ∧
        ((sg.segments = [] ∧ ¬ (base' = base ∧ st.segs.minEscape = 0)) ∨ (base' = base ∧ sg.segments = st.segs.segments)) ∧
        ∀ j : Nat, (k : Int) = base + j * P → k' = k ∧ base' = 0)) :
    Steady Src L P S mode { src := s2, segs := sg } base' (count - c) := by
  have hP := hI.P_pos
  obtain ⟨hcapeq, hcm, hup, hpol⟩ := hst
  have hcm' := mul_le_int P hcm
  have hsub : ((count - c : Nat) : Int) * P = count * P - c * P := by
    rw [Int.ofNat_sub hc, Int.sub_mul]
  refine ⟨n - k', fun req n' s3 hf => hA.keep _ _ _ _ _ _ _ _ _ _ hR hkn heq hf rfl, ?_, ?_⟩
  · rcases h8 with ⟨_, rfl, rfl, rfl, rfl⟩ | ⟨hesc, hsg, rfl, hkk, hcase, hbnd⟩
    · rcases Nat.eq_zero_or_pos count with h0 | h0
      · exact Or.inr (Or.inr (by omega))
      · have := hup h0
        exact Or.inl ⟨by simpa using hcm, by simp only [Nat.sub_zero]; omega⟩
    · rcases Nat.eq_zero_or_pos count with h0 | h0
      · exact Or.inr (Or.inr (by omega))
      have hup := hup h0
      rcases hcase with ⟨hnil, hno⟩ | ⟨hb, hsame⟩
      · rcases hk with hk | hk | ⟨hk, hp⟩
        · omega
        · by_cases hkb : (k : Int) = base + count * P
          · obtain ⟨e1, e2⟩ := hbnd count hkb
            by_cases hcc : count ≤ c
            · exact Or.inr (Or.inr (by omega))
            · have := mul_le_int P (show c + 1 ≤ count by omega)
              rw [succ_mul_int] at this
              omega
          · have : 2 * P ≤ L := by
              cases mode <;> simp only [Manner.need] at hL <;> first | omega | exact absurd rfl hmo
            exact Or.inr (Or.inl (by omega))
        · cases mode with
          | any => exact absurd rfl hmo
          | polite =>
            obtain ⟨x, hx, hxk⟩ := hp
            obtain ⟨j, hj1, hj2, rfl⟩ := comb_take_mem hx
            simp only [cseg] at hxk
            by_cases hneg : base + j * P < 0
            · exfalso
              have h0 : k = 0 := by omega
              have hc0 : c = 0 := by
                rcases Nat.eq_zero_or_pos c with h | h
                · exact h
                · have := h4 0 h; omega
              subst hc0
              have := mul_le_int P (Nat.zero_le j)
              have hh := hI.head (by omega)
              simp at hh
              omega
            · obtain ⟨e1, e2⟩ := hbnd j (by omega)
              rcases hpol rfl with ⟨b0, m0⟩ | hp
              · exact absurd ⟨by omega, m0⟩ hno
              · exact Or.inr (Or.inl (by omega))
          | slack h =>
            have hlast := hp (cseg base P S rem.length (count - 1)) (by
              rw [List.mem_iff_getElem]
              refine ⟨count - 1, ?_, ?_⟩
              · simp only [List.length_take, comb_length]; omega
              · simp [comb])
            have hs := succ_mul_int (count - 1) P
            rw [show count - 1 + 1 = count by omega] at hs
            simp only [cseg, Seg.tail] at hlast
            simp only [Manner.need] at hL
            exact Or.inr (Or.inl (by omega))
      · refine Or.inl ⟨?_, ?_⟩
        · rw [hsame]; omega
        · omega
  · intro hm
    subst hm
    simp only [Manner.need] at hL
    rcases h8 with ⟨_, rfl, rfl, rfl, rfl⟩ | ⟨hesc, hsg, rfl, hkk, hcase, hbnd⟩
    · rcases hpol rfl with h | h
      · exact Or.inl h
      · exact Or.inr (by simp only [Nat.sub_zero]; omega)
    · rcases hcase with ⟨hnil, hno⟩ | ⟨hb, hsame⟩
      · right
        have h1 := hI2.base_eq
        have h2 := hI2.first
        simp only [hnil, List.length_nil, Int.natCast_zero, Int.zero_mul]
        omega
      · left
        refine ⟨?_, hsg⟩
        rcases hk with hk | hk | ⟨hk, hp⟩
        · omega
        · by_cases hkb : (k : Int) = base + count * P
          · exact (hbnd count hkb).2
          · rcases hpol rfl with ⟨b0, m0⟩ | hp
            · omega
            · omega
        · obtain ⟨x, hx, hxk⟩ := hp
          obtain ⟨j, hj1, hj2, rfl⟩ := comb_take_mem hx
          simp only [cseg] at hxk
          by_cases hneg : base + j * P < 0
          · exfalso
            have h0 : k = 0 := by omega
            have := mul_le_int P (Nat.zero_le j)
            have hh := hI.head (by omega)
            simp at hh
            omega
          · exact (hbnd j (by omega)).2

theorem faithful {Src : ByteSrc σ} {F M' R L E} (h : Serves Src F M' R) (hA : Ample Src R L E) (hM' : ∀ m, M' m → AnyMargin m)
    (mode : Manner) (P S M esc : Nat) (hL : mode.need P S esc ≤ L) :
    SegFaithful (segSrc Src) (kind mode P S) F (Rel Src R E L mode P S M esc) := by
  have hL1 := mode.need_le P S esc
  have fillAny : ∀ (st : ConstSlicer σ) (w : Nat) (rem : Bytes) (lb : Nat) (base : Int) (e : Bool), Inv st.segs base P S M esc rem.length e →
      (E st.src ↔ e = true) → R st.src (.idle lb) w rem →
      ∀ shown : Nat, shown ≤ ccount base P M rem.length → (mode ≠ .any → e = false → Steady Src L P S mode st base shown) →
      (∃ er, F er ∧ (segSrc Src).fill st = .error er) ∨
      ∃ eof bytes count cap w' s', (segSrc Src).fill st = .ok ((eof, bytes, count, cap), s') ∧
        Rel Src R E L mode P S M esc s' (.lent eof count cap) w' rem (comb base P S M rem.length) ∧
        SegLent rem (comb base P S M rem.length) ((segSrc Src).slices s') bytes count ∧ cap ≤ bytes ∧
        (∀ x ∈ (comb base P S M rem.length).drop count, cap ≤ x.pos) ∧
        (eof = true → count = ccount base P M rem.length ∧ cap = bytes ∧ bytes = rem.length) ∧
        (∀ x ∈ (comb base P S M rem.length).take count, x.pos ≤ cap) ∧ w' ≤ w ∧ (eof = false → w' < w) ∧ (e = true → eof = true) ∧
        (mode ≠ .any → shown ≤ count) := by
    intro st w rem lb base e hI hE hR shown hsh hst
    have hP := hI.P_pos
    have hM := hI.M_pos
    have hMS := hI.M_le
    have htp := hI.tail_pos
    have hmo := hI.margin_ok
    simp only [segSrc]
    rcases h.fill _ _ _ _ st.segs.minFillLen hR with ⟨er, hF, heq⟩ | ⟨eof, n, w', s', heq, hR', hn, hm, he', hne', hw', hw''⟩
    · left; exact ⟨er, hF, by rw [heq]⟩
    · right
      obtain ⟨a1, a2, a3⟩ := hA.fill _ _ _ _ _ _ _ _ hR heq
      rw [heq]
      simp only
      have hslice : 0 < n → ∃ m, AnyMargin m ∧ Src.slice s' = rem.take n ++ m := by
        intro h0; obtain ⟨m, h1, h2⟩ := hm h0; exact ⟨m, hM' m h1, h2⟩
      cases eof with
      | true =>
        have hnr := he' rfl
        obtain ⟨sg, hfe, hs1, hs2, hI2, hme⟩ := hI.fill_eof
        rw [hnr, hfe]
        refine ⟨true, _, _, _, w', _, rfl, ⟨base, true, rfl, hI2, a2, n, hR', rfl, rfl, ?_⟩, ?_⟩
        · rw [hs2]
          exact ⟨Nat.le_refl _, by omega, by omega, fun _ => ⟨rfl, rfl, hme⟩, by simp, by simp⟩
        · rw [hs2]
          simp only
          refine ⟨⟨by rw [comb_length]; exact Nat.le_refl _, ?_, n, by omega, hn, hslice, ?_⟩, Nat.le_refl _, ?_, ?_, ?_, hw', by simp, by simp, fun _ => hsh⟩
          · simp only [hs1]
          · intro x hx
            obtain ⟨j, h1, h2, rfl⟩ := comb_take_mem hx
            have := (lt_ccount hP).1 h2
            have h0 : 0 ≤ (j : Int) * P := Int.mul_nonneg (by omega) (by omega)
            simp only [cseg, Seg.tail]
            omega
          · intro x hx
            obtain ⟨j, h1, h2, rfl⟩ := comb_drop_mem hx
            omega
          · intro _; simp
          · intro x hx
            obtain ⟨j, h1, h2, rfl⟩ := comb_take_mem hx
            have := (lt_ccount hP).1 h2
            have h0 : 0 ≤ (j : Int) * P := Int.mul_nonneg (by omega) (by omega)
            simp only [cseg]
            omega
      | false =>
        have hef : e = false := by
          cases e with
          | false => rfl
          | true => exact absurd (a3 (hE.2 rfl)) (by simp)
        subst hef
        have hlen := a1 rfl
        obtain ⟨cnt, m, sg, hff, hl, hcm, hsg, hup, hdn, hme, hI2, hreach, hover⟩ := hI.fill_more n (by
          have := hI.first
          have := hI.base_eq
          omega)
        rw [hff]
        have htail : ∀ j, j < cnt → base + j * P + S ≤ n := by
          intro j hj
          have h1 := mul_le_int P (show j + 1 ≤ cnt by omega)
          rw [succ_mul_int] at h1
          have := hup (by omega)
          omega
        have hcc : cnt ≤ ccount base P M rem.length := by
          rcases Nat.eq_zero_or_pos cnt with h0 | h0
          · omega
          · have h1 := htail (cnt - 1) (by omega)
            have h2 := (lt_ccount (base := base) (M := M) (n := rem.length) (j := cnt - 1) hP).2 (by omega)
            omega
        have hesc := hI2.esc_le
        refine ⟨false, n, sg.lend.2, sg.lend.1, w', _, rfl, ⟨base, false, rfl, hI2, a2, n, hR', rfl, rfl, ?_⟩, ?_⟩
        · rw [hl]
          simp only
          refine ⟨hcc, by omega, hn, by simp, fun _ => ⟨by omega, by omega, by omega, fun hPS => ?_⟩, fun _ => ⟨trivial, ?_, hup, ?_⟩⟩
          rotate_left
          · rw [hsg]; simpa using hcm
          · intro hpol
            obtain ⟨l, hl1, _, hl3⟩ := hst (by rw [hpol]; simp) rfl
            have := hl1 _ _ _ heq
            rw [hme, hsg, List.length_map, List.length_range]
            rcases hl3 hpol with hl3 | hl3
            · exact Or.inl hl3
            · exact Or.inr (hover (by omega))
          have hge : base + cnt * P ≤ n := by
            rcases Nat.eq_zero_or_pos cnt with h0 | h0
            · subst h0
              have := hI.first
              have := hI.base_eq
              simp only [Int.natCast_zero, Int.zero_mul]
              omega
            · have := hup h0; omega
          constructor <;> omega
        · rw [hl]
          simp only
          refine ⟨⟨by rw [comb_length]; exact hcc, ?_, n, Nat.le_refl _, hn, hslice, ?_⟩, by omega, ?_, by simp, ?_, hw', fun _ => hw'' rfl trivial, by simp, fun hmo => ?_⟩
          rotate_right
          · obtain ⟨l, hl1, hl2, _⟩ := hst hmo rfl
            have := hl1 _ _ _ heq
            exact hreach shown (by omega)
          · simp only [hsg]
            exact take_comb hcm hcc fun j hj => by have := htail j hj; omega
          · intro x hx
            obtain ⟨j, h1, h2, rfl⟩ := comb_take_mem hx
            have := htail j h1
            have h0 : 0 ≤ (j : Int) * P := Int.mul_nonneg (by omega) (by omega)
            simp only [cseg, Seg.tail]
            omega
          · intro x hx
            obtain ⟨j, h1, h2, rfl⟩ := comb_drop_mem hx
            have := mul_le_int P h1
            simp only [cseg]
            omega
          · intro x hx
            obtain ⟨j, h1, h2, rfl⟩ := comb_take_mem hx
            have h3 := mul_le_int P (show j + 1 ≤ cnt by omega)
            rw [succ_mul_int] at h3
            have := htail j h1
            simp only [cseg]
            omega
  refine ⟨?_, ?_, ?_⟩
  · rintro st shown w rem segs ⟨base, e, rfl, hI, hE, ⟨lb, hR⟩, hsh, hst⟩
    rcases fillAny st w rem lb base e hI hE hR shown hsh hst with hh | ⟨eof, bytes, count, cap, w', s', h1, h2, h3, h4, h5, h6, h7, h8, h9, _, h10⟩
    · exact Or.inl hh
    · right
      refine ⟨eof, bytes, count, cap, cap, w', s', h1, h2, h3, h4, h5, Or.inl rfl, ?_, ?_, h8, h9, ?_, ?_⟩
      · intro he; rw [comb_length]; exact ⟨(h6 he).1, (h6 he).2.1, fun _ => (h6 he).2.2⟩
      · exact fun _ => h7
      · intro hs; apply h10; intro hm; rw [hm] at hs; cases hs
      · rintro _ rfl
        obtain ⟨_, e, _, _, _, n, _, he2, _, _, _, _, _, hef, _⟩ := h2
        exact (hef he2.symm).2.2.1
  · rintro st eof count cap w rem segs k ⟨base, e, rfl, hI, hE, n, hR, rfl, hl, hc1, hcn, hnr, hee, hef, hst⟩ hk
    have hP := hI.P_pos
    have hcon := hI.consume cap count k hl hc1 (by omega) hee (fun hf => by
      have := hef hf
      exact ⟨this.1, by omega, by omega⟩)
    obtain ⟨k', c, sg, base', heq, h1, h2, h3, h4, h5, hI2, hd, h6, h7, h8⟩ := hcon
    obtain ⟨s2, w2, heq2, hR2, hw2⟩ := h.consume _ _ _ _ k' hR (by omega)
    have hE2 := hA.consume _ _ _ heq2
    refine ⟨k', c, w2, { src := s2, segs := sg }, ?_, h1, h2, h3, ?_, ?_, ?_, hw2, fun he hkc => h6 he (by omega), ?_, ?_⟩
    · simp only [segSrc, heq, heq2]
    · intro x hx
      obtain ⟨j, h1, h2, rfl⟩ := comb_take_mem hx
      exact h4 j h1
    · intro x hx
      obtain ⟨j, h1, h2, rfl⟩ := comb_drop_mem hx
      exact h5 j h1 h2
    · rw [hd]
      refine ⟨base', eof, by simp, by simpa using hI2, hE2.trans hE, ?_⟩
      by_cases hdone : eof = true ∧ k' = cap
      · rw [if_pos hdone]
        have := hee hdone.1
        exact ⟨hdone.1, List.drop_eq_nil_of_le (by omega), _, hR2⟩
      · rw [if_neg hdone]
        refine ⟨⟨_, hR2⟩, ?_, ?_⟩
        · have hlen := congrArg List.length hd
          simp only [List.length_map, List.length_drop, comb_length] at hlen
          simp only [List.length_drop]
          omega
        · intro hmo hef'
          subst hef'
          exact steady_after hI hI2 hL hmo hR hA heq2 (by omega) h1 hk hnr (hef rfl).2.2.1 (hst rfl) hc1 h3 h4 (h8 rfl)
    · intro hx hkc
      have hPS : P ≤ S := by simpa [kind] using hx
      have hlast : c < count → k' ≤ (base + c * P).toNat := fun hlt => h5 c (Nat.le_refl _) (by omega)
      rcases Nat.lt_or_ge c count with hlt | hge
      · exfalso
        have hl := hlast hlt
        cases eof with
        | true =>
          have := h6 rfl hkc
          have := (hee rfl).1
          have := (lt_ccount hP).1 (show c < ccount base P M rem.length by omega)
          have := hI.margin_ok
          have := hI.M_pos
          have := mul_le_int P (Nat.zero_le c)
          omega
        | false =>
          have hf := hef rfl
          have := h7 rfl (by omega) (hf.2.2.2 hPS).2 (hf.2.2.2 hPS).1
          have := (hf.2.2.2 hPS).1
          have h3 := mul_le_int P (show c + 1 ≤ count by omega)
          rw [succ_mul_int] at h3
          omega
      · omega
    · rintro _ rfl _ x hx y hy hxk hyk
      obtain ⟨i, hi1, hi2, rfl⟩ := comb_take_mem hx
      obtain ⟨j, hj1, hj2, rfl⟩ := comb_take_mem hy
      have h10 := (lt_ccount hP).1 hi2
      have h11 := (lt_ccount hP).1 hj2
      have h12 := mul_le_int P (Nat.zero_le i)
      have h13 := mul_le_int P (Nat.zero_le j)
      have hM := hI.M_pos
      have htp := hI.tail_pos
      have hee := hI.esc_le.2
      have hcap := (hef rfl).2.2.1
      simp only [cseg, Seg.tail] at hxk hyk
      rcases h8 rfl with ⟨hlt, _⟩ | ⟨_, _, _, _, _, hb⟩
      · exfalso
        have hup := (hst rfl).2.2.1 (by omega)
        have h14 := mul_le_int P (show j + 1 ≤ count by omega)
        rw [succ_mul_int] at h14
        omega
      · exact (hb i (by omega)).1
  · rintro st w rem segs ⟨base, e, rfl, hI, hE, rfl, rfl, lb, hR⟩
    have hP := hI.P_pos
    have hz : ccount base P M ([] : Bytes).length = 0 := by
      rcases Nat.eq_zero_or_pos (ccount base P M ([] : Bytes).length) with h0 | h0
      · exact h0
      · have h2 := (lt_ccount hP).1 h0
        have := hI.margin_ok
        simp only [Int.natCast_zero, Int.zero_mul, List.length_nil] at h2
        omega
    rcases fillAny st w [] lb base true hI hE hR 0 (Nat.zero_le _) (by simp) with hh | ⟨eof, bytes, count, cap, w', s', h1, h2, h3, h4, h5, h6, h7, h8, h9, h10, _⟩
    · exact Or.inl hh
    · right
      have he := h10 rfl
      subst he
      obtain ⟨g1, g2, g3⟩ := h6 rfl
      rw [comb_length, hz]
      rw [hz] at g1
      simp only [List.length_nil] at g3
      subst g3; subst g2; subst g1
      exact ⟨w', s', h1, h2, h3, h8⟩

/-- What the parameters must satisfy: `end ≥ 1`, and at most 15 slices are clipped at the start. -/
structure ParamsOk (p : ConstSlicerParams) : Prop where
  pitch : 0 < p.pitch
  span : 0 < p.span
  head : 0 < p.head + p.span
  tail : p.tail ≤ 0
  margin : 0 < p.tail + p.span
  both : 0 < p.head + p.tail + p.span
  steps : 0 < p.head + 15 * p.pitch

/-- The number of bytes that must be consumed at once to leave the start of the stream. -/
def escape (p : ConstSlicerParams) : Nat := if p.head < 0 then (p.head + p.span).toNat else p.head.toNat + 1

/-- A new slicer. -/
theorem new_inv (p : ConstSlicerParams) (hp : ParamsOk p) (src : σ) (n : Nat) :
    ∃ st, new src p = .ok st ∧ st.src = src ∧ st.segs.segments = [] ∧ st.segs.minEscape = escape p ∧
      Inv st.segs p.head p.pitch p.span (p.tail + p.span).toNat (escape p) n false := by
  obtain ⟨h1, h2, h3, h4, h5, h6, h7⟩ := hp
  unfold new ConstSegments.new
  rw [if_pos ⟨h1, h2⟩, if_pos ⟨h3, h5⟩]
  refine ⟨_, rfl, rfl, rfl, rfl, ?_⟩
  have hmod := Int.emod_nonneg p.head (show (p.pitch : Int) ≠ 0 by omega)
  have hlt := Int.emod_lt_of_pos p.head (show 0 < (p.pitch : Int) by omega)
  have hdm := Int.mul_ediv_add_emod p.head p.pitch
  by_cases hh : p.head < 0
  · have hdneg : p.head / p.pitch ≤ 0 := by
      have := Int.ediv_lt_of_lt_mul (a := p.head) (b := 0) (c := p.pitch) (by omega) (by simpa using hh)
      omega
    refine ⟨rfl, rfl, rfl, ?_, h1, by omega, by omega, ?_, ⟨(-(p.head / p.pitch)).toNat, ?_, Or.inr ?_⟩, h3, by omega, h7, ?_, ?_, ?_, ?_, by simp, rfl⟩
    · simp only; omega
    · simp only [if_pos hh]; omega
    · simp only [if_pos hh]
      apply Int.ofNat_inj.1
      rw [Int.natCast_mul, Int.toNat_of_nonneg (by omega), Int.toNat_of_nonneg (by omega), Int.neg_mul]
      rw [Int.mul_comm] at hdm
      omega
    · simp only [if_pos hh]; omega
    · intro _; left; simp only [if_pos hh]; omega
    · intro _ _; simp only [if_pos hh]; omega
    · simp only [if_pos hh, escape]; omega
    · simp only [if_pos hh]; omega
  · refine ⟨rfl, rfl, rfl, ?_, h1, by omega, by omega, ?_, ⟨0, ?_, Or.inl rfl⟩, h3, by omega, h7, ?_, ?_, ?_, ?_, by simp, rfl⟩
    · simp only; omega
    · simp only [if_neg hh]; omega
    · simp only [if_neg hh]; omega
    · intro h; omega
    · simp only [if_neg hh]; omega
    · simp only [if_neg hh, escape]; omega
    · simp only [if_neg hh, escape]; omega

theorem new_spec {Src : ByteSrc σ} {R : σ → Phase → Nat → Bytes → Prop} {E : σ → Prop} {L : Nat} (mode : Manner) (p : ConstSlicerParams) (hp : ParamsOk p) (src : σ) (w : Nat) (rem : Bytes)
    (hR : R src (.idle 1) w rem) (hE : ¬ E src) (hL : mode.need p.pitch p.span (escape p) ≤ L) :
    ∃ st, new src p = .ok st ∧
      Rel Src R E L mode p.pitch p.span (p.tail + p.span).toNat (escape p) st (.idle 0) w rem (comb p.head p.pitch p.span (p.tail + p.span).toNat rem.length) := by
  obtain ⟨st, h1, rfl, h3, _, h4⟩ := new_inv p hp src rem.length
  refine ⟨st, h1, p.head, false, rfl, h4, by simp [hE], ⟨1, hR⟩, Nat.zero_le _, fun _ _ => ⟨0, by simp, Or.inr (Or.inr rfl), fun _ => Or.inr ?_⟩⟩
  have := mode.need_le p.pitch p.span (escape p)
  simp only [h3, List.length_nil, Int.natCast_zero, Int.zero_mul]
  have he : p.head ≤ (escape p : Nat) := by unfold escape; split <;> omega
  omega

end ConstSlicer

/-! ## From the range expression to the slices -/

theorem filterMap_range {β : Type u} (f : Nat → Option β) (g : Nat → β) (U c cnt : Nat) (h : ∀ i, i < U → f i = if c ≤ i ∧ i < c + cnt then some (g i) else none)
    (hc : cnt = 0 ∨ c + cnt ≤ U) : (List.range U).filterMap f = (List.range cnt).map fun j => g (c + j) := by
  rcases hc with hc | hc
  · subst hc
    simp only [List.range_zero, List.map_nil, List.filterMap_eq_nil_iff]
    intro i hi
    rw [h i (by simpa using hi), if_neg (by omega)]
  · obtain ⟨r, rfl⟩ : ∃ r, U = c + cnt + r := ⟨U - (c + cnt), by omega⟩
    rw [List.range_add, List.filterMap_append, List.range_add, List.filterMap_append]
    have h1 : (List.range c).filterMap f = [] := by
      rw [List.filterMap_eq_nil_iff]
      intro i hi
      have : i < c := by simpa using hi
      rw [h i (by omega), if_neg (by omega)]
    have h2 : ((List.range r).map fun x => c + cnt + x).filterMap f = [] := by
      rw [List.filterMap_eq_nil_iff]
      intro i hi
      simp only [List.mem_map, List.mem_range] at hi
      obtain ⟨a, ha, rfl⟩ := hi
      rw [h _ (by omega), if_neg (by omega)]
    have h3 : ((List.range cnt).map fun x => c + x).filterMap f = (List.range cnt).map fun j => g (c + j) := by
      have hex : ∀ l : List Nat, (∀ i ∈ l, i < cnt) → (l.map fun x => c + x).filterMap f = l.map fun j => g (c + j) := by
        intro l
        induction l with
        | nil => intro _; rfl
        | cons a l ih =>
          intro hl
          have ha := hl a (by simp)
          rw [List.map_cons, List.map_cons, List.filterMap_cons, h _ (by omega), if_pos (by omega), ih fun i hi => hl i (by simp [hi])]
      exact hex _ (by simp)
    rw [h1, h2, h3]
    simp

namespace ConstSlicerParams

theorem headLoop_spec (pitch span : Int) (hp : 0 < pitch) : ∀ (fuel : Nat) (m m' : Int), headLoop pitch span fuel m = .ok m' →
    m' < span ∧ ∃ c : Nat, m' = m - c * pitch ∧ (c = 0 ∨ (span ≤ m' + pitch ∧ span ≤ m))
  | 0, m, m', h => by simp [headLoop] at h
  | fuel + 1, m, m', h => by
    unfold headLoop at h
    split at h
    · obtain ⟨h1, c, h2, h3⟩ := headLoop_spec pitch span hp fuel _ m' h
      refine ⟨h1, c + 1, ?_, Or.inr ?_⟩
      · rw [Int.natCast_add, Int.add_mul]; omega
      · rcases h3 with h3 | h3
        · subst h3; omega
        · omega
    · cases h
      exact ⟨by omega, 0, by omega, Or.inl rfl⟩

theorem headLoop_ok (pitch span : Int) (hp : 0 < pitch) : ∀ (fuel : Nat) (m : Int), m - span + 1 < fuel → 0 < fuel → ∃ m', headLoop pitch span fuel m = .ok m'
  | 0, m, _, h => absurd h (by omega)
  | fuel + 1, m, h, _ => by
    unfold headLoop
    split
    · exact headLoop_ok pitch span hp fuel _ (by omega) (by omega)
    · exact ⟨_, rfl⟩

/-- The parameters describe exactly the slices asked for. -/
theorem fromRaw_comb {fuel pitch : Nat} {m : SegmentMapper} {p : ConstSlicerParams} (hp : 0 < pitch) (h : fromRaw fuel pitch m = .ok p) (n : Nat)
    (start stop : Int) (hm : m.evaluate (0, pitch) (0, pitch) = (start, stop)) :
    start < stop ∧ p.pitch = pitch ∧ p.span = stop - start ∧ 0 < p.head + p.span ∧ 0 < p.tail + p.span ∧
      0 < p.head + p.tail + p.span ∧ (1 ≤ stop → p.tail ≤ 0) ∧ (-(15 * pitch) < start → 0 < p.head + 15 * p.pitch) ∧ p.head ≤ max start pitch ∧
      (1 ≤ stop → p.head = start) ∧
      comb p.head p.pitch p.span (p.tail + p.span).toNat n = Spec.strides n pitch start stop := by
  unfold fromRaw at h
  rw [hm] at h
  simp only at h
  by_cases hle : stop ≤ start
  · rw [if_pos hle] at h; cases h
  rw [if_neg hle] at h
  -- in both cases the first slices are skipped if empty
  have main : ∀ (c : Nat) (head tail : Int), head = start + c * pitch → 0 < head + (stop - start) → (c = 0 ∨ head + (stop - start) ≤ pitch) →
      tail + (stop - start) = (if 0 ≤ start then 1 else 1 - start) → (0 ≤ start → c = 0) →
      comb head pitch (stop - start).toNat (tail + (stop - start)).toNat n = Spec.strides n pitch start stop := by
    intro c head tail h1 h2 h3 h4 h5
    obtain ⟨M, hM⟩ : ∃ M, M = (tail + (stop - start)).toNat := ⟨_, rfl⟩
    rw [← hM]
    have hMI : (M : Int) = if 0 ≤ start then 1 else 1 - start := by rw [← h4, hM]; split at h4 <;> omega
    have units : ∀ i, i < (n + pitch - 1) / pitch ↔ (i : Int) * pitch < n := by
      intro i
      rw [show i < (n + pitch - 1) / pitch ↔ i + 1 ≤ (n + pitch - 1) / pitch from Iff.rfl, Nat.le_div_iff_mul_le hp, Nat.add_mul]
      have : ((i * pitch : Nat) : Int) = i * pitch := Int.natCast_mul _ _
      omega
    unfold Spec.strides comb
    have key : ∀ i : Nat, i < (n + pitch - 1) / pitch → (max 0 (i * pitch + start) < min (n : Int) (i * pitch + stop) ↔ c ≤ i ∧ i < c + ccount head pitch M n) := by
      intro i hi
      have hin := (units i).1 hi
      have h0 : 0 ≤ (i : Int) * pitch := Int.mul_nonneg (by omega) (by omega)
      constructor
      · intro hlt
        have hci : c ≤ i := by
          by_cases hci : c ≤ i
          · exact hci
          · have := mul_le_int pitch (show i + 1 ≤ c by omega)
            rw [succ_mul_int] at this
            omega
        refine ⟨hci, ?_⟩
        have hj : i - c < ccount head pitch M n := by
          rw [lt_ccount hp, Int.ofNat_sub hci, Int.sub_mul, hMI]
          split at hMI <;> omega
        omega
      · rintro ⟨hci, hlt⟩
        have hj : i - c < ccount head pitch M n := by omega
        rw [lt_ccount hp, Int.ofNat_sub hci, Int.sub_mul, hMI] at hj
        have := mul_le_int pitch hci
        split at hj <;> omega
    rw [filterMap_range _ (fun i => ({ pos := (max 0 (i * pitch + start)).toNat, len := (min (n : Int) (i * pitch + stop) - max 0 (i * pitch + start)).toNat } : Seg))
      _ c (ccount head pitch M n)]
    · apply List.map_congr_left
      intro j _
      unfold cseg
      rw [Int.natCast_add, Int.add_mul]
      refine congr (congrArg Seg.mk ?_) ?_ <;> omega
    · intro i hi
      by_cases hc : max 0 ((i : Int) * pitch + start) < min (n : Int) (i * pitch + stop)
      · rw [if_pos hc, if_pos ((key i hi).1 hc)]
      · rw [if_neg hc, if_neg fun h => hc ((key i hi).2 h)]
    · rcases Nat.eq_zero_or_pos (ccount head pitch M n) with h0 | h0
      · exact Or.inl h0
      · right
        have hj : ccount head pitch M n - 1 < ccount head pitch M n := by omega
        rw [lt_ccount hp, hMI] at hj
        have hu : c + (ccount head pitch M n - 1) < (n + pitch - 1) / pitch := by
          rw [units, Int.natCast_add, Int.add_mul]
          split at hj <;> omega
        omega
  by_cases hs : 0 ≤ start
  · rw [if_pos hs] at h
    cases h
    simp only
    have hsp : ((stop - start).toNat : Int) = stop - start := by omega
    rw [hsp]
    refine ⟨by omega, trivial, rfl, by omega, ?_, ?_, ?_, by omega, by omega, fun _ => trivial, ?_⟩
    · split <;> omega
    · split <;> omega
    · intro h; rw [if_neg (by omega)]; omega
    · refine main 0 start _ (by omega) (by omega) (Or.inl rfl) ?_ (fun _ => rfl)
      rw [if_pos hs]
      split <;> omega
  · rw [if_neg hs] at h
    split at h
    · cases h
    · rename_i margin hl
      cases h
      obtain ⟨h1, c, h2, h3⟩ := headLoop_spec pitch (stop - start) (by omega) fuel _ _ hl
      have h0 : 0 ≤ (c : Int) * pitch := Int.mul_nonneg (by omega) (by omega)
      simp only
      have hsp : ((stop - start).toNat : Int) = stop - start := by omega
      rw [hsp]
      refine ⟨by omega, trivial, rfl, by omega, ?_, ?_, ?_, by omega, ?_, ?_, ?_⟩
      · split <;> omega
      · split <;> omega
      · intro h; rw [if_neg (by omega)]; omega
      · rcases h3 with h3 | h3
        · subst h3; omega
        · omega
      · intro hps
        rcases h3 with hc | hc
        · subst hc; omega
        · omega
      · refine main c (-margin) _ (by omega) (by omega) (by omega) ?_ (fun h => absurd h hs)
        rw [if_neg hs]
        split <;> omega

end ConstSlicerParams
end Nd
