import Verif.Model.Eval
import Verif.Spec.Literal
/-!
# C15: number literals
-/
namespace Nd.Props
open Nd Nd.Spec Nd.Eval

theorem ascii_cases {P : Char → Prop} (h : ∀ n < 128, P (Char.ofNat n)) (c : Char) (hc : c.toNat < 128) : P c := by
  have := h c.toNat hc
  rwa [Char.ofNat_toNat] at this

theorem char_le_iff (a b : Char) : a ≤ b ↔ a.toNat ≤ b.toNat := by
  rw [Char.le_def, UInt32.le_iff_toNat_le]; rfl

theorem parseChar_ascii : ∀ n < 128, parseChar (Char.ofNat n) = (if Char.ofNat n = '_' then some (true, 0) else (digitVal (Char.ofNat n)).map (fun d => (false, d))) := by
  decide +kernel

theorem not_mem_of_big {c : Char} {l : List Char} (hl : ∀ x ∈ l, x.toNat < 128) (hc : 128 ≤ c.toNat) : c ∉ l := by
  intro h
  have := hl c h
  omega

theorem digitVal_big {c : Char} (hc : 128 ≤ c.toNat) : digitVal c = none := by
  unfold digitVal
  rw [List.idxOf?_eq_none_iff.2, List.idxOf?_eq_none_iff.2]
  · rfl
  · exact not_mem_of_big (by decide) hc
  · exact not_mem_of_big (by decide) hc

theorem parseChar_eq (c : Char) : parseChar c = (if c = '_' then some (true, 0) else (digitVal c).map (fun d => (false, d))) := by
  rcases Nat.lt_or_ge c.toNat 128 with h | h
  · exact ascii_cases (P := fun c => parseChar c = (if c = '_' then some (true, 0) else (digitVal c).map (fun d => (false, d)))) parseChar_ascii c h
  · have hne : c ≠ '_' := by rintro rfl; revert h; decide
    rw [digitVal_big h, if_neg hne]
    unfold parseChar
    simp only [if_neg hne, char_le_iff]
    rw [if_neg, if_neg, if_neg]
    · rfl
    all_goals
      rintro ⟨_, h2⟩
      have h3 : ('9'.toNat < 128 ∧ 'f'.toNat < 128 ∧ 'F'.toNat < 128) := by decide
      omega

theorem toLower_big {x c : Char} (hx : 128 ≤ x.toNat) (hc : c.toNat < 128) : toLower x ≠ c := by
  have hz : 'Z'.toNat < 128 := by decide
  unfold toLower
  rw [if_neg (by rw [char_le_iff, char_le_iff]; omega)]
  rintro rfl
  omega

theorem toLower_table : ∀ n < 128, ∀ p ∈ [('b', 'B'), ('o', 'O'), ('d', 'D'), ('x', 'X'), ('k', 'K'), ('m', 'M'), ('g', 'G'), ('t', 'T'), ('e', 'E')],
    (toLower (Char.ofNat n) = p.1 ↔ Char.ofNat n = p.1 ∨ Char.ofNat n = p.2) := by
  decide +kernel

theorem toLower_iff (x : Char) (p : Char × Char)
    (hp : p ∈ [('b', 'B'), ('o', 'O'), ('d', 'D'), ('x', 'X'), ('k', 'K'), ('m', 'M'), ('g', 'G'), ('t', 'T'), ('e', 'E')]) :
    toLower x = p.1 ↔ x = p.1 ∨ x = p.2 := by
  rcases Nat.lt_or_ge x.toNat 128 with h | h
  · have := toLower_table x.toNat h p hp
    rwa [Char.ofNat_toNat] at this
  · have hp' : p.1.toNat < 128 ∧ p.2.toNat < 128 := by revert p; decide
    constructor
    · intro h'; exact absurd h' (toLower_big h hp'.1)
    · rintro (rfl | rfl)
      · omega
      · omega

/-! ## The digits -/

/-- What `parse_char` says about the characters of the body. -/
def flag (c : Char) : Bool × Nat := if c = '_' then (true, 0) else (false, (digitVal c).getD 0)

/-- Characters that `parse_char` accepts. -/
def IsBody (c : Char) : Prop := c = '_' ∨ ∃ d, digitVal c = some d

theorem digitVal_dash : digitVal '_' = none := by decide

theorem parseChar_body {c : Char} (h : IsBody c) : parseChar c = some (flag c) := by
  rw [parseChar_eq]
  unfold flag
  rcases h with rfl | ⟨d, hd⟩
  · rfl
  · split
    · rfl
    · simp [hd]

theorem parseChar_none {c : Char} (h : ¬ IsBody c) : parseChar c = none := by
  rw [parseChar_eq, if_neg (fun h' => h (Or.inl h'))]
  cases hd : digitVal c with
  | none => rfl
  | some d => exact absurd (Or.inr ⟨d, hd⟩) h

theorem scanDigits_append (cs rest : List Char) (h : ∀ c ∈ cs, IsBody c) (hr : ∀ c, rest.head? = some c → ¬ IsBody c) :
    scanDigits (cs ++ rest) = (cs.map flag, rest) := by
  induction cs with
  | nil =>
    cases rest with
    | nil => rfl
    | cons c rest => simp [scanDigits, parseChar_none (hr c rfl)]
  | cons c cs ih =>
    have := ih (fun c hc => h c (by simp [hc]))
    simp [scanDigits, parseChar_body (h c (by simp)), this]

/-- Conversely. -/
theorem scanDigits_split : ∀ it : List Char, ∃ cs rest, it = cs ++ rest ∧ (∀ c ∈ cs, IsBody c) ∧ (∀ c, rest.head? = some c → ¬ IsBody c)
  | [] => ⟨[], [], rfl, by simp, by simp⟩
  | c :: it => by
    by_cases h : IsBody c
    · obtain ⟨cs, rest, h1, h2, h3⟩ := scanDigits_split it
      refine ⟨c :: cs, rest, by simp [h1], ?_, h3⟩
      intro x hx
      rcases List.mem_cons.1 hx with rfl | hx
      · exact h
      · exact h2 x hx
    · exact ⟨[], c :: it, rfl, by simp, by simpa using h⟩

theorem digitsValue_eq (base : Nat) : ∀ (ds : List Nat) (v : Nat), (∀ d ∈ ds, d < base) →
    digitsValue base ds (Int64.ofNat v) = some (Int64.ofNat (ds.foldl (fun v d => v * base + d) v))
  | [], v, _ => rfl
  | d :: ds, v, h => by
    rw [digitsValue, if_neg (by have := h d (by simp); omega), ← Int64.ofNat_mul, ← Int64.ofNat_add, digitsValue_eq base ds _ (fun d hd => h d (by simp [hd]))]
    rfl

theorem digitsValue_some (base : Nat) : ∀ (ds : List Nat) (v r : Int64), digitsValue base ds v = some r → ∀ d ∈ ds, d < base
  | [], v, r, _ => by simp
  | d :: ds, v, r, h => by
    rw [digitsValue] at h
    split at h
    · cases h
    · intro x hx
      rcases List.mem_cons.1 hx with rfl | hx
      · omega
      · exact digitsValue_some base ds _ _ h x hx

/-! ## The underscores -/

/-- No underscore at the end, nor two in a row. -/
def Tidy : List Char → Prop
  | [] => True
  | [c] => c ≠ '_'
  | a :: b :: rest => ¬ (a = '_' ∧ b = '_') ∧ Tidy (b :: rest)

theorem groups_tidy : ∀ gs : List (List Char), gs ≠ [] → (∀ g ∈ gs, g ≠ []) → (∀ g ∈ gs, '_' ∉ g) →
    Tidy (['_'].intercalate gs) ∧ (['_'].intercalate gs).head? ≠ some '_' := by
  intro gs
  induction gs with
  | nil => intro h; exact absurd rfl h
  | cons g gs ih =>
    intro _ h1 h2
    have hg := h1 g (by simp)
    have hg' := h2 g (by simp)
    have tail : ∀ (g : List Char) (t : List Char), g ≠ [] → '_' ∉ g → (t = [] ∨ ∃ t', t = '_' :: t' ∧ Tidy t' ∧ t' ≠ [] ∧ t'.head? ≠ some '_') →
        Tidy (g ++ t) ∧ (g ++ t).head? ≠ some '_' := by
      intro g
      induction g with
      | nil => intro t h; exact absurd rfl h
      | cons c g ihg =>
        intro t _ hc ht
        simp only [List.mem_cons, not_or] at hc
        refine ⟨?_, by simp [Ne.symm hc.1]⟩
        cases g with
        | nil =>
          rcases ht with rfl | ⟨t', rfl, h3, h4, h5⟩
          · exact Ne.symm hc.1
          · refine ⟨fun h => hc.1 h.1.symm, ?_⟩
            cases t' with
            | nil => exact absurd rfl h4
            | cons x t' => exact ⟨fun h => by simp [h.2] at h5, h3⟩
        | cons d g =>
          exact ⟨fun h => hc.1 h.1.symm, (ihg t (by simp) hc.2 ht).1⟩
    cases gs with
    | nil => simpa [List.intercalate] using tail g [] hg hg' (Or.inl rfl)
    | cons g2 gs =>
      obtain ⟨h3, h4⟩ := ih (by simp) (fun g hg => h1 g (by simp [hg])) (fun g hg => h2 g (by simp [hg]))
      have hne : ['_'].intercalate (g2 :: gs) ≠ [] := by
        have := h1 g2 (by simp)
        cases gs <;> simp [List.intercalate, this]
      have := tail g ('_' :: ['_'].intercalate (g2 :: gs)) hg hg' (Or.inr ⟨_, rfl, h3, hne, h4⟩)
      simpa [List.intercalate] using this

/-- Conversely, tidy characters are groups. -/
theorem tidy_groups : ∀ cs : List Char, cs ≠ [] → Tidy cs → cs.head? ≠ some '_' →
    ∃ gs : List (List Char), gs ≠ [] ∧ (∀ g ∈ gs, g ≠ []) ∧ (∀ g ∈ gs, '_' ∉ g) ∧ cs = ['_'].intercalate gs
  | [], h, _, _ => absurd rfl h
  | [c], _, h, _ => ⟨[[c]], by simp, by simp, by simpa [eq_comm, Tidy] using h, by simp [List.intercalate]⟩
  | a :: b :: cs, _, h, hh => by
    have ha : '_' ≠ a := fun h => hh (by simp [← h])
    by_cases hb : b = '_'
    · subst hb
      cases cs with
      | nil => exact absurd rfl h.2
      | cons d cs =>
        obtain ⟨gs, h1, h2, h3, h4⟩ := tidy_groups (d :: cs) (by simp) h.2.2 (fun hd => h.2.1 ⟨rfl, by simpa using hd⟩)
        refine ⟨[a] :: gs, by simp, ?_, ?_, ?_⟩
        · intro g hg
          rcases List.mem_cons.1 hg with rfl | hg
          · simp
          · exact h2 g hg
        · intro g hg
          rcases List.mem_cons.1 hg with rfl | hg
          · simpa using ha
          · exact h3 g hg
        · cases gs with
          | nil => exact absurd rfl h1
          | cons g gs => rw [h4]; simp [List.intercalate]
    · obtain ⟨gs, h1, h2, h3, h4⟩ := tidy_groups (b :: cs) (by simp) h.2 (fun hd => hb (by simpa using hd))
      cases gs with
      | nil => exact absurd rfl h1
      | cons g gs =>
        refine ⟨(a :: g) :: gs, by simp, ?_, ?_, ?_⟩
        · intro x hx
          rcases List.mem_cons.1 hx with rfl | hx
          · simp
          · exact h2 x (by simp [hx])
        · intro x hx
          rcases List.mem_cons.1 hx with rfl | hx
          · simp only [List.mem_cons, not_or]
            exact ⟨ha, h3 g (by simp)⟩
          · exact h3 x (by simp [hx])
        · rw [h4]
          cases gs <;> simp [List.intercalate]

/-! ## The mask -/

/-- Bits in the order of the characters. -/
def TidyBits : List Bool → Prop
  | [] => True
  | [c] => c = false
  | a :: b :: rest => ¬ (a = true ∧ b = true) ∧ TidyBits (b :: rest)

theorem tidy_bits : ∀ cs : List Char, Tidy cs ↔ TidyBits (cs.map (fun c => (flag c).1))
  | [] => Iff.rfl
  | [c] => by simp [Tidy, TidyBits, flag]; split <;> simp_all
  | a :: b :: cs => by
    have := tidy_bits (b :: cs)
    simp only [List.map_cons] at this ⊢
    simp only [Tidy, TidyBits, this]
    have hf : ∀ c, (flag c).1 = true ↔ c = '_' := by intro c; unfold flag; split <;> simp_all
    rw [hf, hf]

theorem adjacent_append_left : ∀ (a b : List Bool), adjacent a = true → adjacent (a ++ b) = true
  | [], _, h => by simp [adjacent] at h
  | [_], _, h => by simp [adjacent] at h
  | x :: y :: a, b, h => by
    simp only [List.cons_append, adjacent, Bool.or_eq_true] at h ⊢
    exact h.imp id (adjacent_append_left (y :: a) b)

theorem adjacent_take (l : List Bool) (n : Nat) (h : adjacent (l.take n) = true) : adjacent l = true := by
  have := adjacent_append_left _ (l.drop n) h
  rwa [List.take_append_drop] at this

theorem adjacent_concat : ∀ (l : List Bool) (x y : Bool), adjacent (l ++ [x, y]) = (adjacent (l ++ [x]) || (x && y))
  | [], x, y => by simp [adjacent]
  | [a], x, y => by simp [adjacent]
  | a :: b :: l, x, y => by
    have := adjacent_concat (b :: l) x y
    simp only [List.cons_append] at this ⊢
    simp only [adjacent, this, Bool.or_assoc]

/-- The mask, without the sentinel and the limit of 64 bits. -/
theorem mask_bits : ∀ (l : List Bool), (l.reverse.head? = some true ∨ adjacent l.reverse = true) ↔ ¬ TidyBits l
  | [] => by simp [TidyBits, adjacent]
  | [c] => by cases c <;> simp [TidyBits, adjacent]
  | a :: b :: l => by
    have ih := mask_bits (b :: l)
    have h1 : adjacent ((a :: b :: l).reverse) = (adjacent ((b :: l).reverse) || (b && a)) := by
      have := adjacent_concat l.reverse b a
      simpa using this
    have h2 : (a :: b :: l).reverse.head? = (b :: l).reverse.head? := by
      simp only [List.reverse_cons, List.append_assoc, List.head?_append]
      cases l.reverse.head? <;> simp
    rw [h2, h1]
    simp only [TidyBits]
    by_cases hab : a = true ∧ b = true
    · simp [hab.1, hab.2]
    · have : (b && a) = false := by cases a <;> cases b <;> simp_all
      rw [this, Bool.or_false, ih]
      simp only [hab, not_false_eq_true, true_and]

theorem falses_ge : ∀ (l : List Bool), adjacent l = false → (l.head? ≠ some true → l.length ≤ 2 * l.count false) ∧ l.length ≤ 2 * l.count false + 1
  | [], _ => by simp
  | [a], _ => by cases a <;> simp
  | a :: b :: l, h => by
    simp only [adjacent, Bool.or_eq_false_iff] at h
    have ih := falses_ge (b :: l) h.2
    cases a with
    | false =>
      simp only [List.count_cons_self, List.length_cons] at ih ⊢
      refine ⟨fun _ => ?_, ?_⟩ <;> omega
    | true =>
      cases b with
      | true => simp at h
      | false =>
        simp only [List.count_cons_self, List.length_cons] at ih ⊢
        have h1 := ih.1 (by simp)
        simp
        omega

/-- The mask has room for all relevant bits: there are at most 32 digits. -/
theorem badMask_iff (a : Bool) (l : List Bool) (hl : l.count false ≤ 31) :
    badMask (a :: l) = false ↔ TidyBits (a :: l) ∧ a = false := by
  have hm := mask_bits (a :: l)
  have hb : badMask (a :: l) = false ↔ ¬ ((((a :: l).reverse ++ [true]).take 64).head? = some true ∨ adjacent (((a :: l).reverse ++ [true]).take 64) = true) := by
    unfold badMask
    simp only [Bool.or_eq_false_iff, beq_eq_false_iff_ne, ne_eq, not_or, Bool.not_eq_true]
  have hhead : (((a :: l).reverse ++ [true]).take 64).head? = (a :: l).reverse.head? := by
    rw [List.head?_take]
    simp only [List.reverse_cons, List.append_assoc, List.head?_append]
    cases l.reverse.head? <;> simp
  have hadj : adjacent ((a :: l).reverse ++ [true]) = (adjacent ((a :: l).reverse) || a) := by
    have := adjacent_concat l.reverse a true
    simpa using this
  rw [hb, hhead]
  constructor
  · intro h
    rw [not_or] at h
    have hlen : l.length ≤ 62 := by
      apply Nat.le_of_not_lt
      intro hlt
      have h1 : adjacent (l.reverse.take 63) = false := by
        cases h1 : adjacent (l.reverse.take 63) with
        | false => rfl
        | true =>
          exfalso
          apply h.2
          have h2 : (((a :: l).reverse ++ [true]).take 64) = l.reverse.take 63 ++ (((a :: l).reverse ++ [true]).take 64).drop 63 := by
            have h3 : (((a :: l).reverse ++ [true]).take 64).take 63 = l.reverse.take 63 := by
              rw [List.take_take]
              simp only [List.reverse_cons, List.append_assoc]
              rw [List.take_append_of_le_length (by simp; omega)]
              rfl
            rw [← h3, List.take_append_drop]
          rw [h2]
          exact adjacent_append_left _ _ h1
      have h2 := (falses_ge _ h1).1 (by
        rw [List.head?_take]
        intro h3
        apply h.1
        simp only [List.reverse_cons, List.head?_append]
        simp at h3
        simp [h3])
      have h3 : (l.reverse.take 63).count false ≤ l.count false := by
        have := List.Sublist.count_le false (List.take_sublist 63 l.reverse)
        simpa using this
      simp at h2
      omega
    rw [List.take_of_length_le (by simp; omega), hadj] at h
    simp only [Bool.or_eq_true, not_or, Bool.not_eq_true] at h
    refine ⟨?_, h.2.2⟩
    apply Classical.byContradiction
    intro h'
    rcases hm.2 h' with h'' | h''
    · exact h.1 h''
    · rw [h''] at h; exact absurd h.2.1 (by simp)
  · rintro ⟨h1, rfl⟩ h'
    rcases h' with h' | h'
    · exact hm.1 (Or.inl h') h1
    · have := adjacent_take _ _ h'
      rw [hadj, Bool.or_false] at this
      exact hm.1 (Or.inr this) h1

/-! ## Suffixes -/

theorem pow_int64 (b n : Nat) : (Int64.ofNat b) ^ n = Int64.ofNat (b ^ n) := by
  induction n with
  | zero => rfl
  | succ n ih => rw [Int64.pow_succ, ih, ← Int64.ofNat_mul, Nat.pow_succ]

theorem parsePrefix_binary (n : Nat) (rest : List Char) : parsePrefix n ('i' :: rest) = (Int64.ofNat (1024 ^ n), rest) := by
  rw [← pow_int64]; rfl

theorem parsePrefix_decimal (n : Nat) (rest : List Char) (h : rest.head? ≠ some 'i') : parsePrefix n rest = (Int64.ofNat (1000 ^ n), rest) := by
  rw [← pow_int64]
  unfold parsePrefix
  split
  · simp at h
  · rfl

theorem parseScaler_spec (l : Literal) (rest : List Char) (hs : ∀ n u b, l.scale = .times n u b → 1 ≤ n ∧ n ≤ 4) (he : l.Ends rest) :
    parseScaler (l.scale.text ++ rest) = (Int64.ofNat l.scale.factor, rest) := by
  unfold Literal.Ends at he
  cases hsc : l.scale with
  | one =>
    simp only [hsc] at he
    cases rest with
    | nil => rfl
    | cons x rest =>
      obtain ⟨h1, h2⟩ := he x rfl
      have hne : ∀ p ∈ [('b', 'B'), ('o', 'O'), ('d', 'D'), ('x', 'X'), ('k', 'K'), ('m', 'M'), ('g', 'G'), ('t', 'T'), ('e', 'E')],
          p ∈ [('k', 'K'), ('m', 'M'), ('g', 'G'), ('t', 'T'), ('e', 'E')] → toLower x ≠ p.1 := by
        intro p hp hp' h3
        have he' : x ≠ 'e' ∧ x ≠ 'E' := by
          constructor <;> (rintro rfl; revert h1; decide)
        simp only [List.mem_cons, List.not_mem_nil, or_false, not_or] at h2 hp'
        rcases (toLower_iff x p hp).1 h3 with rfl | rfl <;> rcases hp' with h | h | h | h | h <;> simp [h] at h2 he'
      simp only [Scale.text, List.nil_append, parseScaler]
      rw [if_neg (hne ('k', 'K') (by simp) (by simp)), if_neg (hne ('m', 'M') (by simp) (by simp)), if_neg (hne ('g', 'G') (by simp) (by simp)),
        if_neg (hne ('t', 'T') (by simp) (by simp)), if_neg (hne ('e', 'E') (by simp) (by simp))]
      rfl
  | times n u b =>
    obtain ⟨hn, hn'⟩ := hs n u b hsc
    have key : ∀ tail, parseScaler (Scale.letter n u :: tail) = parsePrefix n tail := by
      intro tail
      obtain rfl | rfl | rfl | rfl : n = 1 ∨ n = 2 ∨ n = 3 ∨ n = 4 := by omega
      all_goals cases u <;> rfl
    simp only [Scale.text, List.cons_append, key, Scale.factor]
    cases b with
    | true => exact parsePrefix_binary n rest
    | false =>
      simp only [hsc] at he
      exact parsePrefix_decimal n rest he

/-- Conversely, whatever the suffix parser takes is a suffix, unless an `e` follows. -/
theorem parseScaler_inv (it : List Char) (h : ∀ c, it.head? = some c → ¬ IsBody c) :
    ∃ (s : Scale) (rest : List Char), it = s.text ++ rest ∧ (∀ n u b, s = .times n u b → 1 ≤ n ∧ n ≤ 4) ∧ parseScaler it = (Int64.ofNat s.factor, rest) := by
  cases it with
  | nil => exact ⟨.one, [], rfl, by simp, rfl⟩
  | cons x it =>
    have hpre : ∀ n u, 1 ≤ n → n ≤ 4 → x = Scale.letter n u → parseScaler (x :: it) = parsePrefix n it →
        ∃ (s : Scale) (rest : List Char), x :: it = s.text ++ rest ∧ (∀ n u b, s = .times n u b → 1 ≤ n ∧ n ≤ 4) ∧ parseScaler (x :: it) = (Int64.ofNat s.factor, rest) := by
      intro n u h1 h2 h3 h4
      by_cases hi : it.head? = some 'i'
      · cases it with
        | nil => simp at hi
        | cons y it =>
          simp only [List.head?_cons, Option.some.injEq] at hi
          subst hi
          refine ⟨.times n u true, it, by simp [Scale.text, h3], ?_, by rw [h4, parsePrefix_binary]; rfl⟩
          intro n u b h; cases h; exact ⟨h1, h2⟩
      · refine ⟨.times n u false, it, by simp [Scale.text, h3], ?_, by rw [h4, parsePrefix_decimal n it hi]; rfl⟩
        intro n u b h; cases h; exact ⟨h1, h2⟩
    have hne : toLower x ≠ 'e' := by
      intro h'
      rcases (toLower_iff x ('e', 'E') (by simp)).1 h' with rfl | rfl
      · exact h 'e' rfl (Or.inr ⟨14, by decide⟩)
      · exact h 'E' rfl (Or.inr ⟨14, by decide⟩)
    by_cases hk : toLower x = 'k'
    · have h4 : parseScaler (x :: it) = parsePrefix 1 it := by simp [parseScaler, hk]
      rcases (toLower_iff x ('k', 'K') (by simp)).1 hk with h3 | h3
      · exact hpre 1 false (by omega) (by omega) h3 h4
      · exact hpre 1 true (by omega) (by omega) h3 h4
    by_cases hk : toLower x = 'm'
    · have h4 : parseScaler (x :: it) = parsePrefix 2 it := by simp [parseScaler, hk]
      rcases (toLower_iff x ('m', 'M') (by simp)).1 hk with h3 | h3
      · exact hpre 2 false (by omega) (by omega) h3 h4
      · exact hpre 2 true (by omega) (by omega) h3 h4
    by_cases hk : toLower x = 'g'
    · have h4 : parseScaler (x :: it) = parsePrefix 3 it := by simp [parseScaler, hk]
      rcases (toLower_iff x ('g', 'G') (by simp)).1 hk with h3 | h3
      · exact hpre 3 false (by omega) (by omega) h3 h4
      · exact hpre 3 true (by omega) (by omega) h3 h4
    by_cases hk : toLower x = 't'
    · have h4 : parseScaler (x :: it) = parsePrefix 4 it := by simp [parseScaler, hk]
      rcases (toLower_iff x ('t', 'T') (by simp)).1 hk with h3 | h3
      · exact hpre 4 false (by omega) (by omega) h3 h4
      · exact hpre 4 true (by omega) (by omega) h3 h4
    refine ⟨.one, x :: it, rfl, by simp, ?_⟩
    simp only [parseScaler, *, if_false]
    rfl

/-! ## Putting it together -/

theorem filterMap_flatten (gs : List (List Char)) : (['_'].intercalate gs).filterMap digitVal = gs.flatten.filterMap digitVal := by
  induction gs with
  | nil => rfl
  | cons g gs ih =>
    cases gs with
    | nil => simp [List.intercalate]
    | cons g2 gs =>
      have : ['_'].intercalate (g :: g2 :: gs) = g ++ '_' :: ['_'].intercalate (g2 :: gs) := by simp [List.intercalate]
      have h2 : List.filterMap digitVal ('_' :: ['_'].intercalate (g2 :: gs)) = List.filterMap digitVal (['_'].intercalate (g2 :: gs)) := by
        simp [digitVal_dash]
      rw [this, List.filterMap_append, h2, ih, List.flatten_cons (l := g), List.filterMap_append]

theorem flags_digits : ∀ cs : List Char, (∀ c ∈ cs, IsBody c) → ((cs.map flag).filter (fun x => !x.1)).map Prod.snd = cs.filterMap digitVal
  | [], _ => rfl
  | c :: cs, h => by
    have ih := flags_digits cs (fun c hc => h c (by simp [hc]))
    rcases h c (by simp) with rfl | ⟨d, hd⟩
    · simp only [List.map_cons, List.filterMap_cons, digitVal_dash]
      rw [← ih]; rfl
    · have hne : c ≠ '_' := by rintro rfl; rw [digitVal_dash] at hd; cases hd
      simp [flag, hne, hd, ← ih]

theorem flags_count : ∀ cs : List Char, (∀ c ∈ cs, IsBody c) → ((cs.map flag).map Prod.fst).count false = (cs.filterMap digitVal).length
  | [], _ => rfl
  | c :: cs, h => by
    have ih := flags_count cs (fun c hc => h c (by simp [hc]))
    rcases h c (by simp) with rfl | ⟨d, hd⟩
    · simp only [List.map_cons, List.filterMap_cons, digitVal_dash]
      rw [← ih]; rfl
    · have hne : c ≠ '_' := by rintro rfl; rw [digitVal_dash] at hd; cases hd
      simp only [List.map_cons, flag, hne, if_false, List.filterMap_cons, hd, List.count_cons_self, List.length_cons, ← ih]

/-- `parse_val` after the prefix. -/
theorem parseVal_core (first : Char) (it : List Char) (base : Nat) (c : Char) (cs tail : List Char) (hb : parseBase first it = some (c, base, cs ++ tail))
    (hc : ∀ x ∈ c :: cs, IsBody x) (ht : ∀ x, tail.head? = some x → ¬ IsBody x) :
    parseVal first it =
      if (cs.filterMap digitVal).length ≥ 32 then .error .panic
      else if badMask ((c :: cs).map (fun c => (flag c).1)) then .error .parse
      else match digitsValue base ((flag c).2 :: cs.filterMap digitVal) 0 with
        | none => .error .parse
        | some val => .ok (.val (val * (parseScaler tail).1), (parseScaler tail).2) := by
  unfold parseVal
  simp only [hb, parseChar_body (hc c (by simp)), scanDigits_append cs tail (fun x hx => hc x (by simp [hx])) ht,
    flags_digits cs (fun x hx => hc x (by simp [hx]))]
  have h1 : (flag c).1 :: List.map Prod.fst (List.map flag cs) = (c :: cs).map (fun c => (flag c).1) := by simp
  rw [h1]
  simp only [List.length_cons]
  by_cases hlen : (cs.filterMap digitVal).length ≥ 32
  · rw [if_pos (by omega), if_pos hlen]
  · rw [if_neg (by omega), if_neg hlen]
    congr

theorem parseBase_zero (it : List Char) (h : ∀ x, it.head? = some x → x ∉ ['b', 'B', 'o', 'O', 'd', 'D', 'x', 'X']) : parseBase '0' it = some ('0', 8, it) := by
  cases it with
  | nil => rfl
  | cons x it =>
    have hx := h x rfl
    simp only [List.mem_cons, List.not_mem_nil, or_false, not_or] at hx
    have h1 : toLower x ≠ 'b' := fun h => by rcases (toLower_iff x ('b', 'B') (by simp)).1 h with h | h <;> simp [h] at hx
    have h2 : toLower x ≠ 'o' := fun h => by rcases (toLower_iff x ('o', 'O') (by simp)).1 h with h | h <;> simp [h] at hx
    have h3 : toLower x ≠ 'd' := fun h => by rcases (toLower_iff x ('d', 'D') (by simp)).1 h with h | h <;> simp [h] at hx
    have h4 : toLower x ≠ 'x' := fun h => by rcases (toLower_iff x ('x', 'X') (by simp)).1 h with h | h <;> simp [h] at hx
    simp [parseBase, h1, h2, h3, h4]

theorem body_head (l : Literal) (h : l.Ok) : ∃ c cs, l.body = c :: cs ∧ c ≠ '_' := by
  obtain ⟨h1, h2⟩ := groups_tidy l.groups h.nonempty.1 h.nonempty.2 (by
    intro g hg h3
    obtain ⟨d, h4, _⟩ := h.digits '_' (List.mem_flatten.2 ⟨g, hg, h3⟩)
    rw [digitVal_dash] at h4; cases h4)
  cases hb : l.body with
  | nil =>
    exfalso
    cases hg : l.groups with
    | nil => exact h.nonempty.1 hg
    | cons g gs =>
      have hne := h.nonempty.2 g (by simp [hg])
      unfold Literal.body at hb
      rw [hg] at hb
      cases gs with
      | nil => simp [List.intercalate] at hb; exact hne hb
      | cons g2 gs => simp [List.intercalate] at hb
  | cons c cs =>
    refine ⟨c, cs, rfl, ?_⟩
    rintro rfl
    apply h2
    change l.body.head? = _
    rw [hb]; rfl

theorem mem_intercalate {x : Char} : ∀ {gs : List (List Char)}, x ∈ ['_'].intercalate gs → x = '_' ∨ x ∈ gs.flatten
  | [], h => by simp [List.intercalate] at h
  | [g], h => by right; simpa [List.intercalate] using h
  | g :: g2 :: gs, h => by
    have h1 : ['_'].intercalate (g :: g2 :: gs) = g ++ '_' :: ['_'].intercalate (g2 :: gs) := by simp [List.intercalate]
    rw [h1] at h
    rcases List.mem_append.1 h with h | h
    · right; simp [h]
    · rcases List.mem_cons.1 h with h | h
      · exact Or.inl h
      · rcases mem_intercalate h with h | h
        · exact Or.inl h
        · right; rw [List.flatten_cons]; exact List.mem_append.2 (Or.inr h)

theorem tail_not_body (l : Literal) (rest : List Char) (he : l.Ends rest) : ∀ x, (l.scale.text ++ rest).head? = some x → ¬ IsBody x := by
  unfold Literal.Ends at he
  intro x hx
  cases hs : l.scale with
  | one =>
    simp only [hs, Scale.text, List.nil_append] at he hx
    obtain ⟨h1, h2⟩ := he x hx
    rintro (rfl | ⟨d, hd⟩)
    · simp at h2
    · rw [h1] at hd; cases hd
  | times n u b =>
    simp only [hs, Scale.text, List.cons_append, List.head?_cons, Option.some.injEq] at hx
    have key : x ∈ ['k', 'K', 'm', 'M', 'g', 'G', 't', 'T'] := by
      rw [← hx]; unfold Scale.letter; split <;> simp
    intro hb
    have : ∀ x ∈ ['k', 'K', 'm', 'M', 'g', 'G', 't', 'T'], x ≠ '_' ∧ digitVal x = none := by decide
    obtain ⟨h1, h2⟩ := this x key
    rcases hb with h | ⟨d, hd⟩
    · exact h1 h
    · rw [h2] at hd; cases hd

theorem parseBase_literal (l : Literal) (hl : l.Ok) (rest : List Char) (he : l.Ends rest) (first : Char) (it : List Char) (c : Char) (cs : List Char)
    (hb : l.body = c :: cs) (ht : l.text ++ rest = first :: it) : parseBase first it = some (c, l.radix.base, cs ++ (l.scale.text ++ rest)) := by
  unfold Literal.text at ht
  rw [hb] at ht
  have dig : ∀ x ∈ c :: cs, x = '_' ∨ ∃ d, digitVal x = some d ∧ d < l.radix.base := by
    intro x hx
    rw [← hb] at hx
    exact (mem_intercalate hx).imp id (hl.digits x)
  cases hr : l.radix with
  | plain =>
    simp only [hr, Radix.text, List.nil_append, List.cons_append, List.append_assoc] at ht
    injection ht with h1 h2
    subst h1 h2
    have : c ≠ '0' := hl.plain hr c (by rw [hb]; rfl)
    simp [parseBase, this, Radix.base]
  | zero =>
    simp only [hr, Radix.text, List.nil_append, List.cons_append, List.append_assoc] at ht
    injection ht with h1 h2
    subst h1 h2
    have hc : c = '0' := by have := hl.zero hr; rw [hb] at this; simpa using this
    subst hc
    apply parseBase_zero
    intro x hx
    cases cs with
    | cons y cs =>
      simp only [List.cons_append, List.head?_cons, Option.some.injEq] at hx
      subst hx
      rcases dig y (by simp) with rfl | ⟨d, h1, h2⟩
      · decide
      · rw [hr] at h2
        intro hm
        have : ∀ y ∈ ['b', 'B', 'o', 'O', 'd', 'D', 'x', 'X'], ∀ d, digitVal y = some d → ¬ d < 8 := by
          intro y hy d hd
          simp only [List.mem_cons, List.not_mem_nil, or_false] at hy
          rcases hy with rfl | rfl | rfl | rfl | rfl | rfl | rfl | rfl <;> (revert hd; simp [show digitVal 'b' = some 11 by decide, show digitVal 'B' = some 11 by decide, show digitVal 'd' = some 13 by decide, show digitVal 'D' = some 13 by decide, show digitVal 'o' = none by decide, show digitVal 'O' = none by decide, show digitVal 'x' = none by decide, show digitVal 'X' = none by decide]) <;> omega
        exact this y hm d h1 h2
    | nil =>
      have h1 := tail_not_body l rest he x hx
      rw [List.nil_append] at hx
      intro hm
      have hox : x ∉ ['o', 'O', 'x', 'X'] := by
        cases hs : l.scale with
        | one =>
          simp only [hs, Scale.text, List.nil_append] at hx
          simp only [Literal.Ends, hs] at he
          have := (he x hx).2
          simp only [List.mem_cons, List.not_mem_nil, or_false, not_or] at this ⊢
          simp [this]
        | times n u b =>
          simp only [hs, Scale.text, List.cons_append, List.head?_cons, Option.some.injEq] at hx
          rw [← hx]; unfold Scale.letter; split <;> decide
      have hbd : IsBody x := by
        simp only [List.mem_cons, List.not_mem_nil, or_false, not_or] at hm hox
        right
        rcases hm with rfl | rfl | rfl | rfl | rfl | rfl | rfl | rfl
        · exact ⟨11, by decide⟩
        · exact ⟨11, by decide⟩
        · simp at hox
        · simp at hox
        · exact ⟨13, by decide⟩
        · exact ⟨13, by decide⟩
        · simp at hox
        · simp at hox
      exact h1 hbd
  | bin u | oct u | dec u | hex u =>
    simp only [hr, Radix.text, List.nil_append, List.cons_append, List.append_assoc] at ht
    injection ht with h1 h2
    subst h1 h2
    cases u <;> rfl

theorem ofNat_mul_int64 (a b : Nat) : Int64.ofNat a * Int64.ofNat b = Int64.ofNat (a * b) := (Int64.ofNat_mul a b).symm

/-- A literal denotes its value (modulo 2^64): `parse_val` on the first character and the rest yields the value of the literal and what follows it.
Partial: the array of digits has room for 32 digits only (`C15_long_counterexample`), and the documented suffix `E` is not accepted
(`C15_exa_counterexample`). -/
theorem C15_value_partial (l : Literal) (hl : l.Ok) (h32 : l.groups.flatten.length ≤ 32) (rest : List Char) (he : l.Ends rest)
    (first : Char) (it : List Char) (ht : l.text ++ rest = first :: it) :
    parseVal first it = .ok (.val (Int64.ofNat l.value), rest) := by
  obtain ⟨c, cs, hb, hc⟩ := body_head l hl
  have hbody : ∀ x ∈ c :: cs, IsBody x := by
    intro x hx
    rw [← hb] at hx
    rcases mem_intercalate hx with h | h
    · exact Or.inl h
    · obtain ⟨d, hd, _⟩ := hl.digits x h; exact Or.inr ⟨d, hd⟩
  rw [parseVal_core first it l.radix.base c cs _ (parseBase_literal l hl rest he first it c cs hb ht) hbody (tail_not_body l rest he)]
  obtain ⟨dc, hdc⟩ : ∃ d, digitVal c = some d := (hbody c (by simp)).resolve_left hc
  have hflag : flag c = (false, dc) := by simp [flag, hc, hdc]
  have hdig : dc :: cs.filterMap digitVal = l.groups.flatten.filterMap digitVal := by
    rw [← filterMap_flatten]
    change _ = l.body.filterMap digitVal
    rw [hb]; simp [hdc]
  have hlen : (l.groups.flatten.filterMap digitVal).length ≤ 32 := Nat.le_trans (List.length_filterMap_le _ _) h32
  rw [← hdig, List.length_cons] at hlen
  rw [if_neg (by omega)]
  have hmask : badMask ((c :: cs).map (fun c => (flag c).1)) = false := by
    rw [List.map_cons, badMask_iff]
    · refine ⟨?_, by simp [hflag]⟩
      have := (tidy_bits (c :: cs)).1
      rw [List.map_cons] at this
      apply this
      rw [← hb]
      exact (groups_tidy l.groups hl.nonempty.1 hl.nonempty.2 (by
        intro g hg h3
        obtain ⟨d, h4, _⟩ := hl.digits '_' (List.mem_flatten.2 ⟨g, hg, h3⟩)
        rw [digitVal_dash] at h4; cases h4)).1
    · have := flags_count cs (fun x hx => hbody x (by simp [hx]))
      rw [List.map_map] at this
      change List.count false (List.map (Prod.fst ∘ flag) cs) ≤ 31
      omega
  have hd := digitsValue_eq l.radix.base (l.groups.flatten.filterMap digitVal) 0 (by
    intro d hd
    obtain ⟨x, h1, h2⟩ := List.mem_filterMap.1 hd
    obtain ⟨d', h3, h4⟩ := hl.digits x h1
    rw [h3] at h2; cases h2; exact h4)
  have hz : Int64.ofNat 0 = 0 := rfl
  rw [hz] at hd
  simp only [hmask, Bool.false_eq_true, if_false, hflag, hdig, hd, parseScaler_spec l rest hl.scale he, ofNat_mul_int64]
  rfl

/-- Conversely: whatever `parse_val` accepts is a literal (so digits outside the base, stray underscores and the like are rejected), and the value is that of
the literal. -/
theorem C15_sound (first : Char) (hf : ∃ d, digitVal first = some d ∧ d < 10) (it : List Char) (t : Token) (rest : List Char)
    (h : parseVal first it = .ok (t, rest)) :
    ∃ l : Literal, l.Ok ∧ first :: it = l.text ++ rest ∧ t = .val (Int64.ofNat l.value) := by
  -- the prefix
  have key : ∃ (r : Radix) (c : Char) (it' : List Char), parseBase first it = some (c, r.base, it') ∧ first :: it = r.text ++ c :: it' ∧
      (r = .plain → c ≠ '0') ∧ (r = .zero → c = '0') := by
    by_cases h0 : first = '0'
    · subst h0
      cases it with
      | nil => exact ⟨.zero, '0', [], rfl, rfl, by simp, by simp⟩
      | cons x it =>
        have pre : ∀ r : Radix, r ≠ .plain → r ≠ .zero → r.text = ['0', x] →
            parseBase '0' (x :: it) = afterPrefix r.base it → 
            ∃ (r : Radix) (c : Char) (it' : List Char), parseBase '0' (x :: it) = some (c, r.base, it') ∧ '0' :: x :: it = r.text ++ c :: it' ∧
              (r = .plain → c ≠ '0') ∧ (r = .zero → c = '0') := by
          intro r h1 h2 h3 h4
          cases it with
          | nil => rw [parseVal, h4] at h; cases h
          | cons c it => exact ⟨r, c, it, h4, by simp [h3], fun h => absurd h h1, fun h => absurd h h2⟩
        by_cases hb : toLower x = 'b'
        · have h4 : parseBase '0' (x :: it) = afterPrefix 2 it := by simp [parseBase, hb]
          rcases (toLower_iff x ('b', 'B') (by simp)).1 hb with rfl | rfl
          · exact pre (.bin false) (by simp) (by simp) rfl h4
          · exact pre (.bin true) (by simp) (by simp) rfl h4
        by_cases ho : toLower x = 'o'
        · have h4 : parseBase '0' (x :: it) = afterPrefix 8 it := by simp [parseBase, ho]
          rcases (toLower_iff x ('o', 'O') (by simp)).1 ho with rfl | rfl
          · exact pre (.oct false) (by simp) (by simp) rfl h4
          · exact pre (.oct true) (by simp) (by simp) rfl h4
        by_cases hd : toLower x = 'd'
        · have h4 : parseBase '0' (x :: it) = afterPrefix 10 it := by simp [parseBase, hd]
          rcases (toLower_iff x ('d', 'D') (by simp)).1 hd with rfl | rfl
          · exact pre (.dec false) (by simp) (by simp) rfl h4
          · exact pre (.dec true) (by simp) (by simp) rfl h4
        by_cases hx : toLower x = 'x'
        · have h4 : parseBase '0' (x :: it) = afterPrefix 16 it := by simp [parseBase, hx]
          rcases (toLower_iff x ('x', 'X') (by simp)).1 hx with rfl | rfl
          · exact pre (.hex false) (by simp) (by simp) rfl h4
          · exact pre (.hex true) (by simp) (by simp) rfl h4
        exact ⟨.zero, '0', x :: it, by simp [parseBase, hb, ho, hd, hx]; rfl, rfl, by simp, by simp⟩
    · exact ⟨.plain, first, it, by simp [parseBase, h0]; rfl, rfl, fun _ => h0, by simp⟩
  obtain ⟨r, c, it', hbase, htext, hplain, hzero⟩ := key
  obtain ⟨cs, tail, hsplit, hcs, htail⟩ := scanDigits_split it'
  subst hsplit
  have hcb : IsBody c := by
    apply Classical.byContradiction
    intro hcb
    rw [parseVal, hbase] at h
    simp only [parseChar_none hcb] at h
    cases h
  have hbody : ∀ x ∈ c :: cs, IsBody x := by
    intro x hx
    rcases List.mem_cons.1 hx with rfl | hx
    · exact hcb
    · exact hcs x hx
  rw [parseVal_core first it r.base c cs tail hbase hbody htail] at h
  split at h
  · cases h
  rename_i hlen
  split at h
  · cases h
  rename_i hmask
  cases hdv : digitsValue r.base ((flag c).2 :: cs.filterMap digitVal) 0 with
  | none => rw [hdv] at h; cases h
  | some v =>
    rw [hdv] at h
    simp only [Except.ok.injEq, Prod.mk.injEq] at h
    obtain ⟨s, rest', hs1, hs2, hs3⟩ := parseScaler_inv tail htail
    rw [hs3] at h
    obtain ⟨rfl, rfl⟩ := h
    simp only [Bool.not_eq_true] at hmask
    rw [List.map_cons, badMask_iff] at hmask
    · obtain ⟨htidy, hcf⟩ := hmask
      have hc : c ≠ '_' := by rintro rfl; simp [flag] at hcf
      obtain ⟨gs, g1, g2, g3, g4⟩ := tidy_groups (c :: cs) (by simp) ((tidy_bits (c :: cs)).2 (by simpa using htidy)) (by simpa using hc)
      obtain ⟨dc, hdc⟩ := hcb.resolve_left hc
      have hflag : (flag c).2 = dc := by simp [flag, hc, hdc]
      have hdig : dc :: cs.filterMap digitVal = gs.flatten.filterMap digitVal := by
        rw [← filterMap_flatten, ← g4]; simp [hdc]
      rw [hflag, hdig] at hdv
      have hlt := digitsValue_some _ _ _ _ hdv
      refine ⟨⟨r, gs, s⟩, ⟨⟨g1, g2⟩, ?_, ?_, ?_, hs2⟩, ?_, ?_⟩
      · intro x hx
        have hxb : IsBody x := by
          apply hbody
          rw [g4]
          obtain ⟨g, hg, hxg⟩ := List.mem_flatten.1 hx
          have : ∀ gs : List (List Char), g ∈ gs → x ∈ ['_'].intercalate gs := by
            intro gs
            induction gs with
            | nil => intro h; simp at h
            | cons a gs ih =>
              intro h
              cases gs with
              | nil => simp at h; subst h; simpa [List.intercalate] using hxg
              | cons b gs =>
                have h1 : ['_'].intercalate (a :: b :: gs) = a ++ '_' :: ['_'].intercalate (b :: gs) := by simp [List.intercalate]
                rw [h1]
                rcases List.mem_cons.1 h with rfl | h
                · simp [hxg]
                · have := ih h; simp [this]
          exact this gs hg
        obtain ⟨g, hg, hxg⟩ := List.mem_flatten.1 hx
        obtain ⟨d, hd⟩ := hxb.resolve_left (fun h => g3 g hg (h ▸ hxg))
        exact ⟨d, hd, hlt d (List.mem_filterMap.2 ⟨x, hx, hd⟩)⟩
      · intro hp x hx
        simp only [Literal.body, ← g4, List.head?_cons, Option.some.injEq] at hx
        exact hx ▸ hplain hp
      · intro hz
        simp only [Literal.body, ← g4, List.head?_cons, Option.some.injEq]
        exact hzero hz
      · rw [htext]
        simp only [Literal.text, Literal.body, ← g4, hs1, List.append_assoc, List.cons_append]
      · have := digitsValue_eq r.base _ 0 hlt
        have hz : Int64.ofNat 0 = 0 := rfl
        rw [hz, hdv] at this
        cases this
        rw [ofNat_mul_int64]; rfl
    · have := flags_count cs hcs
      rw [List.map_map] at this
      change List.count false (List.map (Prod.fst ∘ flag) cs) ≤ 31
      omega

/-- `0xFf_10Ki` is a literal. -/
def sampleLiteral : Literal := ⟨.hex false, [['F', 'f'], ['1', '0']], .times 1 true true⟩

theorem sampleLiteral_ok : sampleLiteral.Ok where
  nonempty := by decide
  digits := by
    intro c hc
    have : ∀ c ∈ sampleLiteral.groups.flatten, (digitVal c).any (· < 16) = true := by decide
    have := this c hc
    rw [Option.any_eq_true] at this
    obtain ⟨d, h1, h2⟩ := this
    exact ⟨d, h1, by simpa [sampleLiteral, Radix.base] using h2⟩
  plain := by intro h; cases h
  zero := by intro h; cases h
  scale := by
    intro n u b h
    cases h
    decide

example : sampleLiteral.text = "0xFf_10Ki".toList ∧ sampleLiteral.value = 0xFF10 * 1024 := by decide +kernel

example : parseVal '0' "xFf_10Ki+1".toList = .ok (.val (0xFF10 * 1024), "+1".toList) :=
  C15_value_partial sampleLiteral sampleLiteral_ok (by decide) "+1".toList trivial '0' _ rfl

/-- Non-vacuity of `C15_sound`. -/
example : parseVal '0' "17".toList = .ok (.val 15, []) ∧ ∃ d, digitVal '0' = some d ∧ d < 10 := ⟨rfl, 0, by decide, by decide⟩

/-- Digits outside the base are rejected. -/
example : parseVal '0' "b12".toList = .error .parse ∧ parseVal '0' "9".toList = .error .parse ∧ parseVal '1' "f".toList = .error .parse := ⟨rfl, rfl, rfl⟩

/-- The README documents the suffixes k, M, G, E (and ki, Mi, Gi, Ei).  The letter `E` never gets to the suffix parser because it is taken as a hexadecimal digit: the
documented suffix is rejected after a decimal number, and part of the number in base 16. -/
theorem C15_exa_counterexample :
    parseVal '1' "E".toList = .error .parse ∧ parseVal '1' "Ei".toList = .error .parse ∧ parseVal '0' "x1E".toList = .ok (.val 0x1e, []) :=
  ⟨rfl, rfl, rfl⟩

/-- More than 32 digits run over the end of the array of digits: leading zeros are enough. -/
theorem C15_long_counterexample : parseVal '0' (List.replicate 32 '0') = .error .panic := rfl

end Nd.Props
