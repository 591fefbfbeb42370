import Verif.Model.AssertsEval
/-! The expression parser in the debug build. -/
namespace Nd.Eval

/-- Operators of the classes that `latter_precedes` knows. -/
def Classed (c : Char) : Prop := isMuldiv c = true ∨ isAddsub c = true ∨ isShift c = true ∨ isPow c = true ∨ isCmp c = true

/-- Operators among the tokens are known. -/
def ClassedTok (t : Token) : Prop := ∀ c, t = .op c → Classed c

theorem asserts_of_classed {a b : Token} (ha : ClassedTok a) (hb : ClassedTok b) : asserts a b = true := by
  unfold asserts
  split
  · rename_i x y
    have h1 := ha x rfl
    have h2 := hb y rfl
    simp only [Bool.or_eq_true, Bool.and_eq_true]
    rcases h1 with h | h | h | h | h <;> rcases h2 with g | g | g | g | g <;> simp [h, g]
  · rfl

theorem popOpsAsserting_eq {op : Char} (hop : Classed op) : ∀ (stack rpn : List Tok), (∀ t ∈ stack, ClassedTok t.1) →
    popOpsAsserting op stack rpn = .ok (popOps op stack rpn) ∧ ∀ t ∈ (popOps op stack rpn).2, t ∈ stack
  | [], rpn, _ => ⟨rfl, by simp [popOps]⟩
  | top :: stack, rpn, h => by
    have := asserts_of_classed (h top (by simp)) (b := .op op) (fun c hc => by cases hc; exact hop)
    simp only [popOpsAsserting, popOps, this, if_true]
    split
    · exact ⟨rfl, fun t ht => ht⟩
    · have ih := popOpsAsserting_eq hop stack (pushPopped top rpn) (fun t ht => h t (by simp [ht]))
      exact ⟨ih.1, fun t ht => List.mem_cons_of_mem _ (ih.2 t ht)⟩

theorem popParen_mem {other : Char} : ∀ (stack rpn : List Tok) (r : List Tok × List Tok), popParen other stack rpn = some r → ∀ t ∈ r.2, t ∈ stack
  | [], rpn, r, h => by cases h
  | top :: stack, rpn, r, h => by
    simp only [popParen] at h
    split at h
    · cases h
      exact fun t ht => by simp [ht]
    · exact fun t ht => List.mem_cons_of_mem _ (popParen_mem stack _ r h t ht)

theorem rpnStepAsserting_eq (st : List Tok × List Tok) (t : Token) (ht : ClassedTok t) (hs : ∀ x ∈ st.2, ClassedTok x.1) :
    rpnStepAsserting st t = .ok (rpnStep st t) ∧ ∀ st', rpnStep st t = some st' → ∀ x ∈ st'.2, ClassedTok x.1 := by
  cases t with
  | val v => exact ⟨rfl, fun st' h => by cases h; exact hs⟩
  | var i c => exact ⟨rfl, fun st' h => by cases h; exact hs⟩
  | pre c =>
    refine ⟨rfl, fun st' h => ?_⟩
    cases h
    intro x hx
    rcases List.mem_cons.1 hx with rfl | hx
    · intro c hc; cases hc
    · exact hs x hx
  | varArr i =>
    refine ⟨rfl, fun st' h => ?_⟩
    cases h
    intro x hx
    rcases List.mem_cons.1 hx with rfl | hx
    · intro c hc; cases hc
    · exact hs x hx
  | op c =>
    obtain ⟨h1, h2⟩ := popOpsAsserting_eq (ht c rfl) st.2 st.1 hs
    simp only [rpnStepAsserting, h1, rpnStep]
    refine ⟨trivial, fun st' h => ?_⟩
    cases h
    intro x hx
    rcases List.mem_cons.1 hx with rfl | hx
    · exact ht
    · exact hs x (h2 x hx)
  | paren c =>
    refine ⟨rfl, fun st' h => ?_⟩
    simp only [rpnStep] at h
    split at h
    · cases h
      intro x hx
      rcases List.mem_cons.1 hx with rfl | hx
      · intro c hc; cases hc
      · exact hs x hx
    · split at h
      · exact fun x hx => hs x (popParen_mem _ _ _ h x hx)
      · split at h
        · split at h
          · cases h
          · cases h
          · rename_i hp
            cases h
            exact fun x hx => hs x (popParen_mem _ _ _ hp x (by simp [hx]))
        · cases h

theorem rpnLoopAsserting_eq : ∀ (ts : List Token) (st : List Tok × List Tok), (∀ t ∈ ts, ClassedTok t) → (∀ x ∈ st.2, ClassedTok x.1) →
    rpnLoopAsserting ts st = .ok (rpnLoop ts st)
  | [], _, _, _ => rfl
  | t :: ts, st, h, hs => by
    obtain ⟨h1, h2⟩ := rpnStepAsserting_eq st t (h t (by simp)) hs
    simp only [rpnLoopAsserting, h1, rpnLoop]
    cases h3 : rpnStep st t with
    | none => rfl
    | some st' => exact rpnLoopAsserting_eq ts st' (fun t ht => h t (by simp [ht])) (h2 st' h3)

theorem sortIntoRpnAsserting_eq (ts : List Token) (h : ∀ t ∈ ts, ClassedTok t) : sortIntoRpnAsserting ts = .ok (sortIntoRpn ts) := by
  simp only [sortIntoRpnAsserting, sortIntoRpn, rpnLoopAsserting_eq ts ([], []) h (by simp)]
  rcases rpnLoop ts ([], []) with _ | ⟨rpn, _ | ⟨a, b⟩⟩ <;> rfl

/-! ## Marking -/

theorem fixPair_classed {a b t : Token} (h : fixPair a b = some t) (hb : ClassedTok b) : ClassedTok t := by
  unfold fixPair at h
  split at h
  · split at h
    · cases h; intro c hc; cases hc
    · split at h
      · cases h; exact hb
      · cases h
  · split at h
    · cases h; exact hb
    · cases h

theorem markFrom_classed : ∀ (ts : List Token) (a : Token) (r : List Token), markFrom a ts = some r → (∀ t ∈ ts, ClassedTok t) → ∀ t ∈ r, ClassedTok t
  | [], a, r, h, _ => by cases h; simp
  | b :: ts, a, r, h, hk => by
    simp only [markFrom] at h
    split at h
    · cases h
    · rename_i t' ht'
      cases h2 : markFrom t' ts with
      | none => rw [h2] at h; cases h
      | some r' =>
        rw [h2] at h
        cases h
        intro t ht
        rcases List.mem_cons.1 ht with rfl | ht
        · exact fixPair_classed ht' (hk b (by simp))
        · exact markFrom_classed ts t' r' h2 (fun t ht => hk t (by simp [ht])) t ht

theorem markPrefices_classed (ts r : List Token) (h : markPrefices ts = some r) (hk : ∀ t ∈ ts, ClassedTok t) : ∀ t ∈ r, ClassedTok t := by
  cases ts with
  | nil => cases h; simp
  | cons a ts =>
    simp only [markPrefices] at h
    cases h2 : markFrom a ts with
    | none => rw [h2] at h; cases h
    | some r' =>
      rw [h2] at h
      cases h
      intro t ht
      rcases List.mem_cons.1 ht with rfl | ht
      · exact hk _ (by simp)
      · exact markFrom_classed ts a r' h2 (fun t ht => hk t (by simp [ht])) t ht

/-! ## Tokens -/

theorem scanDigits_mem : ∀ it : List Char, ∀ c ∈ (scanDigits it).2, c ∈ it
  | [] => by simp [scanDigits]
  | c :: it => by
    simp only [scanDigits]
    split
    · exact fun _ h => h
    · exact fun x hx => List.mem_cons_of_mem _ (scanDigits_mem it x hx)

theorem parsePrefix_mem (n : Nat) (it : List Char) : ∀ c ∈ (parsePrefix n it).2, c ∈ it := by
  unfold parsePrefix
  split
  · exact fun x hx => List.mem_cons_of_mem _ hx
  · exact fun x hx => hx

theorem parseScaler_mem (it : List Char) : ∀ c ∈ (parseScaler it).2, c ∈ it := by
  cases it with
  | nil => simp [parseScaler]
  | cons x it =>
    have := parsePrefix_mem
    intro c hc
    simp only [parseScaler] at hc
    repeat' split at hc
    all_goals first | exact List.mem_cons_of_mem _ (this _ it c hc) | exact hc

theorem afterPrefix_mem {base : Nat} {it : List Char} {r : Char × Nat × List Char} (h : afterPrefix base it = some r) : ∀ c ∈ r.2.2, c ∈ it := by
  cases it with
  | nil => cases h
  | cons x it => cases h; exact fun x hx => List.mem_cons_of_mem _ hx

theorem parseBase_mem {first : Char} {it : List Char} {r : Char × Nat × List Char} (h : parseBase first it = some r) : ∀ c ∈ r.2.2, c ∈ it := by
  unfold parseBase at h
  split at h
  · cases h; exact fun _ h => h
  · split at h
    · cases h; exact fun _ h => h
    · repeat' split at h
      all_goals first | exact fun c hc => List.mem_cons_of_mem _ (afterPrefix_mem h c hc) | (cases h; exact fun _ h => h)

theorem parseVal_mem {first : Char} {it : List Char} {r : Token × List Char} (h : parseVal first it = .ok r) : ClassedTok r.1 ∧ ∀ c ∈ r.2, c ∈ it := by
  unfold parseVal at h
  split at h
  · cases h
  · rename_i first' base it' hb
    split at h
    · cases h
    · simp only at h
      split at h
      · cases h
      · split at h
        · cases h
        · split at h
          · cases h
          · cases h
            exact ⟨(fun c hc => by cases hc), fun c hc => parseBase_mem hb c (scanDigits_mem _ c (parseScaler_mem _ c hc))⟩

theorem parseVar_mem {vars : Vars} {first : Char} {it : List Char} {r : Token × List Char} (h : parseVar vars first it = some r) : ClassedTok r.1 ∧ ∀ c ∈ r.2, c ∈ it := by
  simp only [parseVar] at h
  split at h
  · cases h
  · cases h
    refine ⟨fun c hc => ?_, fun c hc => (List.dropWhile_sublist isNameChar).subset hc⟩
    split at hc <;> cases hc

theorem parseOp_mem {first : Char} {it : List Char} {r : Token × List Char} (hf : Classed first) (h : parseOp first it = some r) : ClassedTok r.1 ∧ ∀ c ∈ r.2, c ∈ it := by
  unfold parseOp at h
  split at h
  · split at h
    · cases h
    · rename_i next rest
      split at h
      · split at h
        · cases h
          refine ⟨fun c hc => ?_, fun c hc => by simp [hc]⟩
          cases hc
          split <;> exact Or.inr (Or.inr (Or.inr (Or.inr (by decide))))
        · cases h
          refine ⟨fun c hc => ?_, fun c hc => hc⟩
          cases hc
          split <;> exact Or.inr (Or.inr (Or.inr (Or.inr (by decide))))
      · cases h
        exact ⟨(fun c hc => by cases hc; exact hf), fun c hc => by simp [hc]⟩
  · cases h
    exact ⟨(fun c hc => by cases hc; exact hf), fun c hc => hc⟩

/-- The operators without a class. -/
def Strange (c : Char) : Prop := c ∈ ['&', '|', '^', '!']

instance (c : Char) : Decidable (Strange c) := inferInstanceAs (Decidable (_ ∈ _))

theorem classed_of_operator {x : Char} (h : x ∈ ['+', '-', '~', '!', '*', '/', '%', '&', '|', '^', '<', '>', '@']) (hs : ¬Strange x) : Classed x := by
  simp only [List.mem_cons, List.not_mem_nil, or_false] at h
  rcases h with rfl | rfl | rfl | rfl | rfl | rfl | rfl | rfl | rfl | rfl | rfl | rfl | rfl <;>
    first | exact absurd (by decide) hs | exact Or.inl (by decide) | exact Or.inr (Or.inl (by decide)) | exact Or.inr (Or.inr (Or.inl (by decide))) | exact Or.inr (Or.inr (Or.inr (Or.inl (by decide))))

theorem tokens_classed (vars : Vars) : ∀ (fuel : Nat) (cs : List Char) (ts : List Token), tokens vars fuel cs = .ok ts → (∀ c ∈ cs, ¬Strange c) → ∀ t ∈ ts, ClassedTok t
  | 0, _, _, h, _ => by cases h
  | _ + 1, [], ts, h, _ => by cases h; simp
  | fuel + 1, x :: it, ts, h, hs => by
    have go : ∀ r : Token × List Char, ClassedTok r.1 → (∀ c ∈ r.2, c ∈ it) → (tokens vars fuel r.2).map (r.1 :: ·) = .ok ts → ∀ t ∈ ts, ClassedTok t := by
      intro r hr hm hh
      cases h2 : tokens vars fuel r.2 with
      | error e => rw [h2] at hh; cases hh
      | ok ts' =>
        rw [h2] at hh
        cases hh
        intro t ht
        rcases List.mem_cons.1 ht with rfl | ht
        · exact hr
        · exact tokens_classed vars fuel r.2 ts' h2 (fun c hc => hs c (by simp [hm c hc])) t ht
    simp only [tokens] at h
    split at h
    · exact tokens_classed vars fuel it ts h (fun c hc => hs c (by simp [hc]))
    · split at h
      · exact go (.paren x, it) (fun c hc => by cases hc) (fun c hc => hc) h
      · split at h
        · rename_i hx
          split at h
          · cases h
          · rename_i r hr
            have := parseOp_mem (classed_of_operator hx (hs x (by simp))) hr
            exact go r this.1 this.2 h
        · split at h
          · split at h
            · cases h
            · rename_i r hr
              have := parseVal_mem hr
              exact go r this.1 this.2 h
          · split at h
            · split at h
              · cases h
              · rename_i r hr
                have := parseVar_mem hr
                exact go r this.1 this.2 h
            · cases h

theorem trim_mem (cs : List Char) : ∀ c ∈ trim cs, c ∈ cs := by
  intro c hc
  unfold trim at hc
  rw [List.mem_reverse] at hc
  have := (List.dropWhile_sublist _).subset hc
  rw [List.mem_reverse] at this
  exact (List.dropWhile_sublist _).subset this

/-- Without the operators that have no class the debug build parses as the release build does. -/
theorem parseAsserting_eq (vars : Vars) (cs : List Char) (h : ∀ c ∈ cs, ¬Strange c) : parseAsserting vars cs = parse vars cs := by
  unfold parseAsserting parse
  split
  · rfl
  · split
    · rename_i e he
      rw [he]
    · rename_i ts hts
      rw [hts]
      simp only
      have hk : ∀ t ∈ ts, ClassedTok t := by
        unfold tokenize at hts
        split at hts
        · cases hts
        · rename_i ts' hts'
          cases hts
          intro t ht
          simp only [List.cons_append, List.mem_cons, List.mem_append, List.not_mem_nil, or_false] at ht
          rcases ht with rfl | ht | rfl
          · intro c hc; cases hc
          · exact tokens_classed vars _ _ _ hts' (fun c hc => h c (trim_mem cs c hc)) t ht
          · intro c hc; cases hc
      cases hm : markPrefices ts with
      | none => rfl
      | some ts2 =>
        simp only [sortIntoRpnAsserting_eq ts2 (markPrefices_classed ts ts2 hm hk)]
        cases sortIntoRpn ts2 <;> rfl

end Nd.Eval
