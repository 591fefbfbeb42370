import Verif.Spec.Pipeline
/-!
# C32: the structure of the pipeline
-/
namespace Nd.Props
open Nd Nd.Spec

/-- In increasing order of rank, the ranks being in `[lo, hi)`. -/
def Ranked (lo hi : Nat) (l : List Node) : Prop := l.Pairwise (fun a b => rank a < rank b) ∧ ∀ n ∈ l, lo ≤ rank n ∧ rank n < hi

theorem Ranked.append {lo mid hi : Nat} {l1 l2 : List Node} (h1 : Ranked lo mid l1) (h2 : Ranked mid hi l2) (hl : lo ≤ mid) (hh : mid ≤ hi) : Ranked lo hi (l1 ++ l2) := by
  refine ⟨List.pairwise_append.2 ⟨h1.1, h2.1, fun a ha b hb => ?_⟩, fun n hn => ?_⟩
  · have := h1.2 a ha
    have := h2.2 b hb
    omega
  · rcases List.mem_append.1 hn with hn | hn
    · have := h1.2 n hn
      omega
    · have := h2.2 n hn
      omega

theorem Ranked.single (n : Node) : Ranked (rank n) (rank n + 1) [n] := ⟨by simp, by simp⟩

theorem Ranked.nil (lo hi : Nat) : Ranked lo hi [] := ⟨by simp, by simp⟩

theorem Ranked.mono {lo hi lo' hi' : Nat} {l : List Node} (h : Ranked lo hi l) (h1 : lo' ≤ lo) (h2 : hi ≤ hi') : Ranked lo' hi' l :=
  ⟨h.1, fun n hn => ⟨by have := h.2 n hn; omega, by have := h.2 n hn; omega⟩⟩

theorem Ranked.opt {α : Type} (f : α → Node) (o : Option α) (lo : Nat) (hf : ∀ x, rank (f x) = lo) : Ranked lo (lo + 1) (optNode f o) := by
  cases o with
  | none => exact Ranked.nil _ _
  | some x => rw [← hf x]; exact Ranked.single _

theorem mem_opt {α : Type} (f : α → Node) (o : Option α) (n : Node) : n ∈ optNode f o ↔ ∃ x, o = some x ∧ n = f x := by
  cases o <;> simp [optNode]

theorem input_spec {m : PipelineArgs φ} {ws : Nat} {n : Node} (h : m.input = .ok (ws, n)) :
    rank n = 0 ∧ given [m.inplace, m.cat.isSome, m.zip.isSome] ≤ 1 ∧ ws = (m.cat.or m.zip).getD 1 ∧ (∀ n', rank n' = 0 → (n' = n ↔ Asked m n')) := by
  unfold PipelineArgs.input at h
  cases h1 : m.inplace <;> cases h2 : m.cat <;> cases h3 : m.zip <;> simp only [h1, h2, h3] at h <;> cases h
  all_goals
    refine ⟨rfl, by simp [given], by simp, ?_⟩
    intro n' hn'
    cases n' <;> simp [rank, Asked, h1, h3] at hn' ⊢

theorem input_err {m : PipelineArgs φ} {e : Err} (h : m.input = .error e) : 1 < given [m.inplace, m.cat.isSome, m.zip.isSome] := by
  unfold PipelineArgs.input at h
  cases h1 : m.inplace <;> cases h2 : m.cat <;> cases h3 : m.zip <;> simp only [h1, h2, h3] at h <;> cases h
  all_goals simp [given]

theorem pad_params {a b : Nat} (ha : a ≤ usizeMax) :
    ClipperParams.fromRaw (some (a, b)) (some 0) (some (0, usizeMax)) = .ok { pad := (a, b), clip := (0, 0), len := usizeMax } := by
  simp [ClipperParams.fromRaw, Nat.not_lt.2 ha]

theorem byteFilters_spec (m : PipelineArgs φ) (hpad : ∀ a b, m.pad = some (a, b) → a ≤ usizeMax) :
    ∃ l, m.byteFilters = .ok l ∧ Ranked 1 5 l ∧ ∀ n, 1 ≤ rank n → rank n < 5 → (n ∈ l ↔ Asked m n) := by
  have hc := Ranked.opt Node.cut m.cut 1 (fun _ => rfl)
  have hp := Ranked.opt Node.patch m.patch 3 (fun _ => rfl)
  have ht := Ranked.opt (fun _ => Node.tee) m.patchBack 4 (fun _ => rfl)
  unfold PipelineArgs.byteFilters
  cases h : m.pad with
  | none =>
    refine ⟨_, rfl, ((hc.append (hp.mono (lo' := 2) (by omega) (Nat.le_refl _)) (by omega) (by omega)).append ht (by omega) (by omega)), ?_⟩
    intro n h1 h2
    cases n <;> simp [rank, mem_opt, Asked, h, ← Option.isSome_iff_ne_none, Option.isSome_iff_exists] at h1 h2 ⊢ <;> grind
  | some pad =>
    obtain ⟨a, b⟩ := pad
    simp only
    by_cases h0 : (a, b) = ((0 : Nat), (0 : Nat))
    · rw [if_neg (by simpa using h0)]
      refine ⟨_, rfl, ((hc.append (hp.mono (lo' := 2) (by omega) (Nat.le_refl _)) (by omega) (by omega)).append ht (by omega) (by omega)), ?_⟩
      intro n h1 h2
      cases n <;> simp [rank, mem_opt, Asked, h, ← Option.isSome_iff_ne_none, Option.isSome_iff_exists] at h1 h2 ⊢ <;> grind
    · rw [if_pos h0, pad_params (hpad a b h)]
      refine ⟨_, rfl, (((hc.append (Ranked.single (.clipper _)) (by simp) (by simp [rank])).append (hp.mono (Nat.le_refl _) (Nat.le_refl _)) (by simp [rank]) (by simp [rank])).append ht (by omega) (by omega)), ?_⟩
      intro n h1 h2
      cases n <;> simp [rank, mem_opt, Asked, h, ← Option.isSome_iff_ne_none, Option.isSome_iff_exists] at h1 h2 ⊢ <;> grind

theorem default_slicer : ConstSlicerParams.fromRaw 2 16 { start := { anchor := 0, offset := 0 }, stop := { anchor := 1, offset := 0 } } = .ok width16 := by
  rfl

theorem slicer_spec {m : PipelineArgs φ} {c : Nat} {n : Node} (h : m.slicer = .ok (c, n)) :
    rank n = 5 ∧ given [m.width.isSome, m.find.isSome, m.walk.isSome, m.slice.isSome, m.guide.isSome] ≤ 1 ∧ (∀ n', rank n' = 5 → (n' = n ↔ Asked m n')) := by
  unfold PipelineArgs.slicer at h
  cases h1 : m.width <;> cases h2 : m.find <;> cases h3 : m.walk <;> cases h4 : m.slice <;> cases h5 : m.guide <;>
    simp only [h1, h2, h3, h4, h5, default_slicer] at h <;> cases h
  all_goals
    refine ⟨rfl, by simp [given], ?_⟩
    intro n' hn'
    cases n' <;> simp [rank, Asked, h1, h2, h3, h4, h5] at hn' ⊢ <;> grind

theorem slicer_err {m : PipelineArgs φ} {e : Err} (h : m.slicer = .error e) :
    1 < given [m.width.isSome, m.find.isSome, m.walk.isSome, m.slice.isSome, m.guide.isSome] := by
  unfold PipelineArgs.slicer at h
  cases h1 : m.width <;> cases h2 : m.find <;> cases h3 : m.walk <;> cases h4 : m.slice <;> cases h5 : m.guide <;>
    simp only [h1, h2, h3, h4, h5, default_slicer] at h <;> cases h
  all_goals simp [given]

theorem segmentFilters_spec (m : PipelineArgs φ) :
    Ranked 6 11 m.segmentFilters ∧ ∀ n, 6 ≤ rank n → rank n < 11 → (n ∈ m.segmentFilters ↔ Asked m n) := by
  refine ⟨?_, ?_⟩
  · exact ((((Ranked.opt Node.regex m.regex 6 (fun _ => rfl)).append (Ranked.opt Node.bridge m.invert 7 (fun _ => rfl)) (by omega) (by omega)).append
      (Ranked.opt Node.extend m.extend 8 (fun _ => rfl)) (by omega) (by omega)).append
      (Ranked.opt Node.merge m.merge 9 (fun _ => rfl)) (by omega) (by omega)).append
      (Ranked.opt Node.lines m.lines 10 (fun _ => rfl)) (by omega) (by omega)
  · intro n h1 h2
    unfold PipelineArgs.segmentFilters
    cases n <;> simp [rank, mem_opt, Asked] at h1 h2 ⊢ <;> grind

theorem drain_spec {m : PipelineArgs φ} {w : Bool} {n : Node} (h : m.drain = .ok (w, n)) :
    rank n = 11 ∧ given [m.output.isSome, m.patchBack.isSome] ≤ 1 ∧ (∀ n', rank n' = 11 → (n' = n ↔ Asked m n')) := by
  unfold PipelineArgs.drain at h
  cases h1 : m.output <;> cases h2 : m.patchBack <;> simp only [h1, h2] at h <;> cases h
  all_goals
    refine ⟨rfl, by simp [given], ?_⟩
    intro n' hn'
    cases n' <;> simp [rank, Asked, h1, h2] at hn' ⊢ <;> grind

theorem drain_err {m : PipelineArgs φ} {e : Err} (h : m.drain = .error e) : 1 < given [m.output.isSome, m.patchBack.isSome] := by
  unfold PipelineArgs.drain at h
  cases h1 : m.output <;> cases h2 : m.patchBack <;> simp only [h1, h2] at h <;> cases h
  all_goals simp [given]

/-! ## Accepted and rejected option sets -/

/-- Each node precedes the next one. -/
def Chained (l : List Node) : Prop := (l.zip l.tail).all (fun x => x.1.precedes x.2) = true

theorem Chained.cons {a b : Node} {l : List Node} (h : a.precedes b = true) (hl : Chained (b :: l)) : Chained (a :: b :: l) := by
  unfold Chained at *
  simp only [List.tail_cons, List.zip_cons_cons, List.all_cons, h, Bool.true_and]
  exact hl

theorem Chained.bytes {s : Node} {rest : List Node} (hs : rank s = 5) (hr : Chained (s :: rest)) :
    ∀ (l : List Node) (a : Node), rank a < 5 → (∀ n ∈ l, 1 ≤ rank n ∧ rank n < 5) → Chained (a :: (l ++ s :: rest))
  | [], a, ha, _ => by
    refine Chained.cons ?_ hr
    cases a <;> simp [rank] at ha <;> cases s <;> simp [rank] at hs <;> rfl
  | b :: l, a, ha, hl => by
    have hb := hl b (by simp)
    refine Chained.cons ?_ (Chained.bytes hs hr l b hb.2 (fun n hn => hl n (by simp [hn])))
    cases a <;> simp [rank] at ha <;> cases b <;> simp [rank] at hb <;> rfl

theorem Chained.segments {d : Node} (hd : rank d = 11) :
    ∀ (l : List Node) (a : Node), 5 ≤ rank a → rank a < 11 → (∀ n ∈ l, 6 ≤ rank n ∧ rank n < 11) → Chained (a :: (l ++ [d]))
  | [], a, ha, ha', _ => by
    refine Chained.cons ?_ (by simp [Chained])
    cases a <;> simp [rank] at ha ha' <;> cases d <;> simp [rank] at hd <;> rfl
  | b :: l, a, ha, ha', hl => by
    have hb := hl b (by simp)
    refine Chained.cons ?_ (Chained.segments hd l b (by omega) hb.2 (fun n hn => hl n (by simp [hn])))
    cases a <;> simp [rank] at ha ha' <;> cases b <;> simp [rank] at hb <;> rfl

/-- The parts of an accepted pipeline. -/
structure Parts (m : PipelineArgs φ) (p : Pipeline φ) where
  input : Node
  bytes : List Node
  slicer : Node
  drain : Node
  nodes : p.nodes = input :: bytes ++ slicer :: m.segmentFilters ++ [drain]
  hinput : ∀ n, rank n = 0 → (n = input ↔ Asked m n)
  hinput' : rank input = 0
  hbytes : Ranked 1 5 bytes ∧ ∀ n, 1 ≤ rank n → rank n < 5 → (n ∈ bytes ↔ Asked m n)
  hslicer : ∀ n, rank n = 5 → (n = slicer ↔ Asked m n)
  hslicer' : rank slicer = 5
  hdrain : ∀ n, rank n = 11 → (n = drain ↔ Asked m n)
  hdrain' : rank drain = 11

theorem finish_spec (fmt : String → Nat → φ) (m : PipelineArgs φ) (ws f c : Nat) (w : Bool) (nodes : List Node) (hn : Chained nodes) :
    (ws = 0 ∧ Pipeline.fromArgs.finish fmt m ws f c w nodes = .error .invalid) ∨
    ∃ p, 0 < ws ∧ Pipeline.fromArgs.finish fmt m ws f c w nodes = .ok p ∧ p.nodes = nodes ∧ p.wordSize = ws ∧ p.filler = f := by
  unfold Pipeline.fromArgs.finish Pipeline.validate
  unfold Chained at hn
  by_cases h0 : ws = 0
  · left; simp [h0]
  · right
    simp only [h0, if_false, hn, if_true]
    exact ⟨_, by omega, rfl, rfl, rfl, rfl⟩

theorem fromArgs_spec (fmt : String → Nat → φ) (m : PipelineArgs φ) (hpad : ∀ a b, m.pad = some (a, b) → a ≤ usizeMax) :
    (¬ Valid m ∧ ∃ e, Pipeline.fromArgs fmt m = .error e) ∨
    (Valid m ∧ ∃ p, Pipeline.fromArgs fmt m = .ok p ∧ Nonempty (Parts m p) ∧ p.wordSize = (m.cat.or m.zip).getD 1 ∧ p.filler = m.filler.getD 0) := by
  unfold Pipeline.fromArgs
  cases h1 : m.input with
  | error e =>
    left
    exact ⟨fun v => by have := v.input; have := input_err h1; omega, _, rfl⟩
  | ok r =>
    obtain ⟨ws, i⟩ := r
    obtain ⟨a1, a2, a3, a4⟩ := input_spec h1
    obtain ⟨bs, h2, b1, b2⟩ := byteFilters_spec m hpad
    simp only [h2]
    cases h3 : m.slicer with
    | error e =>
      left
      exact ⟨fun v => by have := v.slicer; have := slicer_err h3; omega, _, rfl⟩
    | ok r =>
      obtain ⟨c, s⟩ := r
      obtain ⟨c1, c2, c3⟩ := slicer_spec h3
      simp only
      cases h4 : m.drain with
      | error e =>
        left
        exact ⟨fun v => by have := v.drain; have := drain_err h4; omega, _, rfl⟩
      | ok r =>
        obtain ⟨w, d⟩ := r
        obtain ⟨d1, d2, d3⟩ := drain_spec h4
        obtain ⟨e1, e2⟩ := segmentFilters_spec m
        have hch : Chained (i :: bs ++ s :: m.segmentFilters ++ [d]) := by
          have := Chained.bytes c1 (Chained.segments d1 m.segmentFilters s (by omega) (by omega) e1.2) bs i (by omega) b1.2
          simpa using this
        have hw : (∀ f, m.filler = some f → f < 256) → 0 < ws → Valid m := by
          intro hf h0
          refine ⟨a2, c2, d2, ?_, hf⟩
          rw [a3] at h0
          cases hi : m.inplace <;> cases hc : m.cat <;> cases hz : m.zip <;> simp [hi, hc, hz, given] at h0 a2 ⊢ <;> omega
        have hw' : ws = 0 → ¬ Valid m := by
          intro h0 v
          rw [a3] at h0
          have := v.word
          cases hc : m.cat <;> cases hz : m.zip <;> simp_all
        cases h5 : m.filler with
        | none =>
          simp only
          rcases finish_spec fmt m ws 0 c w _ hch with ⟨h0, h⟩ | ⟨p, h0, h, hn, hws, hf⟩
          · exact Or.inl ⟨hw' h0, _, h⟩
          · exact Or.inr ⟨hw (by simp [h5]) h0, p, h, ⟨⟨i, bs, s, d, hn, a4, a1, ⟨b1, b2⟩, c3, c1, d3, d1⟩⟩, by rw [hws, a3], by simp [hf]⟩
        | some f =>
          simp only
          by_cases hlt : f ≤ 255
          · rw [if_pos hlt]
            rcases finish_spec fmt m ws f c w _ hch with ⟨h0, h⟩ | ⟨p, h0, h, hn, hws, hf⟩
            · exact Or.inl ⟨hw' h0, _, h⟩
            · exact Or.inr ⟨hw (by simp [h5]; omega) h0, p, h, ⟨⟨i, bs, s, d, hn, a4, a1, ⟨b1, b2⟩, c3, c1, d3, d1⟩⟩, by rw [hws, a3], by simp [hf]⟩
          · rw [if_neg hlt]
            exact Or.inl ⟨fun v => by have := v.filler f h5; omega, _, rfl⟩

/-- **C32, acceptance.**  An option set is accepted if and only if it makes sense. -/
theorem C32_accepts (fmt : String → Nat → φ) (m : PipelineArgs φ) (hpad : ∀ a b, m.pad = some (a, b) → a ≤ usizeMax) :
    (∃ p, Pipeline.fromArgs fmt m = .ok p) ↔ Valid m := by
  rcases fromArgs_spec fmt m hpad with ⟨h1, e, h2⟩ | ⟨h1, p, h2, _⟩
  · simp [h1, h2]
  · simp [h1, h2]

/-- **C32, order.**  The nodes of an accepted pipeline are those asked for, each once, in the documented order. -/
theorem C32_order (fmt : String → Nat → φ) (m : PipelineArgs φ) (hpad : ∀ a b, m.pad = some (a, b) → a ≤ usizeMax) (p : Pipeline φ)
    (h : Pipeline.fromArgs fmt m = .ok p) :
    p.nodes.Pairwise (fun a b => rank a < rank b) ∧ (∀ n, n ∈ p.nodes ↔ Asked m n) ∧
    p.wordSize = (m.cat.or m.zip).getD 1 ∧ p.filler = m.filler.getD 0 := by
  rcases fromArgs_spec fmt m hpad with ⟨_, e, h2⟩ | ⟨_, p', h2, ⟨P⟩, h3, h4⟩
  · rw [h] at h2; cases h2
  rw [h] at h2
  cases h2
  obtain ⟨e1, e2⟩ := segmentFilters_spec m
  refine ⟨?_, ?_, h3, h4⟩
  · rw [P.nodes]
    have hi : Ranked 0 1 [P.input] := by have := Ranked.single P.input; rwa [P.hinput'] at this
    have hs : Ranked 5 6 [P.slicer] := by have := Ranked.single P.slicer; rwa [P.hslicer'] at this
    have hd : Ranked 11 12 [P.drain] := by have := Ranked.single P.drain; rwa [P.hdrain'] at this
    have := (((hi.append P.hbytes.1 (by omega) (by omega)).append hs (by omega) (by omega)).append e1 (by omega) (by omega)).append hd (by omega) (by omega)
    simpa using this.1
  · intro n
    have hr : rank n = 0 ∨ (1 ≤ rank n ∧ rank n < 5) ∨ rank n = 5 ∨ (6 ≤ rank n ∧ rank n < 11) ∨ rank n = 11 := by
      cases n <;> simp [rank]
    have r1 := P.hinput'
    have r2 := P.hbytes.1.2 n
    have r3 := P.hslicer'
    have r4 := e1.2 n
    have r5 := P.hdrain'
    have n1 : n = P.input → rank n = 0 := fun h => by rw [h]; exact r1
    have n3 : n = P.slicer → rank n = 5 := fun h => by rw [h]; exact r3
    have n5 : n = P.drain → rank n = 11 := fun h => by rw [h]; exact r5
    have hm : n ∈ p.nodes ↔ n = P.input ∨ n ∈ P.bytes ∨ n = P.slicer ∨ n ∈ m.segmentFilters ∨ n = P.drain := by
      rw [P.nodes]; simp
    rw [hm]
    rcases hr with hr | hr | hr | hr | hr
    · rw [← P.hinput n hr]
      refine ⟨fun h => ?_, Or.inl⟩
      rcases h with h | h | h | h | h
      · exact h
      · have := r2 h; omega
      · have := n3 h; omega
      · have := r4 h; omega
      · have := n5 h; omega
    · rw [← P.hbytes.2 n hr.1 hr.2]
      refine ⟨fun h => ?_, fun h => Or.inr (Or.inl h)⟩
      rcases h with h | h | h | h | h
      · have := n1 h; omega
      · exact h
      · have := n3 h; omega
      · have := r4 h; omega
      · have := n5 h; omega
    · rw [← P.hslicer n hr]
      refine ⟨fun h => ?_, fun h => Or.inr (Or.inr (Or.inl h))⟩
      rcases h with h | h | h | h | h
      · have := n1 h; omega
      · have := r2 h; omega
      · exact h
      · have := r4 h; omega
      · have := n5 h; omega
    · rw [← e2 n hr.1 hr.2]
      refine ⟨fun h => ?_, fun h => Or.inr (Or.inr (Or.inr (Or.inl h)))⟩
      rcases h with h | h | h | h | h
      · have := n1 h; omega
      · have := r2 h; omega
      · have := n3 h; omega
      · exact h
      · have := n5 h; omega
    · rw [← P.hdrain n hr]
      refine ⟨fun h => ?_, fun h => Or.inr (Or.inr (Or.inr (Or.inr h)))⟩
      rcases h with h | h | h | h | h
      · have := n1 h; omega
      · have := r2 h; omega
      · have := n3 h; omega
      · have := r4 h; omega
      · exact h

/-- The order and the membership determine the list of nodes. -/
theorem ranked_unique : ∀ {l1 l2 : List Node}, l1.Pairwise (fun a b => rank a < rank b) → l2.Pairwise (fun a b => rank a < rank b) →
    (∀ n, n ∈ l1 ↔ n ∈ l2) → l1 = l2
  | [], [], _, _, _ => rfl
  | [], b :: l2, _, _, h => by have := (h b).2 (by simp); simp at this
  | a :: l1, [], _, _, h => by have := (h a).1 (by simp); simp at this
  | a :: l1, b :: l2, h1, h2, h => by
    rw [List.pairwise_cons] at h1 h2
    have hab : a = b := by
      rcases List.mem_cons.1 ((h a).1 (by simp)) with ha | ha
      · exact ha
      rcases List.mem_cons.1 ((h b).2 (by simp)) with hb | hb
      · exact hb.symm
      have := h2.1 a ha
      have := h1.1 b hb
      omega
    subst hab
    congr 1
    refine ranked_unique h1.2 h2.2 (fun n => ?_)
    constructor
    · intro hn
      rcases List.mem_cons.1 ((h n).1 (by simp [hn])) with e | e
      · have := h1.1 n hn; rw [e] at this; omega
      · exact e
    · intro hn
      rcases List.mem_cons.1 ((h n).2 (by simp [hn])) with e | e
      · have := h2.1 n hn; rw [e] at this; omega
      · exact e

/-! ## Spawning -/

/-- The stream that the documentation promises: the input, the byte filters one after another, the slicer, the slice manipulators one after
another, and the drain, which is given a second reader on the filtered bytes if it patches them. -/
def composed (T : Stages β γ κ) (i : Node) (bs : List Node) (s : Node) (ms : List Node) (d : Node) : Except Err β := do
  let b ← T.input i
  let b ← bs.foldlM (fun b n => T.filter n b) b
  let g ← T.slicer s b
  let g ← ms.foldlM (fun g n => T.manipulate n g) g
  match d with
  | .patchBack _ => T.patchBack d (T.reader b) g
  | _ => T.scatter d g

/-- The second reader. -/
def readerOf (T : Stages β γ κ) (l : List Node) (b : β) : Option κ := if .tee ∈ l then some (T.reader b) else none

theorem loop_bytes (T : Stages β γ κ) (rest : List Node) :
    ∀ (l : List Node) (x : β), Ranked 1 5 l →
      T.loop (l ++ rest) (none, .byte x) = match l.foldlM (fun b n => T.filter n b) x with
        | .error e => .error e
        | .ok b => T.loop rest (readerOf T l b, .byte b)
  | [], x, _ => rfl
  | n :: l, x, h => by
    have hp := List.pairwise_cons.1 h.1
    have hl : Ranked 1 5 l := ⟨hp.2, fun a ha => h.2 a (by simp [ha])⟩
    have hn := h.2 n (by simp)
    simp only [List.cons_append, List.foldlM_cons, Stages.loop]
    by_cases ht : n = .tee
    · subst ht
      have hnil : l = [] := by
        cases l with
        | nil => rfl
        | cons a l =>
          have h1 := hp.1 a (by simp)
          have h2 := h.2 a (by simp)
          have h3 : rank .tee = 4 := rfl
          omega
      subst hnil
      cases hf : T.filter .tee x with
      | error e => simp only [Stages.step, hf]; rfl
      | ok b => simp only [Stages.step, hf, List.nil_append, readerOf, List.mem_singleton, if_true]; rfl
    · have hstep : T.step n (none, .byte x) = match T.filter n x with
          | .error e => .error e
          | .ok s => .ok (none, .byte s) := by
        cases n <;> simp [rank] at hn ht <;> rfl
      rw [hstep]
      cases hf : T.filter n x with
      | error e => rfl
      | ok b =>
        simp only
        rw [loop_bytes T rest l b hl]
        have : ∀ b, readerOf T (n :: l) b = readerOf T l b := by
          intro b
          unfold readerOf
          simp [Ne.symm ht]
        simp only [this]
        rfl

theorem loop_segments (T : Stages β γ κ) (rest : List Node) (c : Option κ) :
    ∀ (l : List Node) (x : γ), (∀ n ∈ l, 6 ≤ rank n ∧ rank n < 11) →
      T.loop (l ++ rest) (c, .segment x) = match l.foldlM (fun g n => T.manipulate n g) x with
        | .error e => .error e
        | .ok g => T.loop rest (c, .segment g)
  | [], x, _ => rfl
  | n :: l, x, h => by
    have hn := h n (by simp)
    simp only [List.cons_append, List.foldlM_cons, Stages.loop]
    have hstep : T.step n (c, .segment x) = match T.manipulate n x with
        | .error e => .error e
        | .ok s => .ok (c, .segment s) := by
      cases n <;> simp [rank] at hn <;> rfl
    rw [hstep]
    cases hf : T.manipulate n x with
    | error e => rfl
    | ok g =>
      simp only
      rw [loop_segments T rest c l g (fun a ha => h a (by simp [ha]))]
      rfl

/-- **C32, spawning.**  The nodes of an accepted pipeline are one input, byte filters, one slicer, slice manipulators and one drain, and
`spawn_stream` is the composition of these in that order: it fails only if one of the constructors does. -/
theorem C32_spawn (fmt : String → Nat → φ) (m : PipelineArgs φ) (hpad : ∀ a b, m.pad = some (a, b) → a ≤ usizeMax) (p : Pipeline φ)
    (h : Pipeline.fromArgs fmt m = .ok p) (T : Stages β γ κ) :
    ∃ i bs s ms d, p.nodes = i :: bs ++ s :: ms ++ [d] ∧ i.cls = .placeholder ∧ (∀ n ∈ bs, n.cls = .byteFilter) ∧ s.cls = .slicer ∧
      (∀ n ∈ ms, n.cls = .segmentFilter) ∧ d.cls = .drain ∧ p.spawnStream T = composed T i bs s ms d := by
  rcases fromArgs_spec fmt m hpad with ⟨_, e, h2⟩ | ⟨_, p', h2, ⟨P⟩, h3, h4⟩
  · rw [h] at h2; cases h2
  rw [h] at h2
  cases h2
  obtain ⟨e1, e2⟩ := segmentFilters_spec m
  have ci : P.input.cls = .placeholder := by
    have := P.hinput'
    cases hc : P.input <;> simp [hc, rank] at this <;> rfl
  have cs : P.slicer.cls = .slicer := by
    have := P.hslicer'
    cases hc : P.slicer <;> simp [hc, rank] at this <;> rfl
  have cd : P.drain.cls = .drain := by
    have := P.hdrain'
    cases hc : P.drain <;> simp [hc, rank] at this <;> rfl
  refine ⟨P.input, P.bytes, P.slicer, m.segmentFilters, P.drain, P.nodes, ci, ?_, cs, ?_, cd, ?_⟩
  · intro n hn
    have := P.hbytes.1.2 n hn
    cases n <;> simp [rank] at this <;> rfl
  · intro n hn
    have := e1.2 n hn
    cases n <;> simp [rank] at this <;> rfl
  unfold Pipeline.spawnStream
  rw [P.nodes]
  simp only [List.cons_append, List.append_assoc]
  rw [if_neg (by simp), ci]
  simp only [composed]
  cases hi : T.input P.input with
  | error e => rfl
  | ok x =>
    simp only
    rw [loop_bytes T _ P.bytes x P.hbytes.1]
    simp only [bind, Except.bind]
    cases hb : P.bytes.foldlM (fun b n => T.filter n b) x with
    | error e => rfl
    | ok b =>
      simp only [Stages.loop]
      have hstep : T.step P.slicer (readerOf T P.bytes b, .byte b) = match T.slicer P.slicer b with
          | .error e => .error e
          | .ok s => .ok (readerOf T P.bytes b, .segment s) := by
        have := P.hslicer'
        cases hc : P.slicer <;> simp [hc, rank] at this <;> rfl
      rw [hstep]
      cases hs : T.slicer P.slicer b with
      | error e => rfl
      | ok g =>
        simp only
        rw [loop_segments T [P.drain] _ m.segmentFilters g e1.2]
        cases hg : m.segmentFilters.foldlM (fun g n => T.manipulate n g) g with
        | error e => rfl
        | ok g =>
          simp only [Stages.loop]
          have hd := P.hdrain'
          have hdr := P.hdrain
          cases hc : P.drain <;> simp [hc, rank] at hd
          · simp only [Stages.step]
            cases T.scatter _ g <;> rfl
          · rename_i cmd
            have hask : m.patchBack = some cmd := by
              have := (hdr (.patchBack cmd) rfl).1 hc.symm
              exact this
            have htee : Node.tee ∈ P.bytes := (P.hbytes.2 .tee (by simp [rank]) (by simp [rank])).2 (by simp [Asked, hask])
            simp only [Stages.step, readerOf, htee, if_true]
            cases T.patchBack _ _ g <;> rfl

/-! ## Instances -/

/-- With no options, the inputs are concatenated and dumped in 16-byte columns. -/
example : ∃ p, Pipeline.fromArgs (fun s n => (s, n)) ({} : PipelineArgs (String × Nat)) = .ok p ∧ p.nodes = [.cat, .width width16, .scatter "-"] :=
  ⟨_, rfl, rfl⟩

/-- The options in the documented order, whatever the order on the command line. -/
example : ∃ p, Pipeline.fromArgs (fun s n => (s, n))
      ({ zip := some 4, lines := some "1..2", merge := some 3, patch := some "p", cut := some "0..5", pad := some (1, 2), find := some "x",
         regex := some "r", invert := some "s..e", extend := some "s..e", patchBack := some "vi", filler := some 255 } : PipelineArgs (String × Nat)) = .ok p ∧
    p.nodes = [.zip, .cut "0..5", .clipper { pad := (1, 2), clip := (0, 0), len := usizeMax }, .patch "p", .tee, .find "x",
      .regex "r", .bridge "s..e", .extend "s..e", .merge 3, .lines "1..2", .patchBack "vi"] :=
  ⟨_, rfl, rfl⟩

example : Valid ({ zip := some 4, pad := some (1, 2), find := some "x", patchBack := some "vi", filler := some 255 } : PipelineArgs Unit) :=
  ⟨by decide, by decide, by decide, by decide, by simp⟩

example : ¬ Valid ({ find := some "x", width := some width16 } : PipelineArgs Unit) := fun v => absurd v.slicer (by decide)

/-! ## Formats -/

/-- **C32, formats.**  The input is binary by default; the output is printed as hex, except if it replaces the input file, which is binary; the patches are hex. -/
theorem C32_formats (fmt : String → Nat → φ) (m : PipelineArgs φ) (p : Pipeline φ) (h : Pipeline.fromArgs fmt m = .ok p) :
    p.inFormat = m.inFormat.getD (fmt "b" (columns m)) ∧ p.outFormat = m.outFormat.getD (fmt (if replaces m then "b" else "xxx") (columns m)) ∧ p.patchFormat = fmt "xxx" (columns m) := by
  have fin : ∀ ws f c w nodes, Pipeline.fromArgs.finish fmt m ws f c w nodes = .ok p →
      p.inFormat = m.inFormat.getD (fmt "b" c) ∧ p.outFormat = m.outFormat.getD (fmt (if m.inplace && w then "b" else "xxx") c) ∧ p.patchFormat = fmt "xxx" c := by
    intro ws f c w nodes h
    unfold Pipeline.fromArgs.finish at h
    simp only at h
    split at h
    · cases h
    · cases h; exact ⟨rfl, rfl, rfl⟩
  have key : ∃ ws f w nodes, (m.inplace && w) = replaces m ∧ Pipeline.fromArgs.finish fmt m ws f (columns m) w nodes = .ok p := by
    unfold Pipeline.fromArgs at h
    cases h1 : m.input with
    | error e => rw [h1] at h; cases h
    | ok x =>
      cases h2 : m.byteFilters with
      | error e => rw [h1, h2] at h; cases h
      | ok y =>
        cases h3 : m.slicer with
        | error e => rw [h1, h2, h3] at h; cases h
        | ok z =>
          cases h4 : m.drain with
          | error e => rw [h1, h2, h3, h4] at h; cases h
          | ok d =>
            rw [h1, h2, h3, h4] at h
            obtain ⟨c, s⟩ := z
            obtain ⟨w, d⟩ := d
            have hc : c = columns m := by
              unfold PipelineArgs.slicer at h3
              unfold columns
              cases e1 : m.width <;> cases e2 : m.find <;> cases e3 : m.walk <;> cases e4 : m.slice <;> cases e5 : m.guide <;>
                simp only [e1, e2, e3, e4, e5, default_slicer] at h3 <;> cases h3 <;> simp [given]
            have hw : (m.inplace && w) = replaces m := by
              unfold PipelineArgs.drain at h4
              unfold replaces
              cases e1 : m.output <;> cases e2 : m.patchBack <;> simp only [e1, e2] at h4 <;> cases h4
              · simp
              · simp
              · rename_i file
                have : file.isEmpty = (file == "") := by
                  rw [Bool.eq_iff_iff]
                  simp
                simp [this]
            subst hc
            simp only at h
            split at h
            · split at h
              · exact ⟨_, _, _, _, hw, h⟩
              · cases h
            · exact ⟨_, _, _, _, hw, h⟩
  obtain ⟨ws, f, w, nodes, h1, h2⟩ := key
  have := fin ws f (columns m) w nodes h2
  rwa [h1] at this

example : ∃ p, Pipeline.fromArgs (fun s n => (s, n)) ({ inplace := true, output := some "x.bin" } : PipelineArgs (String × Nat)) = .ok p ∧ p.inFormat = ("b", 16) ∧ p.outFormat = ("xxx", 16) :=
  ⟨_, rfl, rfl, rfl⟩

example : ∃ p, Pipeline.fromArgs (fun s n => (s, n)) ({ inplace := true, patch := some "p", find := some "x" } : PipelineArgs (String × Nat)) = .ok p ∧ p.outFormat = ("b", 0) ∧ p.patchFormat = ("xxx", 0) :=
  ⟨_, rfl, rfl, rfl⟩

end Nd.Props
