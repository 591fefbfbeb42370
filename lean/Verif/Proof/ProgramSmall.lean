import Verif.Proof.Thread
/-!
# The stages of the program on a stream that is shorter than a block
-/
namespace Nd
open Spec Props

theorem mem_of_keep {P : Nat → Bool} {x : α} : ∀ {i : Nat} {l : List α}, x ∈ keep P i l → x ∈ l
  | _, [], h => by simp [keep] at h
  | i, y :: l, h => by
    unfold keep at h
    split at h
    · rcases List.mem_cons.1 h with rfl | h
      · simp
      · exact List.mem_cons_of_mem _ (mem_of_keep h)
    · exact List.mem_cons_of_mem _ (mem_of_keep h)

theorem adjacent_inside : ∀ (ls : List Nat) (p : Nat), ∀ x ∈ adjacent p ls, p ≤ x.pos ∧ x.tail ≤ p + ls.sum
  | [], _, x, h => by simp [adjacent] at h
  | l :: ls, p, x, h => by
    simp only [adjacent, List.mem_cons] at h
    rcases h with rfl | h
    · simp [Seg.tail]
    · have := adjacent_inside ls (p + l) x h
      simp only [List.sum_cons]
      omega

theorem walks_inside {len : Bytes → List Nat → Prop} {p : Nat} {stream : Bytes} {segs : List Seg} (h : Walks len p stream segs) : ∀ x ∈ segs, x.tail ≤ p + stream.length := by
  induction h with
  | nil => simp
  | cut p stream ls segs _ _ h3 _ ih =>
    intro x hx
    rcases List.mem_append.1 hx with hx | hx
    · have := adjacent_inside ls p x hx
      omega
    · have := ih x hx
      simp only [List.length_drop] at this
      omega

/-- The slices of the slicers that need no other files. -/
theorem cuts_inside {sl : Slicer} {content : Bytes} {raw : List Seg} (h : sl.Cuts content raw) (hg : ∀ recs, sl = .guide recs → ∀ r ∈ recs, r.offset + r.span ≤ content.length) :
    ∀ x ∈ raw, x.tail ≤ content.length := by
  intro x hx
  cases sl with
  | width n r =>
    simp only [Slicer.Cuts] at h
    subst h
    simp only [strides, List.mem_filterMap] at hx
    obtain ⟨i, _, hi⟩ := hx
    split at hi
    · cases hi
      simp only [Seg.tail]
      omega
    · cases hi
  | slice rs =>
    simp only [Slicer.Cuts] at h
    obtain ⟨_, r, _, _, h⟩ := (h.2 x).1 hx
    omega
  | find p =>
    simp only [Slicer.Cuts] at h
    subst h
    exact (occurrences_mem hx).2.2
  | walk es =>
    have := walks_inside h x hx
    omega
  | guide recs =>
    simp only [Slicer.Cuts] at h
    subst h
    obtain ⟨r, hr, rfl⟩ := List.mem_map.1 hx
    exact hg recs rfl r hr

theorem searched_inside {find : Bytes → List Seg} (hf : Searcher find) {content : Bytes} {segs : List Seg} (h : ∀ x ∈ segs, x.tail ≤ content.length) :
    ∀ x ∈ Spec.searched find content segs, x.tail ≤ content.length := by
  intro x hx
  obtain ⟨s, hs, hx⟩ := List.mem_flatMap.1 hx
  obtain ⟨m, hm, rfl⟩ := List.mem_map.1 hx
  have h1 := hf.within _ m hm
  have h2 := h s hs
  simp only [Seg.tail, Seg.bytes, List.length_take, List.length_drop] at h1 h2 ⊢
  omega

theorem extended_inside {j : Job} {len : Nat} {segs ext : List Seg} (h : ∀ x ∈ segs, x.tail ≤ len) (he : j.Extended len segs ext) : ∀ x ∈ ext, x.tail ≤ len := by
  unfold Job.Extended at he
  split at he
  · rw [he]
    exact h
  · intro x hx
    obtain ⟨s, _, hx⟩ := List.mem_flatMap.1 (he.1.mem_iff.1 hx)
    obtain ⟨_, _, _, h, _⟩ := images_mem hx
    exact h

theorem inverted_inside {j : Job} {len : Nat} {segs : List Seg} (h : ∀ x ∈ segs, x.tail ≤ len) : ∀ x ∈ j.inverted len segs, x.tail ≤ len := by
  unfold Job.inverted
  split
  · exact h
  · intro x hx
    obtain ⟨s, _, hx⟩ := List.mem_flatMap.1 hx
    obtain ⟨_, _, _, h, _⟩ := images_mem hx
    exact h

theorem picked_inside {j : Job} {len : Nat} {segs : List Seg} (h : ∀ x ∈ segs, x.tail ≤ len) (hs : j.merge.isSome → Sorted segs) : ∀ x ∈ j.picked (j.merged segs), x.tail ≤ len := by
  have hm : ∀ x ∈ j.merged segs, x.tail ≤ len := by
    unfold Job.merged
    split
    · exact h
    · rename_i n hn
      intro x hx
      obtain ⟨_, ⟨y, hy, h'⟩, _⟩ := (C22_fold_meaning _ segs (hs (by rw [hn]; rfl))).1 x hx
      have := h y hy
      omega
  unfold Job.picked
  split
  · exact hm
  · exact fun x hx => hm x (mem_of_keep hx)

/-- The slices are parts of the stream. -/
theorem slices_inside {j : Job} {B : Nat} {reads : List (Nat → Option Nat)} {content : Bytes} {segs : List Seg} (hs : j.Slices content segs)
    (hj : j.Suits B reads content ∨ j.Orderly content) : ∀ x ∈ segs, x.tail ≤ content.length := by
  rcases hj with (hf | hg | hw | hd) | ho
  rotate_left
  · obtain ⟨_, recs, hsl, ⟨f1, f2, f3, f4, f5⟩, _, hr⟩ := hg
    obtain ⟨raw, ext, h1, h2, rfl⟩ := hs
    have hraw := cuts_inside h1 fun recs' h r hr' => by
      rw [hsl] at h
      cases h
      exact (hr r hr').2.2
    unfold Job.Extended Job.inverted Job.searched at h2
    unfold Job.picked Job.merged
    rw [f1, f2, f3] at h2
    rw [f4, f5]
    simp only at h2
    rw [h2]
    exact hraw
  · obtain ⟨es, H, sched, hsl, ⟨f1, f2, f3, f4, f5⟩, _⟩ := hw
    obtain ⟨raw, ext, h1, h2, rfl⟩ := hs
    have hraw := cuts_inside h1 fun recs' h => by
      rw [hsl] at h
      cases h
    unfold Job.Extended Job.inverted Job.searched at h2
    unfold Job.picked Job.merged
    rw [f1, f2, f3] at h2
    rw [f4, f5]
    simp only at h2
    rw [h2]
    exact hraw
  · obtain ⟨n, r, hsl, ⟨f1, f2, f3, f4, f5⟩, _⟩ := hd
    obtain ⟨raw, ext, h1, h2, rfl⟩ := hs
    have hraw := cuts_inside h1 fun recs' h => by
      rw [hsl] at h
      cases h
    unfold Job.Extended Job.inverted Job.searched at h2
    unfold Job.picked Job.merged
    rw [f1, f2, f3] at h2
    rw [f4, f5]
    simp only at h2
    rw [h2]
    exact hraw
  rotate_left
  · obtain ⟨raw, ext, h1, h2, rfl⟩ := hs
    have hraw := cuts_inside h1 fun recs h => by have := hf.2; rw [h] at this; exact this.elim
    have hsr : ∀ x ∈ j.searched content raw, x.tail ≤ content.length := by
      unfold Job.searched
      rw [hf.1.1]
      exact hraw
    exact picked_inside (extended_inside (inverted_inside hsr) h2) fun _ => hf.sorted h1 h2
  · obtain ⟨raw, ext, h1, h2, rfl⟩ := hs
    have hraw := cuts_inside h1 fun recs h => by have := ho.slicer; rw [h] at this; exact this.2
    have hsr : ∀ x ∈ j.searched content raw, x.tail ≤ content.length := by
      unfold Job.searched
      split
      · exact hraw
      · rename_i find hfi
        exact searched_inside (ho.regex find hfi).1 hraw
    exact picked_inside (extended_inside (inverted_inside hsr) h2) fun hm => ho.merge hm raw ext h1 h2

/-- The slicer lends everything at once. -/
theorem slicer_shot (h : Host) (p : Pipeline InoutFormat) (j : Job) (scheds : List (Nat → Option Nat)) {content : Bytes} {raw : List Seg} (hB : 0 < h.block) (hc : h.checks = false)
    (ho : j.Orderly content) {node : Node} (hn : j.slicer.Node h scheds node) (hs : j.slicer.Cuts content raw) (hshort : content.length < h.block) (hlen : content.length < 2 ^ 48) :
    ∃ N, ∀ fuel, N < fuel → ∀ {d : DynByte} {w : Nat} {tee : Prop}, Feeds d (Failing scheds) h.block w content tee →
      ∃ g, (h.withFuel fuel).slicer p node d = .ok g ∧ ∃ n ≤ content.length, ∃ tidy,
        Shot g.src (Failing scheds) (fun s => Kept tee (g.cache s) content (content.drop n)) g.st content n raw tidy True ∧ (j.invert.isSome ∨ j.extend.isSome → n = content.length) ∧
        (j.lines.isSome → tidy) ∧ (n = content.length ∨ ∀ x ∈ raw, x.pos < n) ∧ ((∀ rs, j.slicer ≠ .slice rs) → n = content.length) := by
  have ho := ho.slicer
  have hlend : ∀ {d : DynByte} {w : Nat} {tee : Prop}, Feeds d (Failing scheds) h.block w content tee → Lends d.src (Failing scheds) (fun rem s => Kept tee (d.cache s) content rem) d.st content :=
    fun hd => hd.lends hshort
  cases hsl : j.slicer with
  | width n r =>
    rw [hsl] at ho hn hs
    cases node <;> simp only [Slicer.Node] at hn
    obtain ⟨m, fuel', h1, h2, h3⟩ := hn
    simp only at ho
    obtain ⟨o1, o2, o3, o4⟩ := ho
    refine ⟨0, fun fuel _ d w tee hd => ?_⟩
    obtain ⟨st, g1, g2⟩ := ConstSlicer.shot (hlend hd) o1 h2 h3
    simp only [Slicer.Cuts] at hs
    subst hs
    simp only [Host.slicer, attempt, g1]
    refine ⟨_, rfl, _, Nat.le_refl _, _, by rw [List.drop_length]; exact g2, fun _ => rfl, ?_, Or.inl rfl, fun _ => rfl⟩
    exact fun hl => ⟨o3, o4 hl⟩
  | slice rs =>
    rw [hsl] at ho hn hs
    cases node <;> simp only [Slicer.Node] at hn
    obtain ⟨ms, h1, h2⟩ := hn
    simp only [Slicer.Cuts] at hs
    subst h2
    refine ⟨0, fun fuel _ d w tee hd => ?_⟩
    obtain ⟨st, hst⟩ := C20_new_ok d.st (ms.map RangeMapper.ofMapper)
    obtain ⟨n, hn, g, gall⟩ := RangeSlicer.shot (hlend hd) h.block hst (by unfold usizeMax; omega) hs
    simp only [Host.slicer, attempt, h1, Host.withFuel, hc, hst]
    refine ⟨_, rfl, n, hn, _, g, fun h => ?_, fun _ => trivial, Or.inr gall, fun h => absurd rfl (h _)⟩
    simp only at ho
    rw [ho.1, ho.2] at h
    simp at h
  | find q =>
    rw [hsl] at ho hn hs
    cases node <;> simp only [Slicer.Node] at hn
    simp only at ho
    simp only [Slicer.Cuts] at hs
    subst hs
    refine ⟨0, fun fuel _ d w tee hd => ?_⟩
    have := ExactMatchSlicer.shot (hlend hd) ho.1 h.block (segs := occurrences q content) (by
      rw [occurrences_eq, findIter_eq q ho.1 ho.2 content 0 0 (by simp)]
      simp)
    simp only [Host.slicer, attempt, ExactMatchSlicer.new, Host.withFuel, hn]
    exact ⟨_, rfl, _, Nat.le_refl _, _, by rw [List.drop_length]; exact this, fun _ => rfl, fun _ => trivial, Or.inl rfl, fun _ => rfl⟩
  | walk es =>
    rw [hsl] at ho hn hs
    cases node <;> simp only [Slicer.Node] at hn
    rename_i text
    obtain ⟨hl, st0, hst0⟩ := hn
    simp only at ho
    obtain ⟨hne, ho⟩ := ho
    obtain ⟨H, hH⟩ : ∃ H, ∀ e ∈ es, Walkable H e := by
      clear hs hl hne hsl
      induction es with
      | nil => exact ⟨0, by simp⟩
      | cons e es ih =>
        obtain ⟨H, hH⟩ := ih fun e he => ho e (by simp [he])
        obtain ⟨h1, h2, h3, H', h4⟩ := ho e (by simp)
        have mono : ∀ {H H' : Nat} {e : Expr}, H ≤ H' → e.Reaches H → e.Reaches H' := by
          intro H H' e hle h n k hm
          obtain ⟨size, h1, h2⟩ := h n k hm
          exact ⟨size, h1, by omega⟩
        refine ⟨max H H', fun e' he => ?_⟩
        rcases List.mem_cons.1 he with rfl | he
        · exact ⟨h1, h2, h3, mono (Nat.le_max_right _ _) h4⟩
        · obtain ⟨g1, g2, g3, g4⟩ := hH e' he
          exact ⟨g1, g2, g3, mono (Nat.le_max_left _ _) g4⟩
    refine ⟨content.length, fun fuel hf d w tee hd => ?_⟩
    obtain ⟨st, hst⟩ : ∃ st, WalkSlicer.new d.st text.toList = .ok st := by
      unfold WalkSlicer.new at hst0 ⊢
      cases hm : (WalkSlicer.splitComma (WalkSlicer.stripComma text.toList)).mapM (Eval.rpnNew WalkSlicer.vars) with
      | error e => rw [hm] at hst0; cases hst0
      | ok f => exact ⟨_, rfl⟩
    have hfe : st = { src := d.st, fetchers := st.fetchers, segments := [], pos := 0 } := by
      unfold WalkSlicer.new at hst
      cases hm : (WalkSlicer.splitComma (WalkSlicer.stripComma text.toList)).mapM (Eval.rpnNew WalkSlicer.vars) with
      | error e => rw [hm] at hst; cases hst
      | ok f => rw [hm] at hst; cases hst; rfl
    have hW : Walks (WalkSlicer.Lens H st.fetchers) 0 content raw := walks_mono (fun s ls h => C27_lengths_partial hne hH hl hst h) hs
    have hfne : st.fetchers ≠ [] := by
      have := new_listed hne (fun e he => (hH e he).1) hl hst
      intro h0
      rw [h0] at this
      cases this
      exact hne rfl
    obtain ⟨w', _, R, E, ha1, ha2, ha3, _, ha5⟩ := hd.amply
    have := WalkSlicer.shot ha1 ha2 ha3 ha5 (fun _ h => h) (hd.whole hshort) hfne hW h.block fuel hf
    rw [← hfe] at this
    have this := this.weaken (F' := Failing scheds) (fun e he => by
      rcases he with he | ⟨rfl, e', he⟩
      · exact he
      · exact he.panic) (fun h : True => h)
    simp only [Host.slicer, attempt, hst]
    exact ⟨_, rfl, _, Nat.le_refl _, _, by rw [List.drop_length]; exact this, fun _ => rfl, fun _ => trivial, Or.inl rfl, fun _ => rfl⟩
  | guide recs =>
    rw [hsl] at ho hn hs
    cases node <;> simp only [Slicer.Node] at hn
    rename_i file
    obtain ⟨text, sched, h1, h2, ⟨h3, _⟩, h6⟩ := hn
    simp only at ho
    simp only [Slicer.Cuts] at hs
    subst hs
    refine ⟨text.length + recs.length, fun fuel hf d w tee hd => ?_⟩
    have hy := (file_yields h.impl h.block fuel (UInt8.ofNat p.filler) .hex text sched hB (by omega) h6 _ h3).mono (fun e he => Failing.io h2 he)
    have hop : (h.withFuel fuel).openFile p file = .ok (openText h.block (UInt8.ofNat p.filler) text sched) := by
      unfold Host.openFile Host.openReader
      rw [show (h.withFuel fuel).files file = some (text, sched) from h1]
      rfl
    have := GuidedSlicer.shot (hlend hd) hy ho.2 (by omega) ho.1 h.block fuel (by omega)
    simp only [Host.slicer, hop, attempt]
    exact ⟨_, rfl, _, Nat.le_refl _, _, by rw [List.drop_length]; exact this, fun _ => rfl, fun _ => trivial, Or.inl rfl, fun _ => rfl⟩

/-- A manipulation that may be asked for. -/
def Manipulated (h : Host) (c : α → Node) (o : Option α) (g g' : DynSeg) : Prop :=
  match o with
  | none => g' = g
  | some x => h.manipulate (c x) g = .ok g'

theorem loop_opt {h : Host} {p : Pipeline InoutFormat} {srcs : List Reader} {c : α → Node} {o : Option α} {rest : List Node} {g g' : DynSeg} {y : Option Unit}
    (hstep : ∀ x g, (h.stages p srcs).step (c x) (y, .segment g) = match h.manipulate (c x) g with | .error e => .error e | .ok g => .ok (y, .segment g))
    (ho : Manipulated h c o g g') :
    (h.stages p srcs).loop (optNode c o ++ rest) (y, .segment g) = (h.stages p srcs).loop rest (y, .segment g') := by
  cases o with
  | none =>
    rw [show g' = g from ho]
    rfl
  | some x =>
    simp only [optNode, List.cons_append, List.nil_append, Stages.loop]
    rw [hstep, show h.manipulate (c x) g = .ok g' from ho]

/-- The second half of the pipeline: slicing. -/
theorem small_drains (h : Host) (p : Pipeline InoutFormat) (srcs : List Reader) (j : Job) (scheds : List (Nat → Option Nat)) {content : Bytes} {segs : List Seg} (hB : 0 < h.block)
    (hc : h.checks = false) (ho : j.Orderly content) {node : Node} (hn : j.slicer.Node h scheds node) {rx iv ex ln : Option String} (hrx : RegexNode h j.regex rx)
    (hiv : MappersNode j.invert iv) (hex : MappersNode j.extend ex) (hln : RangesNode j.lines ln) (hs : j.Slices content segs) (hshort : content.length < h.block) (hlen : content.length < 2 ^ 48) :
    ∃ N, ∀ fuel, N < fuel → ∀ {d : DynByte} {w : Nat} {tee : Prop}, Feeds d (Failing scheds) h.block w content tee →
      ∃ g, (∀ y rest, ((h.withFuel fuel).stages p srcs).loop (node :: (optNode .regex rx ++ optNode .bridge iv ++ optNode .extend ex ++ optNode .merge j.merge ++ optNode .lines ln ++ rest))
          (y, .byte d) = ((h.withFuel fuel).stages p srcs).loop rest (y, .segment g)) ∧ Drains g (Failing scheds) h.block 0 (slicesOf content segs) (j.Pours content segs) ∧
        (tee → j.Pours content segs → (∀ rs, j.slicer ≠ .slice rs) → Threads g (Failing scheds) h.block 0 content (slicesOf content segs)) := by
  have hin := slices_inside (B := 0) (reads := []) hs (Or.inr ho)
  obtain ⟨raw, ext, h1, h2, hsegs⟩ := hs
  obtain ⟨N, hN⟩ := slicer_shot h p j scheds hB hc ho hn h1 hshort hlen
  refine ⟨N, fun fuel hf d w tee hd => ?_⟩
  obtain ⟨g, hg, n, hle, tidy, hshot, hnn, htidy, hnp, hns⟩ := hN fuel hf hd
  have hcls : ∀ y, ((h.withFuel fuel).stages p srcs).step node (y, .byte d) = .ok (y, .segment g) := by
    intro y
    cases hsl : j.slicer <;> rw [hsl] at hn <;> cases node <;> simp only [Slicer.Node] at hn <;> simp only [Stages.step, Host.stages, hg]
  have hinr := cuts_inside h1 fun recs h => by have := ho.slicer; rw [h] at this; exact this.2
  -- the matches
  obtain ⟨g1, m1, t1, s1, i1⟩ : ∃ g1, Manipulated (h.withFuel fuel) .regex rx g g1 ∧
      ∃ t1, Shot g1.src (Failing scheds) (fun s => Kept tee (g1.cache s) content (content.drop n)) g1.st content n (j.searched content raw) t1 (j.Pours content segs) ∧ (j.lines.isSome → t1) := by
    unfold Job.searched
    cases hj : j.regex with
    | none =>
      rw [hj] at hrx
      cases rx with
      | some => exact hrx.elim
      | none => exact ⟨g, rfl, tidy, hshot.dryer fun _ => trivial, htidy⟩
    | some find =>
      rw [hj] at hrx
      cases rx with
      | none => exact hrx.elim
      | some x =>
        obtain ⟨o1, o2⟩ := ho.regex find hj
        have o2 := o2 raw h1
        unfold Job.searched at o2
        rw [hj] at o2
        have := RegexSlicer.shot hshot hinr (Or.inl o2)
        simp only [Manipulated, Host.manipulate, show (h.withFuel fuel).regex x = .ok find from hrx, attempt]
        exact ⟨_, rfl, _, this.dryer fun hp => ⟨trivial, fun x hx => by
          rcases hnp with rfl | hnp
          · have := hinr x hx
            have := hp.2.1 (by rw [hj]; rfl) raw h1 x hx
            simp only [Seg.tail] at *
            omega
          · exact hnp x hx⟩, fun hl => ⟨htidy hl, o2⟩⟩
  -- the gaps
  obtain ⟨g2, m2, t2, s2, i2⟩ : ∃ g2, Manipulated (h.withFuel fuel) .bridge iv g1 g2 ∧
      ∃ t2, Shot g2.src (Failing scheds) (fun s => Kept tee (g2.cache s) content (content.drop n)) g2.st content n (j.inverted content.length (j.searched content raw)) t2 (j.Pours content segs) ∧ (j.lines.isSome → t2) := by
    have oi := ho.invert
    unfold Job.inverted at oi ⊢
    cases hj : j.invert with
    | none =>
      rw [hj] at hiv
      cases iv with
      | some => exact hiv.elim
      | none => exact ⟨g1, rfl, t1, s1, i1⟩
    | some rs =>
      rw [hj] at hiv oi
      cases iv with
      | none => exact hiv.elim
      | some x =>
        obtain ⟨ms, p1, p2⟩ := hiv
        have hnn := hnn (Or.inl (by rw [hj]; rfl))
        rw [hnn] at s1 ⊢
        have := Bridge.shot s1 ms
        rw [p2] at this
        simp only [Manipulated, Host.manipulate, p1, attempt]
        exact ⟨_, rfl, _, this, fun hl => ⟨i1 hl, oi rfl hl raw h1⟩⟩
  -- the extended slices
  obtain ⟨g3, m3, t3, s3, i3⟩ : ∃ g3, Manipulated (h.withFuel fuel) .extend ex g2 g3 ∧
      ∃ t3, Shot g3.src (Failing scheds) (fun s => Kept tee (g3.cache s) content (content.drop n)) g3.st content n ext t3 (j.Pours content segs) ∧ (j.lines.isSome → t3) := by
    unfold Job.Extended at h2
    cases hj : j.extend with
    | none =>
      rw [hj] at hex h2
      simp only at h2
      subst h2
      cases ex with
      | some => exact hex.elim
      | none => exact ⟨g2, rfl, t2, s2, i2⟩
    | some rs =>
      rw [hj] at hex h2
      simp only at h2
      cases ex with
      | none => exact hex.elim
      | some x =>
        obtain ⟨ms, p1, p2⟩ := hex
        have hnn := hnn (Or.inr (by rw [hj]; rfl))
        rw [hnn] at s2 ⊢
        have := Extend.shot s2 ms (by rw [p2]; exact h2.1) h2.2
        simp only [Manipulated, Host.manipulate, p1, attempt]
        exact ⟨_, rfl, _, this, i2⟩
  -- the merged slices
  obtain ⟨g4, m4, t4, s4, i4⟩ : ∃ g4, Manipulated (h.withFuel fuel) .merge j.merge g3 g4 ∧
      ∃ t4, Shot g4.src (Failing scheds) (fun s => Kept tee (g4.cache s) content (content.drop n)) g4.st content n (j.merged ext) t4 (j.Pours content segs) ∧ (j.lines.isSome → t4) := by
    unfold Job.merged
    cases hj : j.merge with
    | none => exact ⟨g3, rfl, t3, s3, i3⟩
    | some x =>
      have := MergeStream.shot s3 (ho.merge (by rw [hj]; rfl) raw ext h1 h2) (by unfold usizeMax; omega) x
      simp only [Manipulated, Host.manipulate]
      exact ⟨_, rfl, _, this, i3⟩
  -- the chosen lines
  obtain ⟨g5, m5, s5, s6⟩ : ∃ g5, Manipulated (h.withFuel fuel) .lines ln g4 g5 ∧
      Fired g5.src (Failing scheds) g5.st content segs ∧ (j.Pours content segs → ∃ t, Shot g5.src (Failing scheds) (fun s => Kept tee (g5.cache s) content (content.drop n)) g5.st content n segs t (j.Pours content segs) ∧ (n = 0 → segs = [])) := by
    unfold Job.picked at hsegs
    cases hj : j.lines with
    | none =>
      rw [hj] at hln hsegs
      simp only at hsegs
      subst hsegs
      cases ln with
      | some => exact hln.elim
      | none =>
        refine ⟨g4, rfl, s4.fired, fun hp => ⟨t4, s4, fun h0 => ?_⟩⟩
        by_cases hc : n = content.length
        · exact hp.2.2 (List.length_eq_zero_iff.1 (by omega))
        · have hraw : raw = [] := by
            rcases hnp with h | h
            · exact absurd h hc
            · exact List.eq_nil_iff_forall_not_mem.2 fun x hx => by have := h x hx; omega
          have hi : j.invert = none := by
            cases hv : j.invert with
            | none => rfl
            | some => exact absurd (hnn (Or.inl (by rw [hv]; rfl))) hc
          have he : j.extend = none := by
            cases hv : j.extend with
            | none => rfl
            | some => exact absurd (hnn (Or.inr (by rw [hv]; rfl))) hc
          have hsr : j.searched content raw = [] := by
            rw [hraw]
            unfold Job.searched
            cases j.regex <;> rfl
          unfold Job.Extended Job.inverted at h2
          rw [he, hi, hsr] at h2
          simp only at h2
          subst h2
          unfold Job.merged
          cases j.merge <;> rfl
    | some rs =>
      rw [hj] at hln hsegs
      simp only at hsegs
      subst hsegs
      cases ln with
      | none => exact hln.elim
      | some x =>
        obtain ⟨ms, p1, p2⟩ := hln
        obtain ⟨fl, hfl⟩ := C25_new_ok g4.st (ms.map RangeMapper.ofMapper)
        have := FilterStream.fired s4 (i4 (by rw [hj]; rfl)) (ho.lines (by rw [hj]; rfl) raw ext h1 h2) hfl
        rw [coverAny_lines, p2] at this
        simp only [Manipulated, Host.manipulate, p1, attempt, Host.withFuel, hc, hfl]
        exact ⟨_, rfl, this, fun hp => by have := hp.1; rw [hj] at this; cases this⟩
  refine ⟨g5, fun y rest => ?_, ⟨fun f fuel hf => s5.prints hin (by omega) f hB hf, fun hp f fuel c hf => ?_⟩, fun ht hp hsl => ?_⟩
  · simp only [Stages.loop, hcls, List.append_assoc]
    rw [loop_opt (by intro x g; simp only [Stages.step, Host.stages]; cases (h.withFuel fuel).manipulate _ g <;> rfl) m1,
      loop_opt (by intro x g; simp only [Stages.step, Host.stages]; cases (h.withFuel fuel).manipulate _ g <;> rfl) m2,
      loop_opt (by intro x g; simp only [Stages.step, Host.stages]; cases (h.withFuel fuel).manipulate _ g <;> rfl) m3,
      loop_opt (by intro x g; simp only [Stages.step, Host.stages]; cases (h.withFuel fuel).manipulate _ g <;> rfl) m4,
      loop_opt (by intro x g; simp only [Stages.step, Host.stages]; cases (h.withFuel fuel).manipulate _ g <;> rfl) m5]
  · obtain ⟨t, h3, h4⟩ := s6 hp
    exact h3.writes hp h4 hin (by omega) f c (by omega)
  · obtain ⟨t, h3, h4⟩ := s6 hp
    rw [hns hsl, List.drop_length, eq_true ht] at h3
    exact h3.threads hp (fun h0 => h4 (by rw [hns hsl]; exact h0)) hin (by omega) _

end Nd
