import Verif.Model.PatchBack
import Verif.Proof.Scatter
import Verif.Proof.Ample
import Verif.Proof.Stride
import Verif.Proof.Exact
/-!
# Proofs about `--patch-back`
-/
namespace Nd

/-! ## `TeeStream` -/
namespace TeeStream

/-- What has been consumed is in the file, and the file position is at its end. -/
def Rel (S : ByteSrc σ) (R : σ → Phase → Nat → Bytes → Prop) (content : Bytes) (t : TeeStream σ) (ph : Phase) (w : Nat) (rem : Bytes) : Prop :=
  R t.src ph w rem ∧ t.cache.data ++ rem = content ∧ t.cache.cursor = t.cache.data.length ∧
    match ph with
    | .lent n => n ≤ rem.length ∧ (0 < n → ∃ m, S.slice t.src = rem.take n ++ m)
    | .idle _ => True

theorem serves {S : ByteSrc σ} {F M R} (h : Serves S F M R) (content : Bytes) : Serves (byteSrc S) F M (Rel S R content) where
  fill := by
    rintro t ph w rem req ⟨hR, hc, hp, _⟩
    rcases h.fill _ _ _ _ req hR with ⟨e, hF, heq⟩ | ⟨eof, n, w', s', heq, hR', hn, hm, he', hne', hw', hw''⟩
    · exact Or.inl ⟨e, hF, by simp only [byteSrc, heq]⟩
    · refine Or.inr ⟨eof, n, w', { t with src := s' }, by simp only [byteSrc, heq], ⟨hR', hc, hp, hn, fun h0 => ?_⟩, hn, hm, he', hne', hw', hw''⟩
      obtain ⟨m, _, hm⟩ := hm h0
      exact ⟨m, hm⟩
  consume := by
    rintro t n w rem k ⟨hR, hc, hp, hn, hs⟩ hk
    obtain ⟨s2, w2, heq2, hR2, hw2⟩ := h.consume _ _ _ _ k hR hk
    have hlen : k ≤ (S.slice t.src).length := by
      by_cases h0 : 0 < n
      · obtain ⟨m, hm⟩ := hs h0
        rw [hm]
        simp
        omega
      · omega
    have htake : (S.slice t.src).take k = rem.take k := by
      by_cases h0 : 0 < n
      · obtain ⟨m, hm⟩ := hs h0
        rw [hm, List.take_append_of_le_length (by simp; omega), List.take_take, Nat.min_eq_left hk]
      · have : k = 0 := by omega
        simp [this]
    refine ⟨{ src := s2, cache := t.cache.write ((S.slice t.src).take k) }, w2, ?_, ⟨hR2, ?_, ?_, ?_⟩, hw2⟩
    · simp only [byteSrc, heq2]
      rw [if_neg (by omega)]
    · simp only [TempFile.write, ScatterContext.writeAt, hp, htake]
      rw [List.take_length, List.drop_eq_nil_of_le (by omega), List.append_nil, List.append_assoc, List.take_append_drop, hc]
    · simp only [TempFile.write, ScatterContext.writeAt, hp, htake]
      rw [List.take_length, List.drop_eq_nil_of_le (by omega), List.append_nil, List.length_append]
    · unfold Phase.afterConsume
      trivial

theorem ample {S : ByteSrc σ} {R L E} (h : Ample S R L E) (content : Bytes) : Ample (byteSrc S) (Rel S R content) L (fun t => E t.src) where
  fill := by
    rintro t ph w rem req eof n t' ⟨hR, _⟩ heq
    simp only [byteSrc] at heq
    split at heq
    · cases heq
    · rename_i r src h1
      simp only [Except.ok.injEq, Prod.mk.injEq] at heq
      obtain ⟨rfl, rfl⟩ := heq
      exact h.fill _ _ _ _ _ _ _ _ hR h1
  consume := by
    rintro t k t' heq
    simp only [byteSrc] at heq
    split at heq
    · cases heq
    · split at heq
      · cases heq
      · rename_i src h1
        cases heq
        exact h.consume _ _ _ h1
  keep := by
    rintro t n w rem k t1 req eof n' t2 ⟨hR, _⟩ hk h1 h2 he
    simp only [byteSrc] at h1 h2
    split at h1
    · cases h1
    · split at h1
      · cases h1
      · rename_i src hs
        cases h1
        split at h2
        · cases h2
        · rename_i r src2 h3
          simp only [Except.ok.injEq, Prod.mk.injEq] at h2
          obtain ⟨rfl, rfl⟩ := h2
          exact h.keep _ _ _ _ _ _ _ _ _ _ hR hk hs h3 he
  far := by
    rintro hL t n w rem t1 req n' t2 ⟨hR, _⟩ h1 h2
    simp only [byteSrc] at h1 h2
    split at h1
    · cases h1
    · split at h1
      · cases h1
      · rename_i src hs
        cases h1
        split at h2
        · cases h2
        · rename_i r src2 h3
          simp only [Except.ok.injEq, Prod.mk.injEq] at h2
          obtain ⟨rfl, rfl⟩ := h2
          exact h.far hL _ _ _ _ _ _ _ _ hR hs h3

end TeeStream

/-! ## The slicing thread -/

/-- A slice stream whose states say what remains of the bytes. -/
def SegTracked (S : SegSrc σ) (K : SegKind) (F : Err → Prop) (Good : σ → Bytes → Prop) (s : σ) (w : Nat) (content : Bytes) (segs : List Seg) : Prop :=
  ∃ R, SegFaithful S K F R ∧ (∀ s ph w rem segs, R s ph w rem segs → Good s rem) ∧ R s (.idle 0) w content segs

namespace Slicing

/-- What the thread has done and what remains. -/
def Inv (R : σ → SegPhase → Nat → Bytes → List Seg → Prop) (F : Err → Prop) (Good : σ → Bytes → Prop) (f : Formatting) (total : Nat) (text : Bytes) (w : Nat) (a : Slicing σ) : Prop :=
  match a.fate with
  | none => ∃ ph w' rem segs, R a.st ph w' rem segs ∧ a.offset + rem.length = total ∧ a.written ++ a.buf ++ (absOf a.offset rem segs).flatMap f.line = text ∧
      ((∃ lb, ph = .idle lb) ∧ w' + 2 ≤ w ∨ ph = .done ∧ rem = [] ∧ segs = [] ∧ 1 ≤ w)
  | some none => a.written = text ∧ Good a.st []
  | some (some e) => F e

theorem Inv.mono {R F Good} {f : Formatting} {total : Nat} {text : Bytes} {w w' : Nat} {a : Slicing σ} (h : Inv R F Good f total text w a) (hw : w ≤ w') : Inv R F Good f total text w' a := by
  unfold Inv at h ⊢
  split
  · rename_i hf
    rw [hf] at h
    obtain ⟨ph, w1, rem, segs, h1, h2, h3, h4⟩ := h
    refine ⟨ph, w1, rem, segs, h1, h2, h3, ?_⟩
    rcases h4 with ⟨h4, h5⟩ | ⟨h4, h5, h6, h7⟩
    · exact Or.inl ⟨h4, by omega⟩
    · exact Or.inr ⟨h4, h5, h6, by omega⟩
  · rename_i hf; rw [hf] at h; exact h
  · rename_i hf; rw [hf] at h; exact h

theorem Inv.round {S : SegSrc σ} {K F R} (h : SegFaithful S K F R) (hK : K.exact = true) (hfull : K.full = true) {Good : σ → Bytes → Prop} (hG : ∀ s ph w rem segs, R s ph w rem segs → Good s rem)
    {f : Formatting} {total : Nat} (htot : total < 2 ^ 64) {text : Bytes} {w : Nat} {a : Slicing σ} (B : Nat) (hI : Inv R F Good f total text w a) :
    Inv R F Good f total text (w - 1) (a.round S f B) ∧ (a.fate = none → (a.round S f B).fate = none → 1 < w) := by
  obtain ⟨st, off, buf, written, fate⟩ := a
  unfold Slicing.round
  rcases fate with _ | r
  swap
  · refine ⟨?_, fun h => by cases h⟩
    unfold Inv at hI ⊢
    cases r <;> exact hI
  simp only
  obtain ⟨ph, w1, rem, segs, hR, hoff, htext, hph⟩ := hI
  simp only at hR hoff htext
  rcases hph with ⟨⟨lb, rfl⟩, hw⟩ | ⟨rfl, rfl, rfl, hw⟩
  · rcases h.fill _ _ _ _ _ hR with ⟨e, hF, heq⟩ | ⟨eof, bytes, count, maxc, cap, w', src, heq, hR', hl, hcb, hdrop, hmax, heof, hex, hw1, hw2, _⟩
    · simp only [heq]
      exact ⟨hF, fun _ h => by cases h⟩
    obtain ⟨k', c, w'', src', hc, hk1, hk2, hc1, hc2, hc3, hR'', hw3, hke, hce, _⟩ := h.consume src eof count cap w' rem segs maxc hR' (by
    rcases hmax with h | ⟨h1, _, _, h3⟩
    · exact Or.inr (Or.inl h)
    · exact Or.inl ⟨h1, h3⟩)
    have hcount : c = count := hce hK (by omega)
    subst hcount
    have hseg := Format.segments_line f off (S.slices src).1 (S.slices src).2 fun x hx => by
      rw [hl.segs_eq] at hx
      have := hl.inside x hx
      omega
    have habs' : ((S.slices src).2.map fun x => (off + x.pos, x.bytes (S.slices src).1)) = absOf off rem (segs.take c) := by
      have := hl.abs off
      rw [hl.segs_eq, List.take_take, Nat.min_self] at this
      rw [hl.segs_eq]
      exact this
    rw [habs'] at hseg
    have hkl : k' ≤ rem.length := by
      obtain ⟨a, h1, h2, _⟩ := hl.bytes_eq
      omega
    have hsplit : (absOf off rem segs).flatMap f.line = (absOf off rem (segs.take c)).flatMap f.line ++ (absOf (off + k') (rem.drop k') ((segs.drop c).map (Seg.shift k'))).flatMap f.line := by
      rw [absOf_shift off rem (segs.drop c) k' hc3, ← List.flatMap_append]
      simp only [absOf, ← List.map_append, List.take_append_drop]
    simp only [heq]
    by_cases hend : eof = true ∧ bytes = 0
    · obtain ⟨rfl, rfl⟩ := hend
      obtain ⟨h1, h2, h3⟩ := heof rfl
      have hrem : rem = [] := List.length_eq_zero_iff.1 (h3 hfull).symm
      have hsegs : segs = [] := by
        cases segs with
        | nil => rfl
        | cons x xs =>
          exfalso
          have := hc2 x (by rw [h1]; simp)
          omega
      subst hrem hsegs
      rw [if_pos (by simp)]
      refine ⟨⟨?_, hG _ _ _ _ _ hR'⟩, fun _ h => by cases h⟩
      simpa [absOf] using htext
    · rw [if_neg (by simpa using hend)]
      simp only [hseg, hc]
      have key : ∃ ph w1 rem' segs', R src' ph w1 rem' segs' ∧ off + k' + rem'.length = total ∧
          written ++ (buf ++ (absOf off rem (segs.take c)).flatMap f.line) ++ (absOf (off + k') rem' segs').flatMap f.line = text ∧
          ((∃ lb, ph = .idle lb) ∧ w1 + 2 ≤ w - 1 ∨ ph = .done ∧ rem' = [] ∧ segs' = [] ∧ 1 ≤ w - 1) := by
        refine ⟨_, w'', rem.drop k', _, hR'', by rw [List.length_drop]; omega, ?_, ?_⟩
        · rw [← htext, hsplit]
          simp
        · cases eof with
          | false => left; exact ⟨⟨c - c, by simp⟩, by have := hw2 rfl; omega⟩
          | true =>
            right
            obtain ⟨h1, h2, h3⟩ := heof rfl
            have hkc : k' = cap := by
              rcases hmax with hm | ⟨_, hm, _⟩
              · exact hke rfl hm
              · cases hm
            refine ⟨by simp [hkc], ?_, ?_, by omega⟩
            · apply List.drop_eq_nil_of_le
              have := h3 hfull
              omega
            · rw [h1]
              simp
      obtain ⟨ph, w1, rem', segs', k1, k2, k3, k4⟩ := key
      by_cases hB : B ≤ (buf ++ (absOf off rem (segs.take c)).flatMap f.line).length
      · rw [if_pos hB]
        refine ⟨⟨ph, w1, rem', segs', k1, k2, ?_, k4⟩, fun _ _ => by omega⟩
        simpa using k3
      · rw [if_neg hB]
        refine ⟨⟨ph, w1, rem', segs', k1, k2, ?_, k4⟩, fun _ _ => by omega⟩
        simpa using k3
  · rcases h.rest _ _ _ _ hR with ⟨e, hF, heq⟩ | ⟨w', s', heq, hR', hl, hw'⟩
    · simp only [heq]
      exact ⟨hF, fun _ h => by cases h⟩
    · simp only [heq]
      refine ⟨?_, fun _ h => by simp at h⟩
      simp only [Inv, decide_true, Bool.and_self, if_true]
      exact ⟨by simpa [absOf] using htext, hG _ _ _ _ _ hR'⟩

/-- The thread ends after finitely many rounds. -/
theorem ends {S : SegSrc σ} {K F R} (h : SegFaithful S K F R) (hK : K.exact = true) (hfull : K.full = true) {Good : σ → Bytes → Prop} (hG : ∀ s ph w rem segs, R s ph w rem segs → Good s rem)
    {f : Formatting} {total : Nat} (htot : total < 2 ^ 64) {text : Bytes} (B : Nat) : ∀ (n w : Nat) (a : Slicing σ), Inv R F Good f total text w a → w ≤ n + 1 →
      (Nat.repeat (fun a => a.round S f B) (n + 1) a).fate ≠ none := by
  intro n
  induction n with
  | zero =>
    intro w a hI hw hn
    have hn' : (a.round S f B).fate = none := hn
    have ha : a.fate = none := by
      cases hf : a.fate with
      | none => rfl
      | some r => simp [Slicing.round, hf] at hn'
    have := (hI.round h hK hfull hG htot B).2 ha hn'
    omega
  | succ n ih =>
    intro w a hI hw
    rw [repeat_front]
    exact ih (w - 1) _ (hI.round h hK hfull hG htot B).1 (by omega)
where
  repeat_front {α : Type _} {g : α → α} {n : Nat} {a : α} : Nat.repeat g (n + 1) a = Nat.repeat g n (g a) := by
    induction n with
    | zero => rfl
    | succ n ih =>
      show g (Nat.repeat g (n + 1) a) = g (Nat.repeat g n (g a))
      rw [ih]

/-- What holds at the start. -/
theorem Inv.new {R : σ → SegPhase → Nat → Bytes → List Seg → Prop} {F : Err → Prop} {Good : σ → Bytes → Prop} {f : Formatting} {st : σ} {w : Nat} {content : Bytes} {segs : List Seg}
    (h : R st (.idle 0) w content segs) : Inv R F Good f content.length ((slicesOf content segs).flatMap f.line) (w + 2) (Slicing.new st) :=
  ⟨.idle 0, w, content, segs, h, by simp [Slicing.new], by simp [Slicing.new, absOf_zero], Or.inl ⟨⟨0, rfl⟩, Nat.le_refl _⟩⟩

end Slicing

/-! ## The threads -/

/-- A command that reads all of its input before it prints anything. -/
def Command.Patient (cmd : Command) (out : Bytes → Bytes) : Prop := ∀ t, cmd.emit t false = ([], false) ∧ cmd.emit t true = (out t, true)

theorem World.Reachable.started {S : SegSrc σ} {K F R} (h : SegFaithful S K F R) (hK : K.exact = true) (hfull : K.full = true) {C : CacheOf σ} {content : Bytes} {total : Nat} {text : Bytes} {w : Nat} {st : σ}
    (hG : ∀ s ph w rem segs, R s ph w rem segs → (C.get s).data ++ rem = content) {f : Formatting} (htot : total < 2 ^ 64) (B : Nat) {cmd : Command} {out : Bytes → Bytes}
    (hcmd : cmd.Patient out) (hI : Slicing.Inv R F (fun s rem => (C.get s).data ++ rem = content) f total text w (Slicing.new st)) {wd : World σ} (hr : World.Reachable S f B cmd C.Access st wd) :
    (wd.started = false → Slicing.Inv R F (fun s rem => (C.get s).data ++ rem = content) f total text w wd.a) ∧
    (wd.started = true → (wd.a.fate = some none ∧ wd.a.written = text ∧ (C.get wd.a.st).data = content) ∨ ∃ e, F e ∧ wd.a.fate = some (some e)) := by
  induction hr with
  | init => exact ⟨fun _ => hI, (fun h => by cases h)⟩
  | step w1 w2 _ hs ih =>
    obtain ⟨ih1, ih2⟩ := ih
    cases hs with
    | slice =>
      refine ⟨fun h0 => (Slicing.Inv.round h hK hfull hG htot B (ih1 h0)).1.mono (by omega), fun h0 => ?_⟩
      have := ih2 h0
      have hsame : w1.a.round S f B = w1.a := by
        unfold Slicing.round
        rcases this with ⟨hf, _⟩ | ⟨e, _, hf⟩ <;> rw [hf]
      simp only [hsame]
      exact this
    | start hc =>
      refine ⟨(fun h0 => by cases h0), fun _ => ?_⟩
      cases hst : w1.started with
      | true => exact ih2 hst
      | false =>
        have hI1 := ih1 hst
        simp only
        unfold Slicing.Inv at hI1
        cases hf : w1.a.fate with
        | none =>
          rw [hf] at hc
          exact absurd (hcmd _).1 hc
        | some r =>
          rw [hf] at hI1
          cases r with
          | none =>
            simp only [List.append_nil] at hI1
            exact Or.inl ⟨rfl, hI1.1, hI1.2⟩
          | some e => exact Or.inr ⟨e, hI1, rfl⟩
    | access s' h0 hA =>
      obtain ⟨c, fl, rfl⟩ := hA
      refine ⟨(fun h1 => by simp only at h1; rw [h0] at h1; cases h1), fun _ => ?_⟩
      rcases ih2 h0 with ⟨h1, h2, h3⟩ | ⟨e, he, h1⟩
      · exact Or.inl ⟨h1, h2, by simp only [C.get_set]; exact h3⟩
      · exact Or.inr ⟨e, he, h1⟩

theorem Slicing.round_same {S : SegSrc σ} {f : Formatting} {B : Nat} {a : Slicing σ} (h : a.fate.isSome) : a.round S f B = a := by
  obtain ⟨r, hr⟩ := Option.isSome_iff_exists.1 h
  unfold Slicing.round
  rw [hr]

/-- With a command that prints nothing before it has read all: until the main thread starts, nothing but rounds of the slicing thread can happen, and it starts only
after the thread has ended. -/
theorem World.Reachable.settled {S : SegSrc σ} {f : Formatting} {B : Nat} {cmd : Command} {out : Bytes → Bytes} (hcmd : cmd.Patient out) {A : σ → σ → Prop} {st : σ} {α : Type v}
    (data : σ → α) (hA : ∀ s s', A s s' → data s' = data s) {wd : World σ} (hr : World.Reachable S f B cmd A st wd) :
    ∃ n, (wd.started = false → wd.a = Nat.repeat (fun a => a.round S f B) n (Slicing.new st)) ∧
      (wd.started = true → wd.a.fate.isSome ∧ wd.a.fate = (Nat.repeat (fun a => a.round S f B) n (Slicing.new st)).fate ∧
        wd.a.written = (Nat.repeat (fun a => a.round S f B) n (Slicing.new st)).written ∧ data wd.a.st = data (Nat.repeat (fun a => a.round S f B) n (Slicing.new st)).st) := by
  induction hr with
  | init => exact ⟨0, fun _ => rfl, (fun h => by cases h)⟩
  | step w1 w2 _ hs ih =>
    obtain ⟨n, ih1, ih2⟩ := ih
    cases hs with
    | slice =>
      cases hst : w1.started with
      | false =>
        refine ⟨n + 1, fun _ => ?_, (fun h => by cases h)⟩
        show w1.a.round S f B = _
        rw [ih1 hst]
        rfl
      | true =>
        refine ⟨n, (fun h => by cases h), fun _ => ?_⟩
        have := ih2 hst
        rw [Slicing.round_same this.1]
        exact this
    | start hc =>
      refine ⟨n, (fun h => by cases h), fun _ => ?_⟩
      cases hst : w1.started with
      | true => exact ih2 hst
      | false =>
        have h1 := ih1 hst
        simp only
        rw [← h1]
        refine ⟨?_, rfl, rfl, rfl⟩
        cases hf : w1.a.fate with
        | none =>
          rw [hf] at hc
          exact absurd (hcmd _).1 hc
        | some r => rfl
    | access s' h0 hs' =>
      refine ⟨n, (fun h => by simp only at h; rw [h0] at h; cases h), fun _ => ?_⟩
      obtain ⟨h1, h2, h3, h4⟩ := ih2 h0
      exact ⟨h1, h2, h3, (hA _ _ hs').trans h4⟩

/-! ## `TeeStreamReader` over a complete file -/
namespace TeeReader

/-- The flag has been read. -/
def unflag (t : TeeState) : TeeState := { t with cache := { t.cache with clearEof := false } }

/-- What is left of the file. -/
def Left (sched : Nat → Option Nat) (t : TeeState) (w : Nat) (p : Bytes) : Prop :=
  t.sched = sched ∧ t.cache.data.drop t.offset = p ∧ p.length ≤ w ∧ t.cache.clearEof = false

theorem produces (B : Nat) (hB : 0 < B) (sched : Nat → Option Nat) :
    Produces (feed B) (fun e => e = .io ∧ ∃ i, sched i = none) (fun t _ => Left sched t) (fun t => t.cache.clearEof = false) := by
  rintro t w p req buf ⟨hs, rfl, hw, hc⟩
  unfold feed Reader.read
  simp only
  cases h : t.sched t.calls with
  | none => left; exact ⟨.io, ⟨rfl, t.calls, by rw [← hs]; exact h⟩, rfl⟩
  | some k =>
    right
    simp only
    refine ⟨_, _, _, _, rfl, (List.take_append_drop (min (max 1 k) B) (t.cache.data.drop t.offset)).symm, ?_, ?_⟩
    · intro h; simp at h
      refine ⟨?_, hc⟩
      rcases h with h | h
      · omega
      · simp; omega
    · intro h; simp at h
      refine ⟨((t.cache.data.drop t.offset).drop (min (max 1 k) B)).length, by rw [List.length_drop]; rw [List.length_drop] at hw ⊢; omega, hs, ?_, Nat.le_refl _, hc⟩
      simp only [List.drop_drop, List.length_take, List.length_drop]
      rcases Nat.le_total (min (max 1 k) B) (t.cache.data.length - t.offset) with h1 | h1
      · rw [Nat.min_eq_left h1]
      · rw [Nat.min_eq_right h1, List.drop_eq_nil_of_le (by omega), List.drop_eq_nil_of_le (by omega)]

/-- The states of the reader. -/
def Rel (sched : Nat → Option Nat) (fuel : Nat) (s : Buffered TeeState) (ph : Phase) (w : Nat) (rem : Bytes) : Prop :=
  StreamBuf.Rel (fun t _ => Left sched t) (fun t => t.cache.clearEof = false) s.buf (unflag s.inner) ph w rem ∧ w < fuel ∧ (s.inner.cache.clearEof = true → s.buf.isEof = false)

theorem examine_eq {s : Buffered TeeState} (h : s.inner.cache.clearEof = true → s.buf.isEof = false) : examine s = { inner := unflag s.inner, buf := s.buf } := by
  obtain ⟨⟨⟨fl, d, c⟩, o, sc, n⟩, b⟩ := s
  unfold examine unflag
  cases fl with
  | false => rfl
  | true =>
    have := h rfl
    simp only at this
    simp [StreamBuf.clearEof, ← this]

theorem unflag_eq {t : TeeState} (h : t.cache.clearEof = false) : unflag t = t := by
  unfold unflag
  rw [← h]

theorem faithful (B : Nat) (hB : 0 < B) (fuel : Nat) (sched : Nat → Option Nat) :
    Faithful (byteSrc B fuel) (fun e => e = .io ∧ ∃ i, sched i = none) NlMargin (Rel sched fuel) where
  fill s ph w rem req := by
    rintro ⟨h, hw, hfl⟩
    simp only [byteSrc, examine_eq hfl]
    rcases StreamBuf.fillBuf_spec (produces B hB sched) h hw req with ⟨e, he, heq⟩ | ⟨eof, n, w', s', t', heq, h1, h2, h3, h4, h5, h6, h7, _⟩
    · exact Or.inl ⟨e, he, by simp [bufferedSrc, heq]⟩
    · have hfl' : t'.cache.clearEof = false := by
        obtain ⟨_, ⟨d, m, _, g1, g2⟩, _⟩ := h1
        cases hs : s'.isEof with
        | true => exact (g1 hs).2.2
        | false => obtain ⟨p, hp, _⟩ := g2 hs; exact hp.2.2.2
      refine Or.inr ⟨eof, n, w', ⟨t', s'⟩, by simp [bufferedSrc, heq], ⟨?_, by omega, fun h => by simp only [hfl'] at h; cases h⟩, h2, fun _ => ⟨_, rfl, h3⟩, h4, h5, h6, fun h _ => h7 h⟩
      simp only [unflag_eq hfl']
      exact h1
  consume s n w rem k := by
    rintro ⟨h, hw, hfl⟩ hk
    have := (h.lent n rfl).1
    subst this
    refine ⟨_, w, rfl, ⟨StreamBuf.consume_spec (fun _ _ _ _ _ h => h) B h k hk, hw, fun h1 => ?_⟩, Nat.le_refl _⟩
    obtain ⟨_, ⟨d, m, hv, _⟩, _⟩ := h
    have hdl := hv.length
    unfold StreamBuf.length at hdl
    rw [(hv.consume B k (by omega)).2.1]
    exact hfl h1
  nudge s lb w rem := by
    rintro ⟨h, hw, hfl⟩
    refine ⟨_, w, rfl, ⟨StreamBuf.nudge_spec (fun _ _ _ _ _ h => h) B h, hw, fun h1 => ?_⟩, Nat.le_refl _⟩
    obtain ⟨_, ⟨d, m, hv, _⟩, _⟩ := h
    rw [(hv.consume B 0 (by omega)).2.1]
    exact hfl h1

/-- Over a file that is complete the reader delivers all of it. -/
theorem delivers (B : Nat) (hB : 0 < B) (fuel : Nat) (sched : Nat → Option Nat) (cache : TempFile) (hf : cache.data.length < fuel) :
    Delivers (byteSrc B fuel) (fun e => e = .io ∧ ∃ i, sched i = none) NlMargin (new B cache sched) cache.data.length cache.data := by
  refine ⟨_, faithful B hB fuel sched, ?_, hf, fun _ => rfl⟩
  have := StreamBuf.rel_new (P := fun t _ => Left sched t) (Q := fun t => t.cache.clearEof = false) (B := B) (align := 1) (filler := 0)
    (t := unflag { cache := cache, offset := 0, sched := sched, calls := 0 }) (w := cache.data.length) (p := cache.data) hB (by omega) ⟨rfl, rfl, Nat.le_refl _, rfl⟩
  simpa [padLen_one, StreamBuf.new, new] using this

end TeeReader

/-! ## `PatchDrain` -/

/-- If the slicing thread has not failed, `PatchDrain` passes on what `PatchStream` delivers. -/
theorem PatchDrain.delivers {P : ByteSrc π} {F M} {s : π} {w : Nat} {content : Bytes} (h : Delivers P F M s w content) :
    Delivers (PatchDrain.byteSrc P) F M (PatchDrain.new s none) w content := by
  obtain ⟨R, hR, hs⟩ := h
  refine ⟨fun d ph w rem => R d.patch ph w rem ∧ d.thread = none, ⟨?_, ?_, ?_⟩, hs, rfl⟩
  · rintro d ph w rem req ⟨hd, ht⟩
    rcases hR.fill _ _ _ _ req hd with ⟨e, hF, heq⟩ | ⟨eof, n, w', s', heq, hR', hn, hm, he', hne', hw', hw''⟩
    · exact Or.inl ⟨e, hF, by simp only [byteSrc, heq]⟩
    · refine Or.inr ⟨eof, n, w', { d with patch := s', prevBytes := n }, ?_, ⟨hR', ht⟩, hn, hm, he', hne', hw', hw''⟩
      simp only [byteSrc, heq, ht, Option.isSome_none, Bool.and_false]
      rfl
  · rintro d n w rem k ⟨hd, ht⟩ hk
    obtain ⟨s2, w2, heq2, hR2, hw2⟩ := hR.consume _ _ _ _ k hd hk
    exact ⟨{ d with patch := s2 }, w2, by simp only [byteSrc, heq2], ⟨hR2, ht⟩, hw2⟩
  · rintro d lb w rem ⟨hd, ht⟩
    obtain ⟨s2, w2, heq2, hR2, hw2⟩ := hR.nudge _ _ _ _ hd
    exact ⟨{ d with patch := s2 }, w2, by simp only [byteSrc, heq2], ⟨hR2, ht⟩, hw2⟩

/-! ## Slicers that keep track of the bytes -/

theorem ConstSlicer.Rel.src {Src : ByteSrc σ} {R : σ → Phase → Nat → Bytes → Prop} {E : σ → Prop} {L : Nat} {mode : Manner} {P S M esc : Nat} {st : ConstSlicer σ} {ph : SegPhase}
    {w : Nat} {rem : Bytes} {segs : List Seg} (h : Rel Src R E L mode P S M esc st ph w rem segs) : ∃ ph', R st.src ph' w rem := by
  obtain ⟨base, e, _, _, _, h⟩ := h
  cases ph with
  | idle lb => obtain ⟨⟨l, h⟩, _⟩ := h; exact ⟨_, h⟩
  | lent eof count cap => obtain ⟨n, h, _⟩ := h; exact ⟨_, h⟩
  | done => obtain ⟨_, _, lb, h⟩ := h; exact ⟨_, h⟩

theorem ExactMatchSlicer.Rel.src {p : Bytes} {Src : ByteSrc σ} {R : σ → Phase → Nat → Bytes → Prop} {E : σ → Prop} {st : ExactMatchSlicer σ} {ph : SegPhase}
    {w : Nat} {rem : Bytes} {segs : List Seg} (h : Rel p Src R E st ph w rem segs) : ∃ ph', R st.src ph' w rem := by
  cases ph with
  | idle lb => obtain ⟨⟨_, lb, l, h, _⟩, _⟩ := h; exact ⟨_, h⟩
  | lent eof count cap => obtain ⟨_, _, _, n, h, _⟩ := h; exact ⟨_, h⟩
  | done => obtain ⟨⟨_, lb, l, h, _⟩, _⟩ := h; exact ⟨_, h⟩

end Nd
