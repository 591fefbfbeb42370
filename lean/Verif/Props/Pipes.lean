import Verif.Proof.Pipes
import Verif.Proof.ReadsAll
import Verif.Props.PatchBack
/-!
# C31: `--patch-back` does not get stuck

The slicing thread, the command and the main thread are connected by pipes of limited capacity.  With a command that reads everything before it prints, none of them can be blocked
for ever, provided that the main thread reads what the command prints to its end (`C31_reads_all`).
-/
namespace Nd.Props
open Nd Nd.Spec

/-- **C31** (no deadlock): the threads and the command, with pipes of any capacity and a command that reads everything before it prints, make a bounded number of steps, however they are
interleaved; whenever none of them can go on, all have ended, and the main thread has read all that the command has made of the slices, unless reading the input has failed.  What is reached
is also reached in `World`, so that `C31_patient_partial` says what is printed.  Missing: other commands. -/
theorem C31_pipes_partial {S : SegSrc σ} {K F} (hK : K.exact = true) (hfull : K.full = true) {C : CacheOf σ} {st : σ} {w : Nat} {content : Bytes} {segs : List Seg}
    (h : SegTracked S K F (fun s rem => (C.get s).data ++ rem = content) st w content segs) (f : Formatting) (B : Nat) (hB : 0 < B) (hlen : content.length < 2 ^ 64)
    {P : κ → Act κ} {out : Bytes → Bytes} {start : κ} (hP : Act.Patient P out start) {ci co : Nat} (hi : 0 < ci) (ho : 0 < co) {enough : Bytes → Bool}
    (hen : ∀ t g, g <+: out t → enough g = false) :
    ∃ bound, ∀ l n, Net.Path S f B P ci co enough C.Access st start l n →
      l ≤ bound ∧ World.Reachable S f B (Command.waiting out) C.Access st { a := n.a, started := !n.got.isEmpty || n.ended } ∧
      ((∃ n', Net.Step S f B P ci co enough n n') ∨
        Net.Over P n ∧ (n.a.fate = some none ∧ n.got = out ((slicesOf content segs).flatMap f.line) ∨ ∃ e, F e ∧ n.a.fate = some (some e))) := by
  obtain ⟨Q, hQ0, hQ⟩ := hP
  have hN : (Slicing.after S f B st (w + 2)).fate ≠ none := C31_thread_ends hK hfull h f B hlen
  refine ⟨w + 2 + 2 * (Slicing.after S f B st (w + 2)).written.length + 2 * (out (Slicing.after S f B st (w + 2)).written).length + 2, fun l n hp => ?_⟩
  obtain ⟨m, μ, hl, hI⟩ := hp.inv hQ0 hQ hN
  have hw := hp.world hQ0 hQ hN
  refine ⟨Nat.le_trans (Nat.le_add_right _ _) hl, hw, ?_⟩
  rcases hI.progress hi ho hQ (hen _) with hs | ⟨hov, hgot⟩
  · exact Or.inl hs
  · refine Or.inr ⟨hov, ?_⟩
    rcases C31_patient_partial hK hfull h f B hB hlen (Command.waiting_patient out) hw (by simp [hov.2.2.2.2]) with ⟨e, he, h1⟩ | ⟨h1, h2, _⟩
    · exact Or.inr ⟨e, he, h1⟩
    · left
      refine ⟨h1, ?_⟩
      simp only at h1 h2
      rw [h1] at h2
      simp only [Command.waiting, Option.isSome_some, if_true, Prod.mk.injEq, and_true] at h2
      rw [hgot, h2]

/-- The process that collects its input, and then prints what `out` makes of it. -/
def processOf (out : Bytes → Bytes) : Bytes ⊕ Bytes → Act (Bytes ⊕ Bytes)
  | .inl t => .read fun
    | some b => .inl (t ++ [b])
    | none => .inr (out t)
  | .inr [] => .exit
  | .inr (b :: bs) => .write b (.inr bs)

theorem processOf_prints (out : Bytes → Bytes) (bs : Bytes) : Act.Prints (processOf out) (.inr bs) bs := by
  induction bs with
  | nil => rfl
  | cons b bs ih => exact ⟨_, rfl, ih⟩

theorem processOf_patient (out : Bytes → Bytes) : Act.Patient (processOf out) out (.inl []) :=
  ⟨fun k t => k = .inl t, rfl, fun k t hk => by subst hk; exact ⟨_, rfl, fun _ => rfl, processOf_prints out _⟩⟩

/-- `nd --width 16 --patch-back sponge FILE` with pipes of 64 KiB. -/
example (content : Bytes) (hl : content.length < 2 ^ 48) (sched : Nat → Option Nat) :
    ∃ p st bound, ConstSlicerParams.fromRaw 2 16 (fromStart 0 16) = .ok p ∧ ConstSlicer.new (TeeStream.new (RawStream.new (2 ^ 21) (Reader.open content sched) 1 0)) p = .ok st ∧
      ∀ l n, Net.Path (ConstSlicer.segSrc (TeeStream.byteSrc (RawStream.byteSrc (2 ^ 21) (content.length + 1)))) ⟨.hhh, 0⟩ (2 ^ 21) (processOf id) 65536 65536 (fun _ => false)
          constCache.Access st (.inl []) l n → l ≤ bound ∧
        ((∃ n', Net.Step (ConstSlicer.segSrc (TeeStream.byteSrc (RawStream.byteSrc (2 ^ 21) (content.length + 1)))) ⟨.hhh, 0⟩ (2 ^ 21) (processOf id) 65536 65536 (fun _ => false) n n') ∨
          Net.Over (processOf id) n ∧ (n.a.fate = some none ∧ n.got = (slicesOf content (strides content.length 16 0 16)).flatMap (Formatting.line ⟨.hhh, 0⟩) ∨
            ∃ e, IoErr [sched] e ∧ n.a.fate = some (some e))) := by
  obtain ⟨p, st, h1, h2, h3⟩ := width_tracked (file_amply (2 ^ 21) (content.length + 1) 0 content sched (by decide) (by omega)) (fun _ => NlMargin.any) 2 16 (fromStart 0 16) 0 16
    (by decide) (by decide) (by decide) (by decide) (by decide) (by decide) (by decide)
  obtain ⟨bound, hb⟩ := C31_pipes_partial (by simp [ConstSlicer.kind]) rfl h3 ⟨.hhh, 0⟩ (2 ^ 21) (by decide) (by omega) (processOf_patient id) (ci := 65536) (co := 65536) (by decide) (by decide)
    (enough := fun _ => false) (fun _ _ _ => rfl)
  exact ⟨p, st, bound, h1, h2, fun l n hp => ⟨(hb l n hp).1, (hb l n hp).2.2⟩⟩

/-- `l` steps from `n` to `n'`. -/
inductive Chain (R : α → α → Prop) : Nat → α → α → Prop where
  | nil (n : α) : Chain R 0 n n
  | cons {l : Nat} {n n' n'' : α} : R n n' → Chain R l n' n'' → Chain R (l + 1) n n''

/-- **C31** (a command that ends early): once the command and the rounds of the thread have ended, only a bounded number of steps follows: what has not been written to the command is given up
at once, and the main thread reads what is left in the pipe.  This holds for all commands. -/
theorem C31_early_end {S : SegSrc σ} {f : Formatting} {B : Nat} {P : κ → Act κ} {ci co : Nat} {enough : Bytes → Bool} {n n' : Net σ κ} {l : Nat} (h : Chain (Net.Step S f B P ci co enough) l n n')
    (hp : P n.proc = .exit) (hf : n.a.fate ≠ none) : l ≤ n.output.length + 2 ∧ n'.a.written = n.a.written ∧ n'.got <+: n.got ++ n.output := by
  suffices hs : l + n'.output.length ≤ n.output.length + (if n.ended then 0 else 1) + (if n.sent < n.a.written.length then 1 else 0) ∧ n'.a.written = n.a.written ∧
      n'.got ++ n'.output = n.got ++ n.output by
    refine ⟨?_, hs.2.1, by rw [← hs.2.2]; exact List.prefix_append _ _⟩
    have := hs.1
    split at this <;> split at this <;> omega
  induction h with
  | nil n => exact ⟨by omega, rfl, rfl⟩
  | @cons l n n' n'' hstep _ ih =>
    cases hstep with
    | slice h => exact absurd h hf
    | send b h => exact absurd hp h
    | broken h1 h2 =>
      obtain ⟨g1, g2, g3⟩ := ih hp (by simp)
      simp only [Nat.lt_irrefl, if_false] at g1
      rw [if_pos h2]
      exact ⟨by omega, g2, g3⟩
    | receive k b rest h => rw [hp] at h; cases h
    | receiveEnd k h => rw [hp] at h; cases h
    | print b k h => rw [hp] at h; cases h
    | take b rest h1 h2 =>
      obtain ⟨g1, g2, g3⟩ := ih hp hf
      simp only at g1 g3
      rw [h2, List.length_cons]
      exact ⟨by omega, g2, by rw [g3]; simp⟩
    | finish h1 h2 h3 h4 =>
      obtain ⟨g1, g2, g3⟩ := ih hp hf
      simp only [if_true] at g1
      rw [h4]
      simp only [Bool.false_eq_true, if_false]
      exact ⟨by omega, g2, g3⟩

/-- The thread has written two bytes, of which the command has read none; it has printed one byte and ended.  All three steps are possible. -/
example (S : SegSrc Unit) (f : Formatting) (B : Nat) :
    let n : Net Unit Unit := { a := { st := (), offset := 0, buf := [], written := [1, 2], fate := some none }, sent := 0, input := [], proc := (), output := [7], got := [], ended := false }
    ∃ n', Chain (Net.Step S f B (fun _ => .exit) 1 1 fun _ => false) 3 n n' ∧ n'.got = [7] ∧ n'.ended = true := by
  refine ⟨_, .cons (.broken _ rfl (by decide)) (.cons (.take _ 7 [] rfl rfl) (.cons (.finish _ rfl rfl rfl rfl) (.nil _))), rfl, rfl⟩

/-- **C31** (the main thread reads to the end): at the end of the patched stream, the main thread has seen the end of what the command prints, if no record lies behind the end of the
stream. -/
theorem C31_reads_all {S : ByteSrc σ} {P : RecSrc τ} {F M bad} {B fuel : Nat} (hB : 0 < B) {src : σ} {w : Nat} {content : Bytes} {patch : τ}
    {recs : List Rec} (hsrc : Delivers S F M src w content) (hlen : content.length ≤ usizeMax) (h : Yields P F bad patch recs)
    (hok : PatchOk content.length bad 0 recs) (hm : ∀ r ∈ recs, r.offset + r.span < usizeMax) (hin : ∀ r ∈ recs, r.offset < content.length)
    {s : Buffered (PatchState σ τ)} (hs : PatchStream.new P B src patch = .ok s) (hf : recs.length + w + 4 ≤ fuel) (ops : List ClientOp) {c : Client (Buffered (PatchState σ τ))}
    (hc : (Client.init s).run (PatchStream.byteSrc S P B fuel) ops = .ok c) {n : Nat} (hl : c.lent = some n) (he : c.eof = true) : c.st.inner.patch.offset = usizeMax :=
  PatchStream.reads_all hB hsrc hlen h hok hm hin hs hf ops hc hl he

/-- Three bytes, of which the first and the last are replaced. -/
example {s} (hs : PatchStream.new (listSrc false) 4 (TeeReader.new 4 ⟨true, [1, 2, 3], 3⟩ fun _ => some 4) [⟨0, 1, [9]⟩, ⟨2, 1, [8]⟩] = .ok s) (ops : List ClientOp) {c n}
    (hc : (Client.init s).run (PatchStream.byteSrc (TeeReader.byteSrc 4 100) (listSrc false) 4 100) ops = .ok c) (hl : c.lent = some n) (he : c.eof = true) : c.st.inner.patch.offset = usizeMax :=
  C31_reads_all (F := fun _ => True) (by decide) ((TeeReader.delivers 4 (by decide) 100 (fun _ => some 4) ⟨true, [1, 2, 3], 3⟩ (by decide)).mono (fun _ _ => trivial) fun _ h => h) (by decide)
    (Yields.mono (listSrc_yields false [⟨0, 1, [9]⟩, ⟨2, 1, [8]⟩]) fun _ _ => trivial) ⟨by decide, fun _ => ⟨by decide, fun _ => rfl⟩⟩ (by decide) (by decide) hs (by decide) ops hc hl he

/-- What `PatchDrain::fill_buf` finds on an empty stream with two records: the end, the number of bytes that makes it wait for the command, and how many records have not been read. -/
def emptyDrain : Except Err ((Bool × Nat) × Nat × Nat) :=
  match PatchStream.new (listSrc false) 4 (TeeReader.new 4 TempFile.new fun _ => some 4) [⟨0, 1, [9]⟩, ⟨1, 1, [8]⟩] with
  | .error e => .error e
  | .ok s =>
    match (PatchDrain.byteSrc (PatchStream.byteSrc (TeeReader.byteSrc 4 100) (listSrc false) 4 100)).fill (PatchDrain.new s none) 4 with
    | .error e => .error e
    | .ok (r, d) => .ok (r, (PatchDrain.new s none).prevBytes, d.patch.inner.patch.src.length)

/-- **Counterexample** (deadlock): records behind the end of the stream are not read.  At the end of an empty stream (or if the last two fills have lent the same number of bytes) the main
thread nevertheless waits for the end of the command.  If the command still has more to print than fits into the pipe, it never ends, and neither does the main thread: for all capacities of the
pipes. -/
theorem C31_deadlock_counterexample :
    emptyDrain = .ok ((true, 0), 0, 1) ∧
    ∀ ci co : Nat, ∃ p st bound, ConstSlicerParams.fromRaw 2 16 (fromStart 0 16) = .ok p ∧
      ConstSlicer.new (TeeStream.new (RawStream.new (2 ^ 21) (Reader.open [] fun _ => some (2 ^ 21)) 1 0)) p = .ok st ∧
      ∀ l n, Net.Path (ConstSlicer.segSrc (TeeStream.byteSrc (RawStream.byteSrc (2 ^ 21) 1))) ⟨.hhh, 0⟩ (2 ^ 21) (processOf fun _ => List.replicate (co + 2) 48) ci co (fun g => decide (1 ≤ g.length))
          constCache.Access st (.inl []) l n → l ≤ bound ∧ processOf (fun _ => List.replicate (co + 2) 48) n.proc ≠ .exit := by
  refine ⟨by decide +kernel, fun ci co => ?_⟩
  obtain ⟨p, st, h1, h2, h3⟩ := width_tracked (file_amply (2 ^ 21) 1 0 [] (fun _ => some (2 ^ 21)) (by decide) (by decide)) (fun _ => NlMargin.any) 2 16 (fromStart 0 16) 0 16
    (by decide) (by decide) (by decide) (by decide) (by decide) (by decide) (by decide)
  obtain ⟨Q, hQ0, hQ⟩ := processOf_patient fun _ => List.replicate (co + 2) 48
  exact ⟨p, st, _, h1, h2, fun l n hp => Net.Path.stuck hQ0 hQ (C31_thread_ends (by simp [ConstSlicer.kind]) rfl h3 ⟨.hhh, 0⟩ (2 ^ 21) (by decide)) (q := 1) (fun g hg => by simpa using hg)
    (fun _ => by simp; omega) hp⟩

end Nd.Props
