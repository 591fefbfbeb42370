import Verif.Model.Cut
import Verif.Proof.BoundedText
/-!
# The sizes of buffers: `--cut`
-/
namespace Nd.CutStream

/-- A scan yields each byte at most once. -/
theorem scan_length (offset : Nat) (isEof : Bool) (upto : Nat) (stream : List α) : ∀ (last : Nat) (fs : List RangeMapper), (Cutter.scan offset isEof upto stream last fs).1.length ≤ upto - min last upto
  | _, [] => by simp [Cutter.scan]
  | last, f :: fs => by
    have ih := scan_length offset isEof upto stream (min (max (f.toRange offset).2 last) upto) fs
    unfold Cutter.scan
    simp only
    split
    · simp only [List.length_drop, List.length_take]
      omega
    · simp only [List.length_append, List.length_drop, List.length_take]
      have hr : (f.toRange offset).1 ≤ (f.toRange offset).2 := by
        unfold RangeMapper.toRange
        split <;> simp only <;> omega
      omega

/-- The state of the ranges and of the source between two rounds: the source is at most `total` bytes long, and none of the ranges goes from the start to the end. -/
def Between (S : ByteSrc σ) (R : σ → Phase → Nat → Bytes → Prop) (Q K total : Nat) (s₀ : σ) (t : CutState σ) : Prop :=
  Visited S Q K s₀ t.src ∧ (∃ ph w rem, R t.src ph w rem ∧ t.srcConsumed + rem.length ≤ total) ∧ t.cutter.transOffset = usizeMax ∧ t.cutter.tailMargin = K

theorem feed_adds {S : ByteSrc σ} {F : Err → Prop} {M : Bytes → Prop} {R : σ → Phase → Nat → Bytes → Prop} (h : Serves S F M R) {Q K C total : Nat} {s₀ : σ} (hfit : total ≤ usizeMax)
    (hm : ∀ s n eof, LentTo S (Q + K + 1) K s₀ s n eof → n ≤ C) :
    StreamBuf.Adds (feed S) (fun t _ => Between S R (Q + K + 1) K total s₀ t) (fun t _ => Visited S (Q + K + 1) K s₀ t.src) C Q := by
  intro t req buf eof buf' t' ⟨hv, ⟨ph, w, rem, hR, hlen⟩, htr, hma⟩ hreq hf
  unfold feed at hf
  split at hf
  · cases hf
  · rename_i e n s hfill
    have hl : LentTo S (Q + K + 1) K s₀ s n e := ⟨_, _, hv, by omega, hfill⟩
    have hC := hm _ _ _ hl
    rcases h.fill _ _ _ _ (req + t.cutter.tailMargin + 1) hR with ⟨_, _, he⟩ | ⟨_, _, w', _, he, hR', hn, -⟩
    · rw [hfill] at he
      cases he
    rw [hfill] at he
    cases he
    simp only at hf
    split at hf
    · cases hf
    · rename_i s' hc
      cases hf
      rw [List.length_append]
      cases e with
      | true =>
        simp only [Cutter.accumulate] at hc
        have hout : (t.cutter.accumulate t.srcConsumed true n (S.slice s)).1.length ≤ n := by
          simp only [Cutter.accumulate]
          exact Nat.le_trans (scan_length _ _ _ _ _ _) (by simp)
        refine ⟨by omega, by omega, ?_⟩
        simp only [Bool.true_or, if_true]
        exact hl.consume (Nat.le_refl _) (by simp) (by simpa using hc)
      | false =>
        have hup : min (n - t.cutter.tailMargin) (t.cutter.transOffset - t.srcConsumed) = n - K := by
          rw [htr, hma]
          omega
        have hacc : (t.cutter.accumulate t.srcConsumed false n (S.slice s)).2.1 = n - K := by
          simp only [Cutter.accumulate, Bool.false_and, Bool.false_eq_true, if_false]
          exact hup
        have hout : (t.cutter.accumulate t.srcConsumed false n (S.slice s)).1.length ≤ n := by
          simp only [Cutter.accumulate, Bool.false_and, Bool.false_eq_true, if_false]
          exact Nat.le_trans (scan_length _ _ _ _ _ _) (by omega)
        rw [hacc] at hc
        have hv' := hl.consume (by omega) (by omega) hc
        refine ⟨by omega, by omega, ?_⟩
        split
        · exact hv'
        · obtain ⟨s'', w'', g1, g2, _⟩ := h.consume _ _ _ _ _ hR' (Nat.sub_le n K)
          rw [hc] at g1
          cases g1
          refine ⟨hv', ⟨_, _, _, g2, ?_⟩, ?_⟩
          · rw [hacc, List.length_drop]
            simp only
            omega
          · simp only [Cutter.accumulate, Bool.false_and, Bool.false_eq_true, if_false]
            exact ⟨htr, hma⟩

/-- Ranges within the head or within the tail of the file. -/
def Local (r : RangeMapper) : Prop :=
  match r.start, r.stop with
  | .fromStart _, .fromStart _ => True
  | .fromEnd _, .fromEnd _ => True
  | _, _ => False

theorem minTrans_local (oc : Bool) : ∀ (rs : List RangeMapper), (∀ r ∈ rs, Local r) → Cutter.minTrans oc rs = .ok usizeMax
  | [], _ => rfl
  | r :: rs, h => by
    have hr : r.transOffset oc = .ok usizeMax := by
      have := h r (by simp)
      unfold Local at this
      unfold RangeMapper.transOffset
      split at this <;> simp_all
    unfold Cutter.minTrans
    rw [hr, minTrans_local oc rs fun r hr => h r (by simp [hr])]
    simp

/-- How many bytes such ranges reach back from the end. -/
def reach (rs : List RangeMapper) : Nat := ((rs.filter RangeMapper.hasRightAnchor).map RangeMapper.tailMargin).foldr max 0

theorem foldr_max_le {D : Nat} : ∀ (l : List Nat), (∀ x ∈ l, x ≤ D) → l.foldr max 0 ≤ D
  | [], _ => Nat.zero_le _
  | x :: l, h => by
    have h1 := h x (by simp)
    have h2 := foldr_max_le l fun y hy => h y (by simp [hy])
    rw [List.foldr_cons]
    omega

theorem new_rests {S : ByteSrc σ} {B Q K C w Q' : Nat} {oc : Bool} {src : σ} {content : Bytes} {R : σ → Phase → Nat → Bytes → Prop} {rs : List RangeMapper}
    (hR : R src (.idle 1) w content) (hl : ∀ r ∈ rs, Local r) {c : Buffered (CutState σ)} (h : new B oc src rs = .ok c) :
    c.Rests B Q K C 1 (Between S R Q' (reach rs) content.length src) fun t => Visited S Q' (reach rs) src t.src := by
  unfold new Cutter.ofRanges at h
  simp only at h
  rw [minTrans_local _ _ fun r hr => hl r (List.mem_filter.1 hr).1] at h
  cases h
  refine ⟨StreamBuf.Small.new _ _ _ _ _ _ (by decide), rfl, ?_⟩
  simp only [StreamBuf.new, StreamBuf.newWithAlign, Bool.false_eq_true, if_false]
  exact ⟨.start, ⟨_, _, _, hR, by simp⟩, rfl, rfl⟩

end Nd.CutStream
