import Verif.Props.Bytes
import Verif.Proof.Cut
/-!
# C05: `--cut`
-/
namespace Nd.Props
open Nd

theorem minTrans_ok : ∀ rs : List RangeMapper, ∃ t, Cutter.minTrans false rs = .ok t
  | [] => ⟨_, rfl⟩
  | r :: rs => by
    obtain ⟨t, ht⟩ := minTrans_ok rs
    have : ∃ x, r.transOffset false = .ok x := by
      rcases r with ⟨x | x, y | y⟩
      · exact ⟨_, rfl⟩
      · exact ⟨_, rfl⟩
      · simp only [RangeMapper.transOffset]
        by_cases h : y = 0
        · exact ⟨usizeMax, by simp [h]⟩
        · exact ⟨y - 1, by simp [h]⟩
      · exact ⟨_, rfl⟩
    obtain ⟨x, hx⟩ := this
    exact ⟨min x t, by simp [Cutter.minTrans, hx, ht]⟩

/-- **C05**: in release builds every list of ranges is accepted ... -/
theorem C05_new_ok (B : Nat) (src : σ) (rs : List RangeMapper) : ∃ s, CutStream.new B false src rs = .ok s := by
  obtain ⟨t, ht⟩ := minTrans_ok (rs.filter RangeMapper.hasRightAnchor)
  simp only [CutStream.new, Cutter.ofRanges, ht]
  exact ⟨_, rfl⟩

/-- **C05**: ... and `--cut S..E,...` carries exactly the bytes whose offset lies in one of the ranges, in
order, each once: for every stream that respects the protocol, every list of ranges (start- or
end-anchored, overlapping, inverted or beyond either end), every chunking and every client. -/
theorem C05_cut_union {S : ByteSrc σ} {F M} (B fuel : Nat) (hB : 0 < B) (src : σ) (w : Nat) (content : Bytes)
    (hsrc : Delivers S F M src w content) (oc : Bool) (ms : List SegmentMapper) (s : Buffered (CutState σ))
    (hs : CutStream.new B oc src (ms.map RangeMapper.ofMapper) = .ok s) (hf : w < fuel) :
    Reads (CutStream.byteSrc S B fuel) F s (Spec.cut (ms.map SegmentMapper.toSpec) content) := by
  rw [← coverAny_spec]
  exact (CutStream.delivers hB hsrc hs hf).reads

/-- With overflow checks enabled (debug builds), `e-1..0` aborts the program. -/
theorem C05_overflow_check_counterexample (B : Nat) (src : σ) :
    CutStream.new B true src ([⟨⟨1, -1⟩, ⟨0, 0⟩⟩].map RangeMapper.ofMapper) = .error .panic := rfl

/-- `--cut e-2..,1..3,0..2,5..4` of a seven-byte file read two bytes at a time. -/
example : ∃ s, CutStream.new 2 false (RawStream.new 2 (Reader.open [0, 1, 2, 3, 4, 5, 6] fun _ => some 2) 1 0)
      ([⟨⟨1, -2⟩, ⟨1, 0⟩⟩, ⟨⟨0, 1⟩, ⟨0, 3⟩⟩, ⟨⟨0, 0⟩, ⟨0, 2⟩⟩, ⟨⟨0, 5⟩, ⟨0, 4⟩⟩].map RangeMapper.ofMapper) = .ok s ∧
    Reads (CutStream.byteSrc (RawStream.byteSrc 2 100) 2 100) (IoErr [fun _ => some 2]) s [0, 1, 2, 5, 6] := by
  obtain ⟨s, hs⟩ := C05_new_ok 2 (RawStream.new 2 (Reader.open [0, 1, 2, 3, 4, 5, 6] fun _ => some 2) 1 0)
      ([⟨⟨1, -2⟩, ⟨1, 0⟩⟩, ⟨⟨0, 1⟩, ⟨0, 3⟩⟩, ⟨⟨0, 0⟩, ⟨0, 2⟩⟩, ⟨⟨0, 5⟩, ⟨0, 4⟩⟩].map RangeMapper.ofMapper)
  exact ⟨s, hs, C05_cut_union 2 100 (by decide) _ 7 _
    (raw_delivers 2 100 1 0 [0, 1, 2, 3, 4, 5, 6] (fun _ => some 2) (by decide) (by decide) (by decide)) _ _ s hs (by decide)⟩

end Nd.Props
