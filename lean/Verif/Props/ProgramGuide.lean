import Verif.Props.ProgramSmall
/-!
# C37, --guide on files of any length
-/
namespace Nd.Props
open Nd Nd.Spec Conformance

/-- `nd -f b --guide guide.txt x y` -/
def followArgs : Args := { inputs := ["x", "y"], outFormat := some "b", guide := some "guide.txt" }

def followJob : Job := { slicer := .guide guideRecs, printing := .binary }

theorem follow_asks : Asks followArgs followJob where
  inFormat := .none
  outFormat := .b
  filler := .none
  joint := .none
  cut := .none
  pad := .none
  slicer := .guide
  invert := .none
  extend := .none
  merge := .none
  lines := .none
  output := Or.inl rfl
  patchBack := rfl

/-- The files of the call. -/
def followFiles (c d : Bytes) (s t : Nat → Option Nat) (name : String) : Option InFile :=
  if name = "x" then some (c, s) else if name = "y" then some (d, t) else if name = "guide.txt" then some (bytes! "000000000010 0003\n000000000028 0003\n", atOnce) else none

/-- The call prints the bytes 16-18 and 40-42 of the two files, however long they are and however they are read. -/
example (c d : Bytes) (hc : 43 ≤ (c ++ d).length) (hd : (c ++ d).length < 2 ^ 48) (s t : Nat → Option Nat) (hs : ∀ i, s i ≠ none) (ht : ∀ i, t i ≠ none) :
    ∃ N, ∀ fuel, N < fuel → ({ host none with files := followFiles c d s t, fuel := fuel } : Host).run followArgs =
      (((c ++ d).drop 16).take 3 ++ ((c ++ d).drop 40).take 3, none) := by
  have hst : followJob.stream [c, d] = c ++ d := by
    simp [followJob, Job.stream, Job.filtered, Joint.join, Spec.cat, Spec.pad, alignTo_one]
  have hs' : Surroundings { host none with files := followFiles c d s t } followArgs followJob [(c, s), (d, t)] [c, d] [s, t, atOnce] := by
    refine { release := rfl, inplace := rfl, block := show 0 < 2 ^ 21 by decide, opened := .cons rfl (.cons rfl .nil), stdin := by decide, listed := by simp, patch := trivial,
             decodes := .cons rfl (.cons rfl .nil), text := fun h => absurd rfl h, pad := ⟨Nat.zero_le _, Nat.zero_le _⟩, aligned := ?_, joined := ?_, stream := by rw [hst]; exact hd,
             slicer := ⟨by simp [followArgs], ?_⟩, regex := trivial, fits := Or.inl (Or.inr (Or.inl ⟨show 0 < (2 ^ 21 - 1784) / 8 by decide, guideRecs, rfl, ⟨rfl, rfl, rfl, rfl, rfl⟩, by decide, ?_⟩)) }
    · simp only [List.length_append] at hd
      simp [followJob, Joint.word, alignTo_one]
      omega
    · simpa [followJob, Joint.join, Spec.cat, alignTo_one] using hd
    · intro recs file h1 h2
      cases h1
      cases h2
      refine ⟨_, atOnce, rfl, by simp, guide_records, ?_⟩
      show ∀ l ∈ [bytes! "000000000010 0003", bytes! "000000000028 0003"], l.length < (2 ^ 21 - 1777) / 8
      decide
    · rw [hst]
      intro r hr
      refine ⟨?_, show r.span ≤ (2 ^ 21 - 1784) / 8 from ?_, ?_⟩
      all_goals simp only [guideRecs, List.mem_cons, List.not_mem_nil, or_false] at hr
      all_goals rcases hr with rfl | rfl <;> simp only <;> omega
  obtain ⟨text, N, h1, _, h2⟩ := C37_success_partial _ _ _ _ _ _ follow_asks hs' (by simpa [atOnce] using ⟨hs, ht⟩) (guided guideRecs) (by rw [hst]; exact ⟨_, _, rfl, rfl, rfl⟩)
  refine ⟨N, fun fuel hf => ?_⟩
  rw [show ({ host none with files := followFiles c d s t, fuel := fuel } : Host) = ({ host none with files := followFiles c d s t } : Host).withFuel fuel from rfl, h2 fuel hf]
  rw [hst] at h1
  rw [show text = _ from h1]
  simp [guided, guideRecs, Seg.bytes]

end Nd.Props
