import Verif.Proof.PatchBack
import Verif.Proof.Program
/-!
# What feeds the slicer
-/
namespace Nd
open Spec Props

/-- The temporary file, if there is a tee, has what is no longer in the stream. -/
def Kept (tee : Prop) (cache : Option TempFile) (content rem : Bytes) : Prop := tee → ∃ t, cache = some t ∧ t.data ++ rem = content

/-- What a byte stream in front of the slicer has to offer; `tee` tells that there is a tee. -/
structure Feeds (d : DynByte) (F : Err → Prop) (B w : Nat) (c : Bytes) (tee : Prop) : Prop where
  amply : ∃ w' ≤ w, ∃ R E, Serves d.src F AnyMargin R ∧ Ample d.src R ((B - 1784) / 8) E ∧ R d.st (.idle 1) w' c ∧ ¬ E d.st ∧ ∀ s ph w rem, R s ph w rem → Kept tee (d.cache s) c rem
  whole : c.length < B → Whole d.src F d.st
  prompt : Prompt d.src B d.st

theorem Carries.feeds {d : DynByte} {F B w c} (h : Carries d.src d.st F B w c) : Feeds d F B w c False := by
  obtain ⟨w', hw', R, E, h1, h2, h3, h4⟩ := h.amply
  exact ⟨⟨w', hw', R, E, h1, h2, h3, h4, fun _ _ _ _ _ h => h.elim⟩, h.whole, h.prompt⟩

/-- A stream behind the tee. -/
def DynByte.tee (d : DynByte) : DynByte := { src := TeeStream.byteSrc d.src, st := TeeStream.new d.st, cache := fun t => some t.cache }

theorem Carries.tee {d : DynByte} {F B w c} (h : Carries d.src d.st F B w c) : Feeds d.tee F B w c True := by
  obtain ⟨w', hw', R, E, h1, h2, h3, h4⟩ := h.amply
  refine ⟨⟨w', hw', TeeStream.Rel d.src R c, fun t => E t.src, TeeStream.serves h1 c, TeeStream.ample h2 c, ⟨h3, rfl, rfl, trivial⟩, h4, fun s ph w rem hR _ => ⟨_, rfl, hR.2.1⟩⟩, fun hl req => ?_, TeeStream.prompt h.prompt⟩
  rcases h.whole hl req with ⟨e, he, heq⟩ | ⟨n, s', heq⟩
  · exact Or.inl ⟨e, he, by simp only [DynByte.tee, TeeStream.byteSrc, TeeStream.new, heq]⟩
  · exact Or.inr ⟨n, { src := s', cache := TempFile.new }, by simp only [DynByte.tee, TeeStream.byteSrc, TeeStream.new, heq]⟩

theorem Feeds.lends {d : DynByte} {F B w c tee} (h : Feeds d F B w c tee) (hl : c.length < B) : Lends d.src F (fun rem s => Kept tee (d.cache s) c rem) d.st c := by
  obtain ⟨w', _, R, E, h1, _, h3, _, h5⟩ := h.amply
  exact (h.whole hl).lends h1 h3 h5

end Nd
