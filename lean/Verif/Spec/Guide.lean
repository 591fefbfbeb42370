import Verif.Model.Record
import Verif.Spec.Segment
/-!
# What `--guide FILE` means
-/
namespace Nd.Spec

/-- The slices of the records of the guide. -/
def guided (recs : List Rec) : List Seg := recs.map fun r => { pos := r.offset, len := r.span }

end Nd.Spec
