import Verif.Model.Proto
import Verif.Model.Approx
/-! # What C127 asks of the comparison of primitives -/
namespace Verif.Spec
open Verif.Proto

/-- The two primitives have the same identifier, and both show a pose. -/
def SamePoses (a b : ViewPrimitive) (x y : Framed Pose) : Prop := a.id = b.id ∧ a.payload = .se3 x ∧ b.payload = .se3 y

/-- The primitive shows a pose. -/
def ShowsPose (a : ViewPrimitive) : Prop := ∃ x, a.payload = .se3 x

end Verif.Spec
