import Verif.Model.Outcome
import Verif.Spec.Motion
/-! # Describing the same motion differently -/
namespace Verif.Spec

/-- How two calls end alike: both return, with related results, or both throw, or both are undefined. -/
inductive Alike {α β : Type} (R : α → β → Prop) : Outcome α → Outcome β → Prop
  | ok {a b} (h : R a b) : Alike R (.ok a) (.ok b)
  | throw (m m' : String) : Alike R (.throw m) (.throw m')
  | ub (w w' : String) : Alike R (.ub w) (.ub w')

/-- A pose, or a twist, with its lengths in another unit: the rotation part stays, the translation part is multiplied by `k`. -/
def Longer {α : Type} (k : ℝ) (g g' : α × V3) : Prop := g'.1 = g.1 ∧ ∀ i, g'.2 i = k * g.2 i

end Verif.Spec
