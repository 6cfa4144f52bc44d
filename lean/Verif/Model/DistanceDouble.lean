import Verif.Model.ExpDouble
/-! # Distances between poses in binary64 arithmetic

resim/transforms/se3.cc, as in `ExpDouble`: a finite double is its rational value, sums are evaluated in any order, fused or not, and the square
root is correctly rounded.  Simplifications: the frame checks are in `Model/SE3` (they do not influence the number); overflow is not modelled. -/
namespace Verif.DistanceDouble
open SampleIntervalDouble TransformDouble ExpDouble

/-- `se3_distance` and `se3_inverse_distance`, resim/transforms/se3.cc:267-270,272-275: both return the norm of the difference of the stored
translations. -/
def Distance (a b : Stored) (d : ℚ) : Prop := ∃ w : Fin 3 → ℚ, (∀ i, w i = round64 (a.trans i - b.trans i)) ∧ Norm w d

/-- `(ref_from_a.inverse() * ref_from_b).translation().norm()`, what `se3_inverse_distance` says it computes without composing
(resim/transforms/se3.hh:187-197, computed with se3.cc:61-71,93-100). -/
def ComposedInverse (a b : Stored) (d : ℚ) : Prop := ∃ i c, Inverse a i ∧ Mul i b c ∧ Norm c.trans d

/-- `(a_from_ref * b_from_ref.inverse()).translation().norm()`, what `se3_distance` says it computes without composing
(resim/transforms/se3.hh:175-185, computed with se3.cc:61-71,93-100). -/
def Composed (a b : Stored) (d : ℚ) : Prop := ∃ i c, Inverse b i ∧ Mul a i c ∧ Norm c.trans d

end Verif.DistanceDouble
