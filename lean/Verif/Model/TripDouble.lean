import Verif.Model.ApproxDouble
/-! # Exponential and then logarithm in binary64 arithmetic

As in the Lie group guide, resim/examples/liegroups.cc:136-137, with `SE3::exp` of `ExpDouble` and `SE3::log` of `LogDouble`. -/
namespace Verif.TripDouble
open ExpDouble LogDouble TransformDouble

/-- `SE3::exp(my_tangent_vector).log()` of the guide may be computed to be `(w', v')`, resim/examples/liegroups.cc:137 (resim/transforms/se3.cc:117-158). -/
def ExpThenLog (w v w' v' : Fin 3 → ℚ) : Prop := ∃ g : Stored, ExpSE3 w v g ∧ LogSE3 g w' v'

end Verif.TripDouble
