import Verif.Spec.Rotation
import Mathlib.LinearAlgebra.Matrix.Trace
import Mathlib.Analysis.SpecialFunctions.Trigonometric.Inverse
/-! # The angle between two orientations -/
namespace Verif.Spec

/-- The angle of the rotation that takes the orientation `a` to the orientation `b`, from 0 to half a turn: the trace of a rotation matrix is one plus twice the
cosine of its angle. -/
noncomputable def turnBetween (a b : M3) : ℝ := Real.arccos ((Matrix.trace (a.transpose * b) - 1) / 2)

end Verif.Spec
