import Mathlib.Analysis.SpecialFunctions.Pow.Real
import Mathlib.Data.Fintype.Basic
import Verif.Spec.TransformDouble
/-! # What a user expects of approximate equality -/
namespace Verif.Spec

/-- The Euclidean length of a list of doubles. -/
noncomputable def size {ι : Type} [Fintype ι] (a : ι → ℚ) : ℝ := Real.sqrt (∑ i, (a i : ℝ) ^ 2)

/-- The Euclidean distance of two lists of doubles. -/
noncomputable def apart {ι : Type} [Fintype ι] (a b : ι → ℚ) : ℝ := Real.sqrt (∑ i, ((a i : ℝ) - b i) ^ 2)

/-- Both parts of a tangent vector are within `e` of the length of the whole (and `z`) of those of another. -/
def CloseTangents (e z : ℝ) (a b : (Fin 3 → ℚ) × (Fin 3 → ℚ)) : Prop :=
  SO3.eucNorm (realVec a.1 - realVec b.1) ≤ e * (SO3.eucNorm (realVec a.1) + SO3.eucNorm (realVec a.2)) + z ∧
    SO3.eucNorm (realVec a.2 - realVec b.2) ≤ e * (SO3.eucNorm (realVec a.1) + SO3.eucNorm (realVec a.2)) + z

end Verif.Spec
