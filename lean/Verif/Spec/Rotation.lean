import Verif.Model.SO3
import Mathlib.LinearAlgebra.Matrix.Determinant.Basic
/-! # Rotations and rigid motions, stated with plain matrix algebra -/
namespace Verif.Spec
open Matrix

/-- A proper rotation: orthogonal with determinant one. -/
structure IsRotation (R : M3) : Prop where
  orth : Rᵀ * R = 1
  det : R.det = 1

/-- The homogeneous 4x4 matrix of a pose. -/
def homogeneous (R : M3) (t : V3) : Matrix (Fin 3 ⊕ Unit) (Fin 3 ⊕ Unit) ℝ :=
  fromBlocks R (replicateCol Unit t) 0 1

/-- The 4x4 matrix of a twist. -/
def twistMatrix (w u : V3) : Matrix (Fin 3 ⊕ Unit) (Fin 3 ⊕ Unit) ℝ :=
  fromBlocks (!![0, -w 2, w 1; w 2, 0, -w 0; -w 1, w 0, 0]) (replicateCol Unit u) 0 0

end Verif.Spec
