import Verif.Spec.Rotation
import Mathlib.Analysis.Calculus.Deriv.Basic
import Mathlib.Analysis.Calculus.Deriv.Prod
/-! # Motions and their derivatives, stated with matrices

`M` turns a group element into a matrix and `hat` a tangent vector into a matrix.  For SO3 these are the rotation matrix and the
cross-product matrix, for SE3 the homogeneous 4x4 matrix and the twist matrix. -/
namespace Verif.Spec
open Matrix Topology

variable {n : Type} [Fintype n] {G A : Type} [NormedAddCommGroup A] [NormedSpace ℝ A]

/-- Around time `t` the motion `g` has a left velocity, `g' = hat v g`, which is `v` at `t` and there has derivative `a`. -/
def HasLeftJet (M : G → Matrix n n ℝ) (hat : A → Matrix n n ℝ) (g : ℝ → G) (t : ℝ) (v a : A) : Prop :=
  ∃ vel : ℝ → A, (∀ᶠ s in 𝓝 t, ∀ i j, HasDerivAt (fun r => M (g r) i j) ((hat (vel s) * M (g s)) i j) s) ∧
    vel t = v ∧ HasDerivAt vel a t

/-- Around time `t` the motion `g` has a right velocity, `g' = g hat v`, which is `v` at `t` and there has derivative `a`. -/
def HasRightJet (M : G → Matrix n n ℝ) (hat : A → Matrix n n ℝ) (g : ℝ → G) (t : ℝ) (v a : A) : Prop :=
  ∃ vel : ℝ → A, (∀ᶠ s in 𝓝 t, ∀ i j, HasDerivAt (fun r => M (g r) i j) ((M (g s) * hat (vel s)) i j) s) ∧
    vel t = v ∧ HasDerivAt vel a t

/-- The matrix of a pose. -/
def poseMatrix (g : M3 × V3) : Matrix (Fin 3 ⊕ Unit) (Fin 3 ⊕ Unit) ℝ := homogeneous g.1 g.2

/-- The matrix of a tangent vector of SE3 (rotation part first). -/
def twistHat (x : V3 × V3) : Matrix (Fin 3 ⊕ Unit) (Fin 3 ⊕ Unit) ℝ := twistMatrix x.1 x.2

/-- The matrix of a tangent vector of SO3. -/
def rotHat (w : V3) : M3 := !![0, -w 2, w 1; w 2, 0, -w 0; -w 1, w 0, 0]

end Verif.Spec
