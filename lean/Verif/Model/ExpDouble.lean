import Verif.Model.TransformDouble
import Mathlib.Analysis.SpecialFunctions.Trigonometric.Basic
import Mathlib.Analysis.SpecialFunctions.Sqrt
/-! # The exponential maps in binary64 arithmetic

resim/transforms/so3.cc, se3.cc and liegroup_exp_diff.cc.  As in `TransformDouble` a finite double is its rational value, and the model is a relation
that admits every order of additions and every fusing of a product with an addition.  `std::sqrt` is correctly rounded (IEEE 754);
of `std::sin` and `std::cos` only an error of at most one unit in the last place is used, which the C libraries document.  Simplifications: results that
overflow are not modelled (the theorems bound the tangent vectors); frames are left out. -/
namespace Verif.ExpDouble
open SampleIntervalDouble TransformDouble

/-- `std::sqrt` as used at resim/transforms/liegroup_exp_diff.cc:48 and inside `norm` and `normalized` (resim/transforms/so3.cc:98).  The square
root of a positive double is never subnormal, so that correct rounding is an error of at most half a unit in the last place. -/
def SqrtOf (x r : ℚ) : Prop := |(r : ℝ) - Real.sqrt x| ≤ 2 ^ (-53 : ℤ) * Real.sqrt x

/-- `std::sin` as used at resim/transforms/liegroup_exp_diff.cc:51 and inside `toRotationMatrix` (resim/transforms/so3.cc:28). -/
def SinOf (x r : ℚ) : Prop := |(r : ℝ) - Real.sin x| ≤ 2 ^ (-52 : ℤ) * |Real.sin x|

/-- `std::cos` as used at resim/transforms/liegroup_exp_diff.cc:52 and inside `toRotationMatrix` (resim/transforms/so3.cc:28). -/
def CosOf (x r : ℚ) : Prop := |(r : ℝ) - Real.cos x| ≤ 2 ^ (-52 : ℤ) * |Real.cos x|

/-- `Eigen::Vector3d::squaredNorm`, resim/transforms/so3.cc:103, resim/transforms/se3.cc:122. -/
def SquaredNorm (w : Fin 3 → ℚ) (q : ℚ) : Prop := Evaluates w w Finset.univ q

/-- `Eigen::Vector3d::normalized`, resim/transforms/so3.cc:98: the vector itself if the computed squared norm is zero. -/
def Normalized (w n : Fin 3 → ℚ) : Prop :=
  ∃ q, SquaredNorm w q ∧ if 0 < q then ∃ r, SqrtOf q r ∧ ∀ i, n i = round64 (w i / r) else n = w

/-- `Eigen::Vector3d::norm`, resim/transforms/so3.cc:98. -/
def Norm (w : Fin 3 → ℚ) (r : ℚ) : Prop := ∃ q, SquaredNorm w q ∧ SqrtOf q r

/-- `Eigen::AngleAxisd::toRotationMatrix`, resim/transforms/so3.cc:28: `s` and `c` are sine and cosine of the angle, `k` is the vector
`(1 - c) * axis`; every entry is a sum of two products, or of a product and the cosine. -/
def AngleAxisMatrix (angle : ℚ) (axis : Fin 3 → ℚ) (m : Matrix (Fin 3) (Fin 3) ℚ) : Prop :=
  ∃ s c : ℚ, SinOf angle s ∧ CosOf angle c ∧ ∃ k : Fin 3 → ℚ, (∀ i, k i = round64 (round64 (1 - c) * axis i)) ∧
    (∀ i, Evaluates ![k i, 1] ![axis i, c] Finset.univ (m i i)) ∧
    Evaluates ![k 0, -s] ![axis 1, axis 2] Finset.univ (m 0 1) ∧ Evaluates ![k 0, s] ![axis 1, axis 2] Finset.univ (m 1 0) ∧
    Evaluates ![k 0, s] ![axis 2, axis 1] Finset.univ (m 0 2) ∧ Evaluates ![k 0, -s] ![axis 2, axis 1] Finset.univ (m 2 0) ∧
    Evaluates ![k 1, -s] ![axis 2, axis 0] Finset.univ (m 1 2) ∧ Evaluates ![k 1, s] ![axis 2, axis 0] Finset.univ (m 2 1)

/-- `SO3::exp`, resim/transforms/so3.cc:95-100. -/
def ExpSO3 (w : Fin 3 → ℚ) (m : Matrix (Fin 3) (Fin 3) ℚ) : Prop :=
  ∃ angle axis, Norm w angle ∧ Normalized w axis ∧ AngleAxisMatrix angle axis m

/-- The lambda `tiny_exp_diff_coeff`, resim/transforms/liegroup_exp_diff.cc:38-43, with the constants `k0`, `k1`, `k2` of lines 19-29. -/
def TinyCoeff (k0 k1 k2 q r : ℚ) : Prop :=
  ∃ t, Evaluates ![1, -q] ![round64 k1, round64 k2] Finset.univ t ∧ Evaluates ![1, -q] ![round64 k0, t] Finset.univ r

/-- `derivative_of_exp_so3`, resim/transforms/liegroup_exp_diff.cc:35-56; `TINY_SQUARE_ANGLE` is the double next to 4e-6
(resim/transforms/liegroup_exp_diff.hh:11).  The difference `1. - coeffs.a` of line 53 may be fused with the product of line 51. -/
def ExpDiffCoeffs (q a b c : ℚ) : Prop :=
  if q < round64 4e-6 then
    TinyCoeff 0.5 (1 / 24) (1 / 720) q b ∧ TinyCoeff (1 / 6) (1 / 120) (1 / 5040) q c ∧ Evaluates ![1, -q] ![1, c] Finset.univ a
  else
    ∃ angle s k : ℚ, SqrtOf q angle ∧ SinOf angle s ∧ CosOf angle k ∧
      let inv := round64 (1 / angle)
      let invSq := round64 (inv * inv)
      a = round64 (s * inv) ∧ b = round64 (round64 (1 - k) * invSq) ∧ ∃ p, Evaluates ![1, -s] ![1, inv] Finset.univ p ∧ c = round64 (p * invSq)

/-- `Eigen::Vector3d::cross`, resim/transforms/se3.cc:124. -/
def Cross (w v x : Fin 3 → ℚ) : Prop :=
  Evaluates ![w 1, -w 2] ![v 2, v 1] Finset.univ (x 0) ∧ Evaluates ![w 2, -w 0] ![v 0, v 2] Finset.univ (x 1) ∧
  Evaluates ![w 0, -w 1] ![v 1, v 0] Finset.univ (x 2)

/-- `SE3::exp`, resim/transforms/se3.cc:117-127: `w` and `v` are the rotation and translation parts of the tangent vector, `x` and `d` their cross and
dot products; every entry of the translation is a sum of three products. -/
def ExpSE3 (w v : Fin 3 → ℚ) (g : Stored) : Prop :=
  ExpSO3 w g.rot ∧ ∃ q a b c d x, SquaredNorm w q ∧ ExpDiffCoeffs q a b c ∧ Cross w v x ∧ Evaluates w v Finset.univ d ∧
    ∀ i, Evaluates ![a, b, round64 (c * d)] ![v i, x i, w i] Finset.univ (g.trans i)

/-- `SO3::exp_diff`, resim/transforms/so3.cc:102-107, with `cross_matrix`, resim/transforms/cross_matrix.cc:11-20: every entry is a sum of three
products. -/
def ExpDiffSO3 (w : Fin 3 → ℚ) (m : Matrix (Fin 3) (Fin 3) ℚ) : Prop :=
  ∃ q a b c, SquaredNorm w q ∧ ExpDiffCoeffs q a b c ∧ ∀ i j, Evaluates ![a, b, round64 (c * w i)]
    ![if i = j then 1 else 0, !![0, -w 2, w 1; w 2, 0, -w 0; -w 1, w 0, 0] i j, w j] Finset.univ (m i j)

end Verif.ExpDouble
