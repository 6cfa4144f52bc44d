import Verif.Model.TCurve
import Mathlib.Analysis.Calculus.Deriv.Pow
import Mathlib.Analysis.Calculus.Deriv.Add
import Mathlib.Analysis.Calculus.Deriv.Mul
import Mathlib.Tactic.Ring
import Mathlib.Tactic.NormNum
/-! # The quintic coefficients in closed form -/
namespace Verif.Quintic

theorem coeffs_a (c : Fin 5 → ℝ) (t : ℝ) : (coeffs c t).a = c 0 * t + c 1 * t ^ 2 + c 2 * t ^ 3 + c 3 * t ^ 4 + c 4 * t ^ 5 := by
  simp [coeffs, singleCoeff, multA, List.takeWhile]
  ring

theorem coeffs_da (c : Fin 5 → ℝ) (t : ℝ) :
    (coeffs c t).da = c 0 + 2 * c 1 * t + 3 * c 2 * t ^ 2 + 4 * c 3 * t ^ 3 + 5 * c 4 * t ^ 4 := by
  simp [coeffs, singleCoeff, multDA, List.takeWhile]
  ring

theorem coeffs_d2a (c : Fin 5 → ℝ) (t : ℝ) :
    (coeffs c t).d2a = 2 * c 1 + 6 * c 2 * t + 12 * c 3 * t ^ 2 + 20 * c 4 * t ^ 3 := by
  simp [coeffs, singleCoeff, multD2A, List.takeWhile]
  ring

theorem hasDerivAt_poly5 (a b c d e t : ℝ) : HasDerivAt (fun t : ℝ => a * t + b * t ^ 2 + c * t ^ 3 + d * t ^ 4 + e * t ^ 5)
    (a + 2 * b * t + 3 * c * t ^ 2 + 4 * d * t ^ 3 + 5 * e * t ^ 4) t := by
  have h := (((((hasDerivAt_id t).const_mul a).add ((hasDerivAt_pow 2 t).const_mul b)).add ((hasDerivAt_pow 3 t).const_mul c)).add
    ((hasDerivAt_pow 4 t).const_mul d)).add ((hasDerivAt_pow 5 t).const_mul e)
  refine h.congr_deriv ?_
  norm_num
  ring

theorem hasDerivAt_a (c : Fin 5 → ℝ) (t : ℝ) : HasDerivAt (fun s => (coeffs c s).a) (coeffs c t).da t := by
  simp only [coeffs_a, coeffs_da]
  exact hasDerivAt_poly5 _ _ _ _ _ t

theorem hasDerivAt_da (c : Fin 5 → ℝ) (t : ℝ) : HasDerivAt (fun s => (coeffs c s).da) (coeffs c t).d2a t := by
  simp only [coeffs_da, coeffs_d2a]
  have h := (hasDerivAt_poly5 (2 * c 1) (3 * c 2) (4 * c 3) (5 * c 4) 0 t).const_add (c 0)
  have e : (fun s : ℝ => c 0 + 2 * c 1 * s + 3 * c 2 * s ^ 2 + 4 * c 3 * s ^ 3 + 5 * c 4 * s ^ 4) =
      fun s => c 0 + (2 * c 1 * s + 3 * c 2 * s ^ 2 + 4 * c 3 * s ^ 3 + 5 * c 4 * s ^ 4 + 0 * s ^ 5) := by funext s; ring
  rw [e]
  refine h.congr_deriv ?_
  ring

end Verif.Quintic
