import Verif.Proofs.SO3Construct
import Verif.Props.Transform
import Mathlib.Algebra.Quaternion
/-! # C80: rotations from angles, axes, quaternions and matrices -/
namespace Verif.Props
open Verif Verif.Spec Matrix

/-- A quaternion as an element of the quaternion algebra, and a vector as a pure quaternion. -/
def hamilton (q : SO3.Quat) : Quaternion ℝ := ⟨q.w, q.v 0, q.v 1, q.v 2⟩

/-- See above. -/
def pure (v : V3) : Quaternion ℝ := ⟨0, v 0, v 1, v 2⟩

/-- C80.  An SO3 from an angle and a unit axis is the rotation about the axis by the angle: it fixes the axis, and turns a vector perpendicular to it by the
angle in the plane spanned by the vector and `axis × vector` (right hand rule).  It is the exponential of angle times axis. -/
theorem c80_angle_axis (t : ℝ) (n : V3) (hn : n ⬝ᵥ n = 1) :
    IsRotation (SO3.ofAngleAxis t n).val ∧ SO3.act (SO3.ofAngleAxis t n).val n = n ∧
    (∀ v, n ⬝ᵥ v = 0 → SO3.act (SO3.ofAngleAxis t n).val v = Real.cos t • v + Real.sin t • (n ⨯₃ v)) ∧
    (SO3.ofAngleAxis t n).val = SO3.exp (t • n) := by
  refine ⟨SO3.isRotation_angleAxis t hn, ?_, fun v hv => ?_, SO3.angleAxis_exp t hn⟩
  · simp only [SO3.ofAngleAxis, Framed.unframed, SO3.act, SO3.mulVec_angleAxis, cross_self, hn]
    module
  · simp only [SO3.ofAngleAxis, Framed.unframed, SO3.act, SO3.mulVec_angleAxis, hv]
    simp

theorem normSq_hamilton {q : SO3.Quat} (hq : q.w ^ 2 + q.v ⬝ᵥ q.v = 1) : Quaternion.normSq (hamilton q) = 1 := by
  rw [Quaternion.normSq_def']
  simp only [dotProduct, Fin.sum_univ_three] at hq
  change q.w ^ 2 + q.v 0 ^ 2 + q.v 1 ^ 2 + q.v 2 ^ 2 = 1
  linear_combination hq

theorem pure_act (q : SO3.Quat) (hn : Quaternion.normSq (hamilton q) = 1) (v : V3) :
    pure (SO3.act (SO3.quatMatrix q) v) = hamilton q * pure v * star (hamilton q) := by
  rw [Quaternion.normSq_def'] at hn
  have e0 : (hamilton q).re = q.w := rfl
  have e1 : (hamilton q).imI = q.v 0 := rfl
  have e2 : (hamilton q).imJ = q.v 1 := rfl
  have e3 : (hamilton q).imK = q.v 2 := rfl
  have f0 : ∀ v, (pure v).re = 0 := fun _ => rfl
  have f1 : ∀ v, (pure v).imI = v 0 := fun _ => rfl
  have f2 : ∀ v, (pure v).imJ = v 1 := fun _ => rfl
  have f3 : ∀ v, (pure v).imK = v 2 := fun _ => rfl
  rw [e0, e1, e2, e3] at hn
  ext <;> simp only [Quaternion.re_mul, Quaternion.imI_mul, Quaternion.imJ_mul, Quaternion.imK_mul, Quaternion.re_star, Quaternion.imI_star,
    Quaternion.imJ_star, Quaternion.imK_star, e0, e1, e2, e3, f0, f1, f2, f3] <;>
    simp [SO3.act, SO3.quatMatrix, mulVec, dotProduct, Fin.sum_univ_three]
  · ring
  · linear_combination (-v 0) * hn
  · linear_combination (-v 1) * hn
  · linear_combination (-v 2) * hn

theorem pure_injective {v w : V3} (h : pure v = pure w) : v = w := by
  funext i
  fin_cases i
  · exact congrArg QuaternionAlgebra.imI h
  · exact congrArg QuaternionAlgebra.imJ h
  · exact congrArg QuaternionAlgebra.imK h

/-- C80.  An SO3 from a unit quaternion turns vectors as the quaternion does, `q v q⁻¹`; the product of quaternions gives the composition. -/
theorem c80_quaternion (q p : SO3.Quat) (hq : q.w ^ 2 + q.v ⬝ᵥ q.v = 1) (hp : p.w ^ 2 + p.v ⬝ᵥ p.v = 1) (v : V3) :
    IsRotation (SO3.ofQuaternion q).val ∧ pure (SO3.act (SO3.ofQuaternion q).val v) = hamilton q * pure v * (hamilton q)⁻¹ ∧
    ∀ r, hamilton r = hamilton q * hamilton p → (SO3.ofQuaternion r).val = SO3.mul (SO3.ofQuaternion q).val (SO3.ofQuaternion p).val := by
  have nq := normSq_hamilton hq
  have np := normSq_hamilton hp
  have hi : (hamilton q)⁻¹ = star (hamilton q) := by
    rw [Quaternion.inv_def, nq, inv_one, one_smul]
  refine ⟨SO3.isRotation_quatMatrix hq, ?_, fun r hr => ?_⟩
  · rw [hi]
    exact pure_act q nq v
  · have nr : Quaternion.normSq (hamilton r) = 1 := by rw [hr, map_mul, nq, np, one_mul]
    refine Matrix.ext_of_mulVec_single fun i => pure_injective ?_
    have h1 := pure_act r nr (Pi.single i 1)
    have h2 := pure_act q nq (SO3.act (SO3.quatMatrix p) (Pi.single i 1))
    rw [pure_act p np] at h2
    rw [hr, star_mul] at h1
    simp only [mul_assoc] at h1 h2
    have h3 := h1.trans h2.symm
    simp only [SO3.act, mulVec_mulVec] at h3
    exact h3

/-- C80.  The quaternion of a rotation is a unit quaternion, and building an SO3 from it gives the rotation back. -/
theorem c80_quaternion_of (a : Framed M3) (h : IsRotation a.val) :
    (SO3.quaternion a).w ^ 2 + (SO3.quaternion a).v ⬝ᵥ (SO3.quaternion a).v = 1 ∧ (SO3.ofQuaternion (SO3.quaternion a)).val = a.val ∧
    ((a.into = Frame.null ↔ a.src = Frame.null) → SO3.ofQuaternionFramed (SO3.quaternion a) a.into a.src = .ok a) := by
  obtain ⟨h1, h2⟩ := SO3.quatOfMatrix_spec h
  refine ⟨h2, h1, fun hw => Framed.mk'_eq_ok_iff.mpr ⟨hw, ?_⟩⟩
  rw [SO3.quaternion, h1]

/-- C80.  The quaternion of the rotation given by a unit quaternion is that quaternion or its negative. -/
theorem c80_quaternion_back (q : SO3.Quat) (hq : q.w ^ 2 + q.v ⬝ᵥ q.v = 1) :
    SO3.quaternion (SO3.ofQuaternion q) = q ∨ SO3.quaternion (SO3.ofQuaternion q) = ⟨-q.w, -q.v⟩ := by
  obtain ⟨h1, h2⟩ := SO3.quatOfMatrix_spec (SO3.isRotation_quatMatrix hq)
  exact SO3.quat_sign hq h2 h1

/-- C80.  Exactly which numbers give a rotation.  No constructor rejects any. -/
theorem c80_rotation_iff (m : M3) (q : SO3.Quat) (t : ℝ) (n : V3) :
    (IsRotation (SO3.ofMatrix m).val ↔ mᵀ * m = 1 ∧ m.det = 1) ∧
    (IsRotation (SO3.ofQuaternion q).val ↔ q.w ^ 2 + q.v ⬝ᵥ q.v = 1 ∨ q.v = 0) ∧
    (IsRotation (SO3.ofAngleAxis t n).val ↔ n ⬝ᵥ n = 1 ∨ Real.cos t = 1) :=
  ⟨⟨fun h => ⟨h.orth, h.det⟩, fun h => ⟨h.1, h.2⟩⟩, SO3.quatMatrix_iff q, SO3.angleAxisMatrix_iff t n⟩

/-- C80, negative.  An axis or a quaternion that is not normalised is accepted, with frames or without, and the result does not keep lengths. -/
theorem c80_unchecked : ∃ g : Framed M3, SO3.ofAngleAxisFramed (Real.pi / 2) ![1, 1, 0] (exFrame 1) (exFrame 2) = .ok g ∧
    SO3.sqNorm (SO3.act g.val ![1, 1, 0]) = 4 * SO3.sqNorm ![1, 1, 0] ∧
    ∃ h : Framed M3, SO3.ofQuaternionFramed ⟨1, ![1, 0, 0]⟩ (exFrame 1) (exFrame 2) = .ok h ∧
    SO3.sqNorm (SO3.act h.val ![0, 1, 0]) = 5 * SO3.sqNorm ![0, 1, 0] := by
  refine ⟨_, Framed.mk'_ok (by decide), ?_, _, Framed.mk'_ok (by decide), ?_⟩
  · simp only [SO3.act, SO3.mulVec_angleAxis, Real.cos_pi_div_two, Real.sin_pi_div_two, cross_self]
    simp [SO3.sqNorm, dotProduct, Fin.sum_univ_three]
    norm_num
  · simp [SO3.act, SO3.quatMatrix, SO3.sqNorm, dotProduct, mulVec, Fin.sum_univ_three]
    norm_num

example : (![0.6, 0, 0.8] : V3) ⬝ᵥ ![0.6, 0, 0.8] = 1 := by
  simp [dotProduct, Fin.sum_univ_three]
  norm_num
example : (1 / 2 : ℝ) ^ 2 + (![1 / 2, 1 / 2, 1 / 2] : V3) ⬝ᵥ ![1 / 2, 1 / 2, 1 / 2] = 1 := by
  simp [dotProduct, Fin.sum_univ_three]
  norm_num

end Verif.Props
