import Verif.Proofs.ConstructDoubleTrip
import Verif.Props.ApproxDouble
import Verif.Props.StateDouble
/-! # C118: rotations from angles, axes and quaternions in doubles -/
namespace Verif.Props
open Verif.Spec hiding Jet
open Verif.TransformDouble Verif.ExpDouble Verif.LogDouble Verif.ApproxDouble Verif.ConstructDouble Matrix SO3

/-- C118, angle and axis: for every angle, and an axis that is a unit vector up to 3.6 roundings, the computed matrix is near the rotation about that axis by
that angle. -/
theorem c118_angle_axis {angle : ℚ} {axis : Fin 3 → ℚ} {m : Matrix (Fin 3) (Fin 3) ℚ} (h : FromAngleAxis angle axis m) {N : V3} (hN : N ⬝ᵥ N = 1)
    (hn : ∀ i, |(axis i : ℝ) - N i| ≤ 3.6 * 2 ^ (-53 : ℤ)) :
    ∃ R, IsRotation R ∧ R *ᵥ N = N ∧ (∀ v, N ⬝ᵥ v = 0 → R *ᵥ v = Real.cos angle • v + Real.sin angle • (N ⨯₃ v)) ∧
      TurnsAlike (99 * 2 ^ (-53 : ℤ)) (realRot m) R := by
  obtain ⟨h1, h2, h3, -⟩ := c80_angle_axis angle N hN
  refine ⟨_, h1, h2, h3, ?_⟩
  have hN' : eucNorm N = 1 := by rw [eucNorm, show sqNorm N = 1 from hN, Real.sqrt_one]
  have e : (99 : ℝ) * 2 ^ (-53 : ℤ) = 3 * (33 * U) := by unfold U; ring
  rw [e]
  exact turnsAlike_of_entries fun i j => angleAxis_err h hN' hn i j

/-- A thousand radians about the z axis. -/
example : ∃ m, FromAngleAxis 1000 ![0, 0, 1] m ∧ eucNorm (realRot m *ᵥ ![1, 0, 0] - ![Real.cos 1000, Real.sin 1000, 0]) ≤ 99 * 2 ^ (-53 : ℤ) := by
  obtain ⟨m, hm⟩ := angleAxisMatrix_some 1000 ![0, 0, 1]
  obtain ⟨R, -, -, h3, h4⟩ := c118_angle_axis hm (N := ![0, 0, 1]) (by simp [dotProduct, Fin.sum_univ_three]) (fun i => by
    have : (0 : ℝ) ≤ 3.6 * 2 ^ (-53 : ℤ) := by positivity
    fin_cases i <;> simpa using this)
  refine ⟨m, hm, ?_⟩
  have := h4 ![1, 0, 0]
  rw [h3 ![1, 0, 0] (by simp [dotProduct, Fin.sum_univ_three]), show eucNorm ![1, 0, 0] = 1 by simp [eucNorm, sqNorm_eq], mul_one] at this
  convert this using 3
  ext i
  fin_cases i <;> simp [crossProduct]

/-- C118, angle and axis: the axis may be normalised by the client, as the guide does; then it is the direction of the given vector. -/
theorem c118_normalized {angle : ℚ} {w axis : Fin 3 → ℚ} {m : Matrix (Fin 3) (Fin 3) ℚ} (hw : (2 : ℝ) ^ (-500 : ℤ) ≤ eucNorm (realVec w))
    (hn : Normalized w axis) (h : FromAngleAxis angle axis m) :
    ∃ R, IsRotation R ∧ R *ᵥ realVec w = realVec w ∧
      (∀ v, realVec w ⬝ᵥ v = 0 → R *ᵥ v = Real.cos angle • v + (Real.sin angle / eucNorm (realVec w)) • (realVec w ⨯₃ v)) ∧
      TurnsAlike (99 * 2 ^ (-53 : ℤ)) (realRot m) R := by
  have hp := two_500_pos.trans_le hw
  have n1 : ((eucNorm (realVec w))⁻¹ • realVec w) ⬝ᵥ ((eucNorm (realVec w))⁻¹ • realVec w) = 1 := by
    rw [smul_dotProduct, dotProduct_smul, smul_smul, show realVec w ⬝ᵥ realVec w = eucNorm (realVec w) ^ 2 from (eucNorm_sq _).symm, smul_eq_mul]
    field_simp
  obtain ⟨R, h1, h2, h3, h4⟩ := c118_angle_axis h n1 fun i => by
    have := normalized_err hn hw i
    rw [Pi.smul_apply, smul_eq_mul, inv_mul_eq_div]
    exact this
  refine ⟨R, h1, ?_, fun v hv => ?_, h4⟩
  · rw [mulVec_smul] at h2
    exact smul_right_injective _ (inv_ne_zero hp.ne') h2
  · rw [h3 v (by rw [smul_dotProduct, hv, smul_zero]), map_smul, LinearMap.smul_apply, smul_smul, ← div_eq_mul_inv]

/-- A turn about a diagonal. -/
example : ∃ (n : Fin 3 → ℚ) (m : Matrix (Fin 3) (Fin 3) ℚ), Normalized ![1, 2, 3] n ∧ FromAngleAxis (-1 / 2) n m ∧
    eucNorm (realRot m *ᵥ ![1, 2, 3] - ![1, 2, 3]) ≤ 99 * 2 ^ (-53 : ℤ) * eucNorm ![1, 2, 3] := by
  obtain ⟨n, hn⟩ := normalized_some ![1, 2, 3]
  obtain ⟨m, hm⟩ := angleAxisMatrix_some (-1 / 2) n
  have e : realVec ![1, 2, 3] = ![1, 2, 3] := by ext i; fin_cases i <;> simp [realVec]
  have hw : (2 : ℝ) ^ (-500 : ℤ) ≤ eucNorm (realVec ![1, 2, 3]) := by
    rw [e]
    refine (zpow_le_one_of_nonpos₀ (by norm_num) (by norm_num)).trans ?_
    rw [eucNorm, Real.one_le_sqrt, sqNorm_eq]
    norm_num [Matrix.cons_val_two]
  obtain ⟨R, -, h2, -, h4⟩ := c118_normalized hw hn hm
  refine ⟨n, m, hn, hm, ?_⟩
  have := h4 ![1, 2, 3]
  rw [e] at h2
  rwa [h2] at this

/-- C118, quaternions: the computed matrix is near the rotation `v ↦ q v q⁻¹`, up to how far the quaternion is from a unit quaternion. -/
theorem c118_quaternion {q : Quat64} {m : Matrix (Fin 3) (Fin 3) ℚ} (h : FromQuaternion q m) {ε : ℝ}
    (hq : |(q.w : ℝ) ^ 2 + ∑ i, (q.v i : ℝ) ^ 2 - 1| ≤ ε) (hε : ε ≤ 1 / 10) :
    ∃ R, IsRotation R ∧ (∀ v, pure (R *ᵥ v) = hamilton (realQuat q) * pure v * (hamilton (realQuat q))⁻¹) ∧
      TurnsAlike (2 * ε + 18 * 2 ^ (-53 : ℤ)) (realRot m) R := by
  rw [← qsq_real] at hq
  have hb := abs_le.mp hq
  obtain ⟨Q, h1, -, h2, h3⟩ := quat_meant (realQuat q) (by linarith)
  refine ⟨_, isRotation_quatMatrix h1, h2, ?_⟩
  have k := turnsAlike_of_entries (a := realRot m) (b := quatMatrix (realQuat q)) fun i j => fromQuaternion_err h (by linarith) i j
  refine turnsAlike_mono (turnsAlike_trans k h3) ?_
  change 3 * (6 * U) + _ ≤ 2 * ε + 18 * U
  linarith

/-- A third of a turn about the diagonal sends the x axis to the y axis. -/
example : ∃ m, FromQuaternion ⟨1 / 2, ![1 / 2, 1 / 2, 1 / 2]⟩ m ∧ eucNorm (realRot m *ᵥ ![1, 0, 0] - ![0, 1, 0]) ≤ 18 * 2 ^ (-53 : ℤ) := by
  obtain ⟨m, hm⟩ := fromQuaternion_some ⟨1 / 2, ![1 / 2, 1 / 2, 1 / 2]⟩
  obtain ⟨R, -, h2, h3⟩ := c118_quaternion hm (ε := 0) (by norm_num [Fin.sum_univ_three, Matrix.cons_val_two]) (by norm_num)
  refine ⟨m, hm, ?_⟩
  have t := h3 ![1, 0, 0]
  rw [show eucNorm ![1, 0, 0] = 1 by simp [eucNorm, sqNorm_eq], mul_one, mul_zero, zero_add] at t
  have e : pure (R *ᵥ ![1, 0, 0]) = pure ![0, 1, 0] := by
    rw [h2]
    have n0 : hamilton (realQuat ⟨1 / 2, ![1 / 2, 1 / 2, 1 / 2]⟩) ≠ 0 := fun h => by
      have : ((1 / 2 : ℚ) : ℝ) = 0 := congrArg QuaternionAlgebra.re h
      norm_num at this
    rw [mul_inv_eq_iff_eq_mul₀ n0]
    ext <;> simp only [Quaternion.re_mul, Quaternion.imI_mul, Quaternion.imJ_mul, Quaternion.imK_mul] <;> simp [hamilton, realQuat, realVec, Props.pure]
  have i0 := congrArg QuaternionAlgebra.imI e
  have i1 := congrArg QuaternionAlgebra.imJ e
  have i2 := congrArg QuaternionAlgebra.imK e
  rwa [show R *ᵥ ![1, 0, 0] = ![0, 1, 0] by
    ext i
    fin_cases i
    · exact i0
    · exact i1
    · exact i2] at t

/-- C118, quaternions of stored rotations: near a unit quaternion that turns vectors as the rotation does. -/
theorem c118_quaternion_of {m : Matrix (Fin 3) (Fin 3) ℚ} {R : M3} {δ : ℝ} (hR : IsRotation R) (hm : TurnsAlike δ (realRot m) R) (hδ : δ ≤ 1 / 1000)
    {q : Quat64} (h : ToQuaternion m q) :
    ∃ Q : Quat, Q.w ^ 2 + Q.v ⬝ᵥ Q.v = 1 ∧ (∀ v, pure (R *ᵥ v) = hamilton Q * pure v * (hamilton Q)⁻¹) ∧
      |(q.w : ℝ) - Q.w| ≤ 2.7 * δ + 19 * 2 ^ (-53 : ℤ) ∧ ∀ i, |(q.v i : ℝ) - Q.v i| ≤ 2.7 * δ + 19 * 2 ^ (-53 : ℤ) := by
  obtain ⟨Q, rfl, h1, h2, h3⟩ := quat_err hR hm hδ h
  exact ⟨Q, h1, fun v => (c80_quaternion Q Q h1 h1 v).2.1, h2, h3⟩

/-- The quaternion of a thousand radians about the z axis. -/
example : ∃ m q, FromAngleAxis 1000 ![0, 0, 1] m ∧ ToQuaternion m q ∧ ∃ Q : Quat, Q.w ^ 2 + Q.v ⬝ᵥ Q.v = 1 ∧
    (∀ v, pure (SO3.exp ![0, 0, 1000] *ᵥ v) = hamilton Q * pure v * (hamilton Q)⁻¹) ∧ |(q.w : ℝ) - Q.w| ≤ 287 * 2 ^ (-53 : ℤ) := by
  obtain ⟨m, hm⟩ := angleAxisMatrix_some 1000 ![0, 0, 1]
  obtain ⟨q, hq⟩ := quatOf_some m
  have k := axis_err hm (by simp [sqNorm_eq, realVec])
  rw [show ((1000 : ℚ) : ℝ) • realVec ![0, 0, 1] = ![0, 0, 1000] by ext i; fin_cases i <;> simp [realVec]] at k
  obtain ⟨Q, h1, h2, h3, -⟩ := c118_quaternion_of (isRotation_exp _) k (by linarith [U_tiny.1]) hq
  refine ⟨m, q, hm, hq, Q, h1, h2, h3.trans ?_⟩
  have := U_pos
  change 2.7 * (99 * U) + 19 * U ≤ 287 * U
  linarith

/-- C118, round trip: a stored rotation, its quaternion, and the rotation of that. -/
theorem c118_quaternion_trip {m m' : Matrix (Fin 3) (Fin 3) ℚ} {R : M3} {δ : ℝ} (hR : IsRotation R) (hm : TurnsAlike δ (realRot m) R) (hδ : δ ≤ 1 / 1000)
    {q : Quat64} (h : ToQuaternion m q) (h' : FromQuaternion q m') : TurnsAlike (22 * δ + 171 * 2 ^ (-53 : ℤ)) (realRot m') R :=
  quaternion_trip hR hm hδ h h'

/-- A thousand radians about the z axis, its quaternion, and the rotation of that. -/
example : ∃ m q m', FromAngleAxis 1000 ![0, 0, 1] m ∧ ToQuaternion m q ∧ FromQuaternion q m' ∧
    TurnsAlike (2349 * 2 ^ (-53 : ℤ)) (realRot m') (SO3.exp ![0, 0, 1000]) := by
  obtain ⟨m, hm⟩ := angleAxisMatrix_some 1000 ![0, 0, 1]
  obtain ⟨q, hq⟩ := quatOf_some m
  obtain ⟨m', hm'⟩ := fromQuaternion_some q
  have k := axis_err hm (by simp [sqNorm_eq, realVec])
  rw [show ((1000 : ℚ) : ℝ) • realVec ![0, 0, 1] = ![0, 0, 1000] by ext i; fin_cases i <;> simp [realVec]] at k
  exact ⟨m, q, m', hm, hq, hm', turnsAlike_mono (c118_quaternion_trip (isRotation_exp _) k (by linarith [U_tiny.1]) hq hm') (by unfold U; linarith)⟩

/-- C118, round trip: it is reported as approximately equal (the assertion of the guide), for every rotation stored to within 4e-14. -/
theorem c118_quaternion_approx {m m' : Matrix (Fin 3) (Fin 3) ℚ} {R : M3} {δ : ℝ} (hR : IsRotation R) (hm : TurnsAlike δ (realRot m) R) (hδ : δ ≤ 4e-14)
    {q : Quat64} (h : ToQuaternion m q) (h' : FromQuaternion q m') {r : Bool} (hr : RotationApprox m' m r) : r = true := by
  have hU1 := U_tiny.1
  have k : TurnsAlike (22 * δ + 171 * U) (realRot m') R := quaternion_trip hR hm (hδ.trans (by norm_num)) h h'
  exact rotations_agree hR k hm (by linarith) hr

/-- The assertion of the guide, for one angle. -/
example {m m' : Matrix (Fin 3) (Fin 3) ℚ} {q : Quat64} (hm : FromAngleAxis 1000 ![0, 0, 1] m) (hq : ToQuaternion m q) (hm' : FromQuaternion q m') {r : Bool}
    (hr : RotationApprox m' m r) : r = true :=
  c118_quaternion_approx (isRotation_exp _) (axis_err hm (by simp [sqNorm_eq, realVec])) (by linarith [U_tiny.1]) hq hm' hr

/-- C118, round trip from a quaternion: it comes back normalised, or its negative does. -/
theorem c118_quaternion_back {q q' : Quat64} {m : Matrix (Fin 3) (Fin 3) ℚ} {ε n : ℝ} (hn : n = Real.sqrt ((q.w : ℝ) ^ 2 + ∑ i, (q.v i : ℝ) ^ 2))
    (hq : |(q.w : ℝ) ^ 2 + ∑ i, (q.v i : ℝ) ^ 2 - 1| ≤ ε) (hε : ε ≤ 1 / 2001) (h : FromQuaternion q m) (h' : ToQuaternion m q') :
    ∃ σ : ℝ, (σ = 1 ∨ σ = -1) ∧ |(q'.w : ℝ) - σ * (q.w / n)| ≤ 5.4 * ε + 68 * 2 ^ (-53 : ℤ) ∧
      ∀ i, |(q'.v i : ℝ) - σ * (q.v i / n)| ≤ 5.4 * ε + 68 * 2 ^ (-53 : ℤ) :=
  quaternion_back hn hq hε h h'

/-- Half a turn, the case in which either sign is a possible answer. -/
example : ∃ m q', FromQuaternion ⟨0, ![-3 / 5, 4 / 5, 0]⟩ m ∧ ToQuaternion m q' ∧ ∃ σ : ℝ, (σ = 1 ∨ σ = -1) ∧ |(q'.v 1 : ℝ) - σ * (4 / 5)| ≤ 68 * 2 ^ (-53 : ℤ) := by
  obtain ⟨m, hm⟩ := fromQuaternion_some ⟨0, ![-3 / 5, 4 / 5, 0]⟩
  obtain ⟨q', hq⟩ := quatOf_some m
  obtain ⟨σ, h1, -, h2⟩ := c118_quaternion_back (n := 1) (ε := 0) (by norm_num [Fin.sum_univ_three, Matrix.cons_val_two])
    (by norm_num [Fin.sum_univ_three, Matrix.cons_val_two]) (by norm_num) hm hq
  refine ⟨m, q', hm, hq, σ, h1, ?_⟩
  have := h2 1
  simpa using this

/-- C118, sign: a quaternion and its negative give the same numbers. -/
theorem c118_sign (q : Quat64) (m : Matrix (Fin 3) (Fin 3) ℚ) : FromQuaternion ⟨-q.w, -q.v⟩ m ↔ FromQuaternion q m := from_neg q m

example (m : Matrix (Fin 3) (Fin 3) ℚ) (h : FromQuaternion ⟨-1 / 2, ![1 / 2, -1 / 2, 1 / 2]⟩ m) : FromQuaternion ⟨1 / 2, ![-1 / 2, 1 / 2, -1 / 2]⟩ m := by
  rw [← c118_sign]
  convert h using 2
  · norm_num
  · ext i; fin_cases i <;> norm_num [Matrix.cons_val_two]

/-- C118, Euler angles: the product of the rotations about the axes by three angles, as in the guide, is near the exact product. -/
theorem c118_euler {phi theta psi : ℚ} {a b c ab abc : Matrix (Fin 3) (Fin 3) ℚ} (ha : FromAngleAxis phi ![1, 0, 0] a) (hb : FromAngleAxis theta ![0, 1, 0] b)
    (hc : FromAngleAxis psi ![0, 0, 1] c) (hab : MulRot a b ab) (habc : MulRot ab c abc) :
    TurnsAlike (330 * 2 ^ (-53 : ℤ)) (realRot abc) (SO3.exp ![phi, 0, 0] * SO3.exp ![0, theta, 0] * SO3.exp ![0, 0, psi]) :=
  euler_err ha hb hc hab habc

/-- Three angles, and the assertion of the guide that the quaternion gives the rotation back. -/
example : ∃ a b c ab abc q m, FromAngleAxis (1 / 2) ![1, 0, 0] a ∧ FromAngleAxis (1 / 4) ![0, 1, 0] b ∧ FromAngleAxis 3 ![0, 0, 1] c ∧ MulRot a b ab ∧
    MulRot ab c abc ∧ ToQuaternion abc q ∧ FromQuaternion q m ∧ ∀ r, RotationApprox m abc r → r = true := by
  obtain ⟨a, ha⟩ := angleAxisMatrix_some (1 / 2) ![1, 0, 0]
  obtain ⟨b, hb⟩ := angleAxisMatrix_some (1 / 4) ![0, 1, 0]
  obtain ⟨c, hc⟩ := angleAxisMatrix_some 3 ![0, 0, 1]
  choose ab hab using fun i j => Evaluates.some (a i) (fun k => b k j) univ3
  choose abc habc using fun i j => Evaluates.some (ab i) (fun k => c k j) univ3
  obtain ⟨q, hq⟩ := quatOf_some abc
  obtain ⟨m, hm⟩ := fromQuaternion_some q
  exact ⟨a, b, c, ab, abc, q, m, ha, hb, hc, hab, habc, hq, hm, fun r hr =>
    c118_quaternion_approx (isRotation_mul (isRotation_mul (isRotation_exp _) (isRotation_exp _)) (isRotation_exp _)) (c118_euler ha hb hc hab habc)
      (by have := U_tiny.1; unfold U at this; linarith) hq hm hr⟩

/-- C118, there is always a result. -/
theorem c118_computed : (∀ angle axis, ∃ m, FromAngleAxis angle axis m) ∧ (∀ q, ∃ m, FromQuaternion q m) ∧ ∀ m, ∃ q, ToQuaternion m q :=
  ⟨angleAxisMatrix_some, fromQuaternion_some, quatOf_some⟩

example : ∃ m, FromQuaternion ⟨3 / 5, ![0, 0, 4 / 5]⟩ m := c118_computed.2.1 _

end Verif.Props
