import Verif.Proofs.ConstructDoubleQuat
/-! # Round trips through quaternions and products of axis rotations, in binary64 -/
namespace Verif.ConstructDouble
open SampleIntervalDouble TransformDouble ExpDouble LogDouble Verif.Spec Matrix SO3 Verif.Props

theorem qsq_real (q : Quat64) : qsq (realQuat q) = (q.w : ℝ) ^ 2 + ∑ i, (q.v i : ℝ) ^ 2 := by
  rw [qsq, sqNorm_eq, Fin.sum_univ_three]
  rfl

/-- The squared length of numbers near a unit quaternion. -/
theorem qsq_near {q Q : Quat} {e : ℝ} (hQ : qsq Q = 1) (h0 : |q.w - Q.w| ≤ e) (hv : ∀ i, |q.v i - Q.v i| ≤ e) (he : e ≤ 1 / 200) : qsq q ≤ 1.1 := by
  rw [qsq, sqNorm_eq] at hQ ⊢
  have w0 := sq_nonneg Q.w
  have x0 := sq_nonneg (Q.v 0)
  have y0 := sq_nonneg (Q.v 1)
  have z0 := sq_nonneg (Q.v 2)
  have key : ∀ a b : ℝ, |a - b| ≤ e → b ^ 2 ≤ 1 → a ^ 2 ≤ b ^ 2 + 0.0101 := fun a b h hb => by
    have h1 := abs_le.mp h
    have h2 := abs_le.mp ((sq_le_one_iff_abs_le_one b).mp hb)
    have h3 : |a - b| * |a + b| ≤ 1 / 200 * 2.005 :=
      mul_le_mul (h.trans he) (abs_le.mpr ⟨by linarith, by linarith⟩) (abs_nonneg _) (by norm_num)
    rw [← abs_mul, show (a - b) * (a + b) = a ^ 2 - b ^ 2 by ring] at h3
    have := (abs_le.mp h3).2
    linarith
  have k0 := key _ _ h0 (by linarith)
  have k1 := key _ _ (hv 0) (by linarith)
  have k2 := key _ _ (hv 1) (by linarith)
  have k3 := key _ _ (hv 2) (by linarith)
  linarith

theorem quaternion_trip {m m' : Matrix (Fin 3) (Fin 3) ℚ} {R : M3} {δ : ℝ} (hR : IsRotation R) (hm : TurnsAlike δ (realRot m) R) (hδ : δ ≤ 1 / 1000)
    {q : Quat64} (h : ToQuaternion m q) (h' : FromQuaternion q m') : TurnsAlike (22 * δ + 171 * U) (realRot m') R := by
  have hU := U_tiny.1
  have hU0 := U_pos
  have hd0 := turnsAlike_nonneg hm
  obtain ⟨Q, rfl, h1, h2, h3⟩ := quat_err hR hm hδ h
  have k1 := quat_turns (q := realQuat q) h1 h2 h3 (by linarith)
  have k2 := turnsAlike_of_entries (a := realRot m') (b := quatMatrix (realQuat q)) fun i j =>
    fromQuaternion_err h' (qsq_near (q := realQuat q) h1 h2 h3 (by linarith)) i j
  exact turnsAlike_mono (turnsAlike_trans k2 k1) (by linarith)

theorem quaternion_back {q q' : Quat64} {m : Matrix (Fin 3) (Fin 3) ℚ} {ε n : ℝ} (hn : n = Real.sqrt ((q.w : ℝ) ^ 2 + ∑ i, (q.v i : ℝ) ^ 2))
    (hq : |(q.w : ℝ) ^ 2 + ∑ i, (q.v i : ℝ) ^ 2 - 1| ≤ ε) (hε : ε ≤ 1 / 2001) (h : FromQuaternion q m) (h' : ToQuaternion m q') :
    ∃ σ : ℝ, (σ = 1 ∨ σ = -1) ∧ |(q'.w : ℝ) - σ * (q.w / n)| ≤ 5.4 * ε + 68 * U ∧ ∀ i, |(q'.v i : ℝ) - σ * (q.v i / n)| ≤ 5.4 * ε + 68 * U := by
  have hU := U_tiny.1
  have hU0 := U_pos
  rw [← qsq_real] at hn hq
  have hb := abs_le.mp hq
  obtain ⟨Q, h1, hQ, -, h3⟩ := quat_meant (realQuat q) (by linarith)
  have k := turnsAlike_of_entries (a := realRot m) (b := quatMatrix (realQuat q)) fun i j => fromQuaternion_err h (by linarith) i j
  have t := turnsAlike_mono (turnsAlike_trans k h3) (show _ ≤ 2 * ε + 18 * U by linarith)
  obtain ⟨P, p1, p2, p3, p4⟩ := quat_err (isRotation_quatMatrix h1) t (by linarith) h'
  rw [← hn] at hQ
  have s := quat_sign h1 p2 p1
  subst hQ
  have e0 : n⁻¹ * (realQuat q).w = q.w / n := by rw [div_eq_inv_mul]; rfl
  have ei : ∀ i, (n⁻¹ • (realQuat q).v) i = q.v i / n := fun i => by rw [div_eq_inv_mul]; rfl
  rcases s with rfl | rfl
  · refine ⟨1, Or.inl rfl, ?_, fun i => ?_⟩
    · rw [one_mul, ← e0]; exact p3.trans (by linarith)
    · rw [one_mul, ← ei]; exact (p4 i).trans (by linarith)
  · refine ⟨-1, Or.inr rfl, ?_, fun i => ?_⟩
    · rw [← e0, neg_one_mul]; exact p3.trans (by linarith)
    · rw [← ei, neg_one_mul]; exact (p4 i).trans (by linarith)

theorem evaluates_products {ι : Type} [DecidableEq ι] {x y x' y' : ι → ℚ} (e : ∀ i, x i * y i = x' i * y' i) {s : Finset ι} {r : ℚ}
    (h : Evaluates x y s r) : Evaluates x' y' s r := by
  induction h with
  | product i => rw [e]; exact .product i
  | add _ _ hd ia ib => exact .add ia ib hd
  | fused i _ hi ia => rw [e]; exact .fused i ia hi

theorem from_neg' {q : Quat64} {m : Matrix (Fin 3) (Fin 3) ℚ} (h : FromQuaternion q m) : FromQuaternion ⟨-q.w, -q.v⟩ m := by
  obtain ⟨⟨p0, d0, e0⟩, ⟨p1, d1, e1⟩, ⟨p2, d2, e2⟩, h01, h10, h02, h20, h12, h21⟩ := h
  refine ⟨⟨p0, evaluates_products ?_ d0, e0⟩, ⟨p1, evaluates_products ?_ d1, e1⟩, ⟨p2, evaluates_products ?_ d2, e2⟩, evaluates_products ?_ h01,
    evaluates_products ?_ h10, evaluates_products ?_ h02, evaluates_products ?_ h20, evaluates_products ?_ h12, evaluates_products ?_ h21⟩ <;>
  · intro i; fin_cases i <;> simp

theorem from_neg (q : Quat64) (m : Matrix (Fin 3) (Fin 3) ℚ) : FromQuaternion ⟨-q.w, -q.v⟩ m ↔ FromQuaternion q m :=
  ⟨fun h => by have := from_neg' h; simpa only [neg_neg] using this, from_neg'⟩

theorem axis_err {t : ℚ} {n : Fin 3 → ℚ} {m : Matrix (Fin 3) (Fin 3) ℚ} (h : FromAngleAxis t n m) (hn : sqNorm (realVec n) = 1) :
    TurnsAlike (99 * U) (realRot m) (SO3.exp ((t : ℝ) • realVec n)) := by
  rw [← SO3.angleAxis_exp (t : ℝ) hn, show 99 * U = 3 * (33 * U) by ring]
  refine turnsAlike_of_entries fun i j => angleAxis_err h (by rw [eucNorm, hn, Real.sqrt_one]) (fun k => ?_) i j
  change |(n k : ℝ) - n k| ≤ _
  rw [sub_self, abs_zero]
  linarith [U_pos]

theorem euler_err {phi theta psi : ℚ} {a b c ab abc : Matrix (Fin 3) (Fin 3) ℚ} (ha : FromAngleAxis phi ![1, 0, 0] a) (hb : FromAngleAxis theta ![0, 1, 0] b)
    (hc : FromAngleAxis psi ![0, 0, 1] c) (hab : MulRot a b ab) (habc : MulRot ab c abc) :
    TurnsAlike (330 * U) (realRot abc) (SO3.exp ![phi, 0, 0] * SO3.exp ![0, theta, 0] * SO3.exp ![0, 0, psi]) := by
  have hU := U_tiny.1
  have hU0 := U_pos
  have ka := axis_err ha (by simp [sqNorm_eq, realVec])
  have kb := axis_err hb (by simp [sqNorm_eq, realVec])
  have kc := axis_err hc (by simp [sqNorm_eq, realVec])
  rw [show (phi : ℝ) • realVec ![1, 0, 0] = ![(phi : ℝ), 0, 0] by ext i; fin_cases i <;> simp [realVec]] at ka
  rw [show (theta : ℝ) • realVec ![0, 1, 0] = ![0, (theta : ℝ), 0] by ext i; fin_cases i <;> simp [realVec]] at kb
  rw [show (psi : ℝ) • realVec ![0, 0, 1] = ![0, 0, (psi : ℝ)] by ext i; fin_cases i <;> simp [realVec]] at kc
  have k1 := mulRot_error hab (isRotation_exp _) (isRotation_exp _) ka kb
  have k1' : TurnsAlike (210 * U) (realRot ab) (SO3.exp ![(phi : ℝ), 0, 0] * SO3.exp ![0, (theta : ℝ), 0]) := by
    refine turnsAlike_mono k1 ?_
    have : U * U ≤ 1e-10 * U := mul_le_mul_of_nonneg_right (by linarith) hU0.le
    have t : U * U * U ≤ 1e-10 * U := by nlinarith
    nlinarith
  have k2 := mulRot_error habc (isRotation_mul (isRotation_exp _) (isRotation_exp _)) (isRotation_exp _) k1' kc
  refine turnsAlike_mono k2 ?_
  have : U * U ≤ 1e-10 * U := mul_le_mul_of_nonneg_right (by linarith) hU0.le
  have t : U * U * U ≤ 1e-10 * U := by nlinarith
  nlinarith

theorem normalized_some (w : Fin 3 → ℚ) : ∃ n, Normalized w n := by
  obtain ⟨q, hq⟩ := Evaluates.some w w univ3
  obtain ⟨angle, hangle⟩ := sqrtOf_some q
  by_cases h : 0 < q
  · exact ⟨_, q, hq, by rw [if_pos h]; exact ⟨angle, hangle, fun i => rfl⟩⟩
  · exact ⟨w, q, hq, by rw [if_neg h]⟩

theorem angleAxisMatrix_some (angle : ℚ) (n : Fin 3 → ℚ) : ∃ m, FromAngleAxis angle n m := by
  obtain ⟨s, hs⟩ := sinOf_some angle
  obtain ⟨c, hc⟩ := cosOf_some angle
  let k : Fin 3 → ℚ := fun i => round64 (round64 (1 - c) * n i)
  choose d hd using fun i => Evaluates.some ![k i, 1] ![n i, c] univ2
  obtain ⟨m01, h01⟩ := Evaluates.some ![k 0, -s] ![n 1, n 2] univ2
  obtain ⟨m10, h10⟩ := Evaluates.some ![k 0, s] ![n 1, n 2] univ2
  obtain ⟨m02, h02⟩ := Evaluates.some ![k 0, s] ![n 2, n 1] univ2
  obtain ⟨m20, h20⟩ := Evaluates.some ![k 0, -s] ![n 2, n 1] univ2
  obtain ⟨m12, h12⟩ := Evaluates.some ![k 1, -s] ![n 2, n 0] univ2
  obtain ⟨m21, h21⟩ := Evaluates.some ![k 1, s] ![n 2, n 0] univ2
  refine ⟨!![d 0, m01, m02; m10, d 1, m12; m20, m21, d 2], s, c, hs, hc, k, fun i => rfl, ?_, h01, h10, h02, h20, h12, h21⟩
  intro i
  fin_cases i
  · exact hd 0
  · exact hd 1
  · exact hd 2

theorem fromQuaternion_some (q : Quat64) : ∃ m, FromQuaternion q m := by
  obtain ⟨p0, h0⟩ := Evaluates.some ![2 * q.v 1, 2 * q.v 2] ![q.v 1, q.v 2] univ2
  obtain ⟨p1, h1⟩ := Evaluates.some ![2 * q.v 0, 2 * q.v 2] ![q.v 0, q.v 2] univ2
  obtain ⟨p2, h2⟩ := Evaluates.some ![2 * q.v 0, 2 * q.v 1] ![q.v 0, q.v 1] univ2
  obtain ⟨m01, h01⟩ := Evaluates.some ![2 * q.v 1, -(2 * q.v 2)] ![q.v 0, q.w] univ2
  obtain ⟨m10, h10⟩ := Evaluates.some ![2 * q.v 1, 2 * q.v 2] ![q.v 0, q.w] univ2
  obtain ⟨m02, h02⟩ := Evaluates.some ![2 * q.v 2, 2 * q.v 1] ![q.v 0, q.w] univ2
  obtain ⟨m20, h20⟩ := Evaluates.some ![2 * q.v 2, -(2 * q.v 1)] ![q.v 0, q.w] univ2
  obtain ⟨m12, h12⟩ := Evaluates.some ![2 * q.v 2, -(2 * q.v 0)] ![q.v 1, q.w] univ2
  obtain ⟨m21, h21⟩ := Evaluates.some ![2 * q.v 2, 2 * q.v 0] ![q.v 1, q.w] univ2
  exact ⟨!![round64 (1 - p0), m01, m02; m10, round64 (1 - p1), m12; m20, m21, round64 (1 - p2)], ⟨p0, h0, rfl⟩, ⟨p1, h1, rfl⟩, ⟨p2, h2, rfl⟩, h01, h10, h02, h20,
    h12, h21⟩

end Verif.ConstructDouble
