import Verif.Model.GuideDouble
import Verif.Proofs.ConstructDoubleTrip
/-! # Interpolation in binary64: between rotations about one axis, and in two parts -/
namespace Verif.GuideDouble
open SampleIntervalDouble TransformDouble ExpDouble LogDouble ConstructDouble ApproxDouble Verif.Spec Matrix SO3

/-- The computed logarithm of a rotation by less than half a turn, with sharper constants than `logSO3_forward`. -/
theorem log_forward {m : Matrix (Fin 3) (Fin 3) ℚ} {W : V3} {δ : ℝ} (hm : TurnsAlike δ (realRot m) (SO3.exp W)) (hδ : δ ≤ 1 / 1000)
    (hW : eucNorm W ≤ Real.pi - (34 * δ + 283 * U)) {w : Fin 3 → ℚ} (h : LogSO3 m w) : eucNorm (realVec w - W) ≤ 34 * δ + 343 * U := by
  have hδ0 := turnsAlike_nonneg hm
  have hU := U_pos
  obtain ⟨φ, n, Q, h0, h1, hn, hQ, hq, hw, hd⟩ := log_core (isRotation_exp W) hm hδ h
  obtain ⟨k, hk, eW⟩ := polar W
  have hθ := eucNorm_nonneg W
  have hpi := Real.pi_lt_d4
  have hpi0 := Real.pi_pos
  have hpe : Real.pi * (10.8 * δ + 90 * U) ≤ 3.1416 * (10.8 * δ + 90 * U) := mul_le_mul_of_nonneg_right hpi.le (by positivity)
  have eR : quatMatrix (turnQuat (eucNorm W / 2) k) = SO3.exp W := by
    rw [← exp_polar hθ hk, ← eW]
  have hφ2 : eucNorm W / 2 ≤ Real.pi / 2 := by linarith
  rcases quat_sign (qsq_turnQuat (eucNorm W / 2) hk) hq (hQ.trans eR.symm) with e | e
  · rw [e] at hd
    have p := polar_near h0 h1 (by linarith : 0 ≤ eucNorm W / 2) hφ2 hn hk
    rw [show 2 * (eucNorm W / 2) = eucNorm W by ring, ← eW] at p
    have p2 := p.trans (mul_le_mul_of_nonneg_left hd hpi0.le)
    have e2 : realVec w - W = (realVec w - (2 * φ) • n) + ((2 * φ) • n - W) := by abel
    rw [e2]
    refine (eucNorm_add_le _ _).trans ?_
    linarith
  · exfalso
    rw [e] at hd
    have r := (re_le_norm (toH (turnQuat φ n) - toH ⟨-(turnQuat (eucNorm W / 2) k).w, -(turnQuat (eucNorm W / 2) k).v⟩)).trans hd
    have e3 : (toH (turnQuat φ n) - toH ⟨-(turnQuat (eucNorm W / 2) k).w, -(turnQuat (eucNorm W / 2) k).v⟩).re = Real.cos φ + Real.cos (eucNorm W / 2) := by
      simp [turnQuat]
    rw [e3] at r
    have c1 : 0 ≤ Real.cos φ := Real.cos_nonneg_of_mem_Icc ⟨by linarith, h1⟩
    have c2 := Real.one_sub_mul_le_cos (by linarith : 0 ≤ eucNorm W / 2) hφ2
    have c3 : Real.pi * (1 - 2 / Real.pi * (eucNorm W / 2)) = Real.pi - eucNorm W := by field_simp
    have c4 := mul_le_mul_of_nonneg_left (c2.trans ((by linarith : Real.cos (eucNorm W / 2) ≤ Real.cos φ + Real.cos (eucNorm W / 2)).trans ((le_abs_self _).trans r))) hpi0.le
    rw [c3] at c4
    linarith

theorem pi_3_15 : Real.pi + 60 * U ≤ 3.15 := by
  have := Real.pi_lt_d4; have := U_tiny.1; linarith

/-- Scaling a tangent vector by a fraction. -/
theorem scale_le {f : ℝ} (hf : |f| ≤ 1) (x : V3) : eucNorm (f • x) ≤ eucNorm x := by
  rw [eucNorm_smul]
  have := mul_le_mul_of_nonneg_right hf (eucNorm_nonneg x)
  linarith

/-- The exponential of a computed fraction of a rotation vector. -/
theorem part_rot {w : Fin 3 → ℚ} {f : ℚ} (hf : |(f : ℝ)| ≤ 1) (h3 : eucNorm (realVec w) ≤ 3.15) {m : Matrix (Fin 3) (Fin 3) ℚ}
    (h : ExpSO3 (fun i => round64 (w i * f)) m) :
    eucNorm (realVec fun i => round64 (w i * f)) ≤ 3.2 ∧ eucNorm (realVec (fun i => round64 (w i * f)) - (f : ℝ) • realVec w) ≤ 6.4 * U ∧
      TurnsAlike (166 * U) (realRot m) (SO3.exp ((f : ℝ) • realVec w)) := by
  have hU := U_pos; have hU1 := U_tiny.1; have hH := H_tiny; have hH0 := H_pos
  have sw := scaled_err w f h3 hf
  have x := expSO3_fine h
  set w' : Fin 3 → ℚ := fun i => round64 (w i * f)
  have nw' : eucNorm (realVec w') ≤ 3.2 := by
    have := (eucNorm_le_add (realVec w') _).trans (add_le_add sw ((scale_le hf _).trans h3))
    linarith
  have hwU := mul_le_mul_of_nonneg_right nw' hU.le
  have sw' := sw.trans (show _ ≤ 6.4 * U by linarith)
  exact ⟨nw', sw', turnsAlike_mono (turnsAlike_trans x (turnsAlike_exp (realVec w') ((f : ℝ) • realVec w))) (by linarith)⟩

theorem interp_fine {m m' : Matrix (Fin 3) (Fin 3) ℚ} {W : V3} {δ : ℝ} {f : ℚ} (hm : TurnsAlike δ (realRot m) (SO3.exp W)) (hδ : δ ≤ 1 / 1000)
    (hW : eucNorm W ≤ Real.pi - (34 * δ + 283 * U)) (hf : |(f : ℝ)| ≤ 1) (h : InterpSO3 m f m') :
    TurnsAlike (34 * δ + 509 * U) (realRot m') (SO3.exp ((f : ℝ) • W)) := by
  obtain ⟨w, hl, he⟩ := h
  have f1 := log_forward hm hδ hW hl
  have h3 := (logSO3_near (isRotation_exp W) hm hδ hl).2.trans pi_3_15
  obtain ⟨-, -, x⟩ := part_rot hf h3 he
  have t := turnsAlike_exp ((f : ℝ) • realVec w) ((f : ℝ) • W)
  rw [← smul_sub] at t
  refine turnsAlike_mono (turnsAlike_trans x t) ?_
  linarith [(scale_le hf (realVec w - W)).trans f1]

theorem exp_two_pi {N : V3} (hN : sqNorm N = 1) (t : ℝ) (k : ℤ) : SO3.exp ((t + 2 * Real.pi * k) • N) = SO3.exp (t • N) := by
  rw [← angleAxis_exp _ hN, ← angleAxis_exp _ hN, angleAxisMatrix, angleAxisMatrix,
    show t + 2 * Real.pi * k = t + k * (2 * Real.pi) by ring, Real.cos_add_int_mul_two_pi, Real.sin_add_int_mul_two_pi]

theorem exp_neg_transpose (w : V3) : (SO3.exp w)ᵀ = SO3.exp (-w) := by
  have h := isRotation_exp w
  have e := exp_add_smul 1 (-1) w
  rw [one_smul, neg_one_smul, add_neg_cancel, zero_smul, SO3.exp_zero] at e
  calc (SO3.exp w)ᵀ = (SO3.exp w)ᵀ * (SO3.exp w * SO3.exp (-w)) := by rw [e, mul_one]
    _ = _ := by rw [← Matrix.mul_assoc, h.orth, one_mul]

/-- The tolerance in the product of two near rotations. -/
theorem mul_tol {a b : ℝ} (ha : 0 ≤ a) (hb : 0 ≤ b) (ha1 : a ≤ 1e-12) (hb1 : b ≤ 1e-12) : (1 + a) * (1 + b) * (1 + 10 * U) - 1 ≤ a + b + 11 * U := by
  have hU := U_pos; have hU1 := U_tiny.1
  have ab : a * b ≤ 1e-24 := by have := mul_le_mul ha1 hb1 hb (by norm_num); linarith
  have hU2 := U_tiny.2
  nlinarith

theorem angle_near {t : ℚ} {n : Fin 3 → ℚ} {m : Matrix (Fin 3) (Fin 3) ℚ} (h : FromAngleAxis t n m) {N : V3} (hN : sqNorm N = 1)
    (hn : ∀ i, |(n i : ℝ) - N i| ≤ 3.6 * U) : TurnsAlike (99 * U) (realRot m) (SO3.exp ((t : ℝ) • N)) := by
  rw [← SO3.angleAxis_exp (t : ℝ) hN, show 99 * U = 3 * (33 * U) by ring]
  exact turnsAlike_of_entries fun i j => angleAxis_err h (by rw [eucNorm, hN, Real.sqrt_one]) hn i j

theorem between_near {α β f : ℚ} {n : Fin 3 → ℚ} {N : V3} (hN : sqNorm N = 1) (hn : ∀ i, |(n i : ℝ) - N i| ≤ 3.6 * U)
    {a b c : Matrix (Fin 3) (Fin 3) ℚ} (ha : FromAngleAxis α n a) (hb : FromAngleAxis β n b) {D : ℝ} {k : ℤ} (hD : (β : ℝ) = α + D + 2 * Real.pi * k)
    (hp : |D| ≤ Real.pi - 1e-12) (hf : |(f : ℝ)| ≤ 1) (h : Between a b f c) : TurnsAlike (7800 * U) (realRot c) (SO3.exp (((α : ℝ) + f * D) • N)) := by
  have hU := U_pos; have hU1 := U_tiny.1
  obtain ⟨r, p, hr, hi, hc⟩ := h
  have ta := angle_near ha hN hn
  have tb := angle_near hb hN hn
  have nN : eucNorm N = 1 := by rw [eucNorm, hN, Real.sqrt_one]
  have tr := mulRot_error hr (isRotation_transpose (isRotation_exp ((α : ℝ) • N))) (isRotation_exp _) (turnsAlike_transpose ta) tb
  rw [exp_neg_transpose, ← neg_smul, exp_add_smul, show -(α : ℝ) + β = D + 2 * Real.pi * k by rw [hD]; ring, exp_two_pi hN] at tr
  have tr := turnsAlike_mono tr (mul_tol (by positivity) (by positivity) (by linarith) (by linarith))
  have ti := interp_fine tr (by linarith) (by rw [eucNorm_smul, nN, mul_one]; linarith) hf hi
  rw [smul_smul] at ti
  have tc := mulRot_error hc (isRotation_exp _) (isRotation_exp _) ta ti
  rw [exp_add_smul] at tc
  exact turnsAlike_mono tc ((mul_tol (by positivity) (by positivity) (by linarith) (by linarith)).trans (by linarith))

/-- A fraction of the way between any two rotations. -/
theorem between_any {A : M3} {W : V3} (hA : IsRotation A) {δ : ℝ} (hδ : δ ≤ 1e-6) {a b c : Matrix (Fin 3) (Fin 3) ℚ} (ha : TurnsAlike δ (realRot a) A)
    (hb : TurnsAlike δ (realRot b) (A * SO3.exp W)) (hW : eucNorm W ≤ Real.pi - (70 * δ + 700 * U)) {f : ℚ} (hf : |(f : ℝ)| ≤ 1) (h : Between a b f c) :
    TurnsAlike (70 * δ + 910 * U) (realRot c) (A * SO3.exp ((f : ℝ) • W)) := by
  have hU := U_pos; have hU1 := U_tiny.1
  have hδ0 := turnsAlike_nonneg ha
  obtain ⟨r, p, hr, hi, hc⟩ := h
  have tr := mulRot_error hr (isRotation_transpose hA) (isRotation_mul hA (isRotation_exp _)) (turnsAlike_transpose ha) hb
  rw [← Matrix.mul_assoc, hA.orth, one_mul] at tr
  have dd : δ * δ ≤ 1e-6 * δ := mul_le_mul_of_nonneg_right hδ hδ0
  have dU : δ * U ≤ 1e-6 * U := mul_le_mul_of_nonneg_right hδ hU.le
  have ddU : δ * (δ * U) ≤ 1e-6 * (δ * U) := mul_le_mul_of_nonneg_right hδ (by positivity)
  have tr := turnsAlike_mono tr (show _ ≤ 2.001 * δ + 11 * U by nlinarith)
  have ti := interp_fine tr (by linarith) (by linarith) hf hi
  have ti := turnsAlike_mono ti (show _ ≤ 68.1 * δ + 884 * U by linarith)
  have tc := mulRot_error hc hA (isRotation_exp _) ha ti
  refine turnsAlike_mono tc ?_
  have UU : U * U ≤ 1e-6 * U := mul_le_mul_of_nonneg_right (by linarith) hU.le
  have e : (1 + δ) * (1 + (68.1 * δ + 884 * U)) * (1 + 10 * U) - 1 =
      69.1 * δ + 894 * U + 68.1 * (δ * δ) + 884 * (δ * U) + 10 * (69.1 * (δ * U) + 884 * (U * U) + 68.1 * (δ * (δ * U)) + 884 * (δ * (U * U))) := by ring
  have dUU : δ * (U * U) ≤ 1e-6 * (U * U) := mul_le_mul_of_nonneg_right hδ (by positivity)
  rw [e]
  linarith

theorem between_agrees {α β γ f : ℚ} {n : Fin 3 → ℚ} {N : V3} (hN : sqNorm N = 1) (hn : ∀ i, |(n i : ℝ) - N i| ≤ 3.6 * U)
    {a b c d : Matrix (Fin 3) (Fin 3) ℚ} (ha : FromAngleAxis α n a) (hb : FromAngleAxis β n b) {D : ℝ} {k j : ℤ} (hD : (β : ℝ) = α + D + 2 * Real.pi * k)
    (hp : |D| ≤ Real.pi - 1e-12) (hf : |(f : ℝ)| ≤ 1) (h : Between a b f c) (hd : FromAngleAxis γ n d)
    (hγ : |(γ : ℝ) - (α + f * D + 2 * Real.pi * j)| ≤ 5e-14) {r : Bool} (hr : RotationApprox c d r) : r = true := by
  have hU := U_pos; have hU1 := U_tiny.1
  have nN : eucNorm N = 1 := by rw [eucNorm, hN, Real.sqrt_one]
  have tc := between_near hN hn ha hb hD hp hf h
  have td := angle_near hd hN hn
  have te := turnsAlike_exp ((γ : ℝ) • N) (((α : ℝ) + f * D + 2 * Real.pi * j) • N)
  rw [← sub_smul, eucNorm_smul, nN, mul_one, exp_two_pi hN] at te
  refine rotations_agree (isRotation_exp _) tc (turnsAlike_mono (turnsAlike_trans td te) (add_le_add le_rfl hγ)) ?_ hr
  linarith

/-! ## Two parts of a transform -/

/-- The exponential of a computed fraction of a tangent vector. -/
theorem part_trans {w v : Fin 3 → ℚ} {f : ℚ} (h0 : 0 ≤ (f : ℝ)) (h1 : (f : ℝ) ≤ 1) (h3 : eucNorm (realVec w) ≤ 3.15) {g : Stored}
    (h : ExpSE3 (fun i => round64 (w i * f)) (fun i => round64 (v i * f)) g) :
    eucNorm (realVec g.trans - (SE3.xexp ((f : ℝ) • (realVec w, realVec v))).2) ≤ (2450 * f + 9) * U * eucNorm (realVec v) + 410 * H := by
  have hU := U_pos; have hU1 := U_tiny.1; have hH := H_tiny; have hH0 := H_pos
  have hf : |(f : ℝ)| ≤ 1 := by rw [abs_of_nonneg h0]; exact h1
  have hV := eucNorm_nonneg (realVec v)
  obtain ⟨nw, sw, -⟩ := part_rot hf h3 h.1
  have sv := scaled_err v f le_rfl hf
  have x1 := exp_fine h nw
  set w' : Fin 3 → ℚ := fun i => round64 (w i * f)
  set v' : Fin 3 → ℚ := fun i => round64 (v i * f)
  have nv : eucNorm (realVec v') ≤ f * eucNorm (realVec v) + 2 * (U * eucNorm (realVec v) + H) := by
    have := (eucNorm_le_add (realVec v') _).trans (add_le_add sv le_rfl)
    rw [eucNorm_smul, abs_of_nonneg h0] at this
    linarith
  have x2 := (xexp_lip (realVec w') ((f : ℝ) • realVec w) (realVec v')).trans (mul_le_mul_of_nonneg_right sw (eucNorm_nonneg _))
  have x3 : eucNorm ((SE3.xexp ((f : ℝ) • realVec w, realVec v')).2 - (SE3.xexp ((f : ℝ) • realVec w, (f : ℝ) • realVec v)).2) ≤
      2 * (U * eucNorm (realVec v) + H) := by
    rw [LogDouble.xexp_sub]; exact (SE3.xexp_norm _).trans sv
  have e : realVec g.trans - (SE3.xexp ((f : ℝ) • (realVec w, realVec v))).2 = (realVec g.trans - (SE3.xexp (realVec w', realVec v')).2) +
      ((SE3.xexp (realVec w', realVec v')).2 - (SE3.xexp ((f : ℝ) • realVec w, realVec v')).2) +
      ((SE3.xexp ((f : ℝ) • realVec w, realVec v')).2 - (SE3.xexp ((f : ℝ) • realVec w, (f : ℝ) • realVec v)).2) := by
    rw [Prod.smul_mk]; abel
  rw [e]
  refine (eucNorm_add_le _ _).trans ((add_le_add (eucNorm_add_le _ _) le_rfl).trans ((add_le_add (add_le_add x1 x2) x3).trans ?_))
  have b1 := mul_le_mul_of_nonneg_left nv hU.le
  have UV0 : 0 ≤ U * eucNorm (realVec v) := by positivity
  have k1 : U * (U * eucNorm (realVec v)) ≤ 1e-10 * (U * eucNorm (realVec v)) := mul_le_mul_of_nonneg_right (by linarith) UV0
  have k2 : U * H ≤ 1e-10 * H := mul_le_mul_of_nonneg_right (by linarith) hH0.le
  have k3 : U * (f * eucNorm (realVec v)) ≤ U * eucNorm (realVec v) :=
    mul_le_mul_of_nonneg_left (by have := mul_le_mul_of_nonneg_right h1 hV; linarith) hU.le
  have e1 : (2450 * (f : ℝ) + 9) * U * eucNorm (realVec v) = 2450 * (U * (f * eucNorm (realVec v))) + 9 * (U * eucNorm (realVec v)) := by ring
  rw [e1]
  linarith

/-- Two parts that add up to nearly one, composed. -/
theorem parts_near {w v : Fin 3 → ℚ} {f f' : ℚ} (h0 : 0 ≤ (f : ℝ)) (h1 : (f : ℝ) ≤ 1) (h0' : 0 ≤ (f' : ℝ)) (h1' : (f' : ℝ) ≤ 1)
    (hs : |(f : ℝ) + f' - 1| ≤ 2 * U) (h3 : eucNorm (realVec w) ≤ 3.15) {p q c : Stored}
    (hp : ExpSE3 (fun i => round64 (w i * f)) (fun i => round64 (v i * f)) p) (hq : ExpSE3 (fun i => round64 (w i * f')) (fun i => round64 (v i * f')) q)
    (hc : Mul p q c) :
    TurnsAlike (350 * U) (realRot c.rot) (SO3.exp (realVec w)) ∧
    eucNorm (realVec c.trans - (SE3.xexp (realVec w, realVec v)).2) ≤ 2670 * U * eucNorm (realVec v) + 2500 * H := by
  have hU := U_pos; have hU1 := U_tiny.1; have hH0 := H_pos
  have hf : |(f : ℝ)| ≤ 1 := by rw [abs_of_nonneg h0]; exact h1
  have hf' : |(f' : ℝ)| ≤ 1 := by rw [abs_of_nonneg h0']; exact h1'
  have hV := eucNorm_nonneg (realVec v)
  obtain ⟨-, -, rp⟩ := part_rot hf h3 hp.1
  obtain ⟨-, -, rq⟩ := part_rot hf' h3 hq.1
  have tp := part_trans h0 h1 h3 hp
  have tq := part_trans h0' h1' h3 hq
  have sw : ∀ x : V3, eucNorm (((f : ℝ) + f') • x - x) ≤ 2 * U * eucNorm x := fun x => by
    rw [show ((f : ℝ) + f') • x - x = ((f : ℝ) + f' - 1) • x by module, eucNorm_smul]
    exact mul_le_mul_of_nonneg_right hs (eucNorm_nonneg _)
  constructor
  · have rc := mulRot_error hc.1 (isRotation_exp _) (isRotation_exp _) rp rq
    rw [exp_add_smul] at rc
    have te := turnsAlike_exp (((f : ℝ) + f') • realVec w) (realVec w)
    refine turnsAlike_mono (turnsAlike_trans rc te) ?_
    have := mul_tol (a := 166 * U) (b := 166 * U) (by positivity) (by positivity) (by linarith) (by linarith)
    have := sw (realVec w)
    have := mul_le_mul_of_nonneg_left h3 hU.le
    linarith
  · have ap := applied_error hc.2 (isRotation_exp _) rp
    have P := congrArg Prod.snd ((SE3.oneParam (realVec w, realVec v)).mul f f')
    change SO3.exp ((f : ℝ) • realVec w) *ᵥ (SE3.xexp ((f' : ℝ) • (realVec w, realVec v))).2 + (SE3.xexp ((f : ℝ) • (realVec w, realVec v))).2 =
      (SE3.xexp (((f : ℝ) + f') • realVec w, ((f : ℝ) + f') • realVec v)).2 at P
    have n1 := (SE3.xexp_norm ((f : ℝ) • (realVec w, realVec v))).trans (scale_le hf (realVec v))
    have n2 := (SE3.xexp_norm ((f' : ℝ) • (realVec w, realVec v))).trans (scale_le hf' (realVec v))
    have m1 := eucNorm_le_add (realVec p.trans) (SE3.xexp ((f : ℝ) • (realVec w, realVec v))).2
    have m2 := eucNorm_le_add (realVec q.trans) (SE3.xexp ((f' : ℝ) • (realVec w, realVec v))).2
    have rp2 := rp (realVec q.trans)
    have x1 := xexp_lip (((f : ℝ) + f') • realVec w) (realVec w) (((f : ℝ) + f') • realVec v)
    have x2 : eucNorm ((SE3.xexp (realVec w, ((f : ℝ) + f') • realVec v)).2 - (SE3.xexp (realVec w, realVec v)).2) ≤ 2 * U * eucNorm (realVec v) := by
      rw [LogDouble.xexp_sub]; exact (SE3.xexp_norm _).trans (sw _)
    have n3 : eucNorm (((f : ℝ) + f') • realVec v) ≤ 2 * eucNorm (realVec v) := by
      rw [eucNorm_smul, abs_of_nonneg (by linarith)]
      exact mul_le_mul_of_nonneg_right (by linarith) hV
    have x1 := x1.trans (mul_le_mul ((sw _).trans (mul_le_mul_of_nonneg_left h3 (by positivity))) n3 (eucNorm_nonneg _) (by positivity))
    have e : realVec c.trans - (SE3.xexp (realVec w, realVec v)).2 = (realVec c.trans - (realRot p.rot *ᵥ realVec q.trans + realVec p.trans)) +
        (realRot p.rot *ᵥ realVec q.trans - SO3.exp ((f : ℝ) • realVec w) *ᵥ realVec q.trans) +
        SO3.exp ((f : ℝ) • realVec w) *ᵥ (realVec q.trans - (SE3.xexp ((f' : ℝ) • (realVec w, realVec v))).2) +
        (realVec p.trans - (SE3.xexp ((f : ℝ) • (realVec w, realVec v))).2) +
        ((SE3.xexp (((f : ℝ) + f') • realVec w, ((f : ℝ) + f') • realVec v)).2 - (SE3.xexp (realVec w, ((f : ℝ) + f') • realVec v)).2) +
        ((SE3.xexp (realVec w, ((f : ℝ) + f') • realVec v)).2 - (SE3.xexp (realVec w, realVec v)).2) := by
      rw [← P, mulVec_sub]
      abel
    rw [e]
    refine (eucNorm_add_le _ _).trans ((add_le_add (eucNorm_add_le _ _) le_rfl).trans ((add_le_add (add_le_add (eucNorm_add_le _ _) le_rfl) le_rfl).trans
      ((add_le_add (add_le_add (add_le_add (eucNorm_add_le _ _) le_rfl) le_rfl) le_rfl).trans
      ((add_le_add (add_le_add (add_le_add (add_le_add (eucNorm_add_le _ _) le_rfl) le_rfl) le_rfl) le_rfl).trans ?_))))
    rw [eucNorm_mulVec (isRotation_exp _)]
    generalize eucNorm (realVec v) = V at *
    generalize eucNorm (realVec q.trans - (SE3.xexp ((f' : ℝ) • (realVec w, realVec v))).2) = a1 at *
    generalize eucNorm (realVec p.trans - (SE3.xexp ((f : ℝ) • (realVec w, realVec v))).2) = a2 at *
    have uv : 0 ≤ U * V := by positivity
    have fs : (f : ℝ) + f' ≤ 1 + 2 * U := by linarith [(abs_le.mp hs).2]
    have F1 : ((f : ℝ) + f') * (U * V) ≤ (1 + 2 * U) * (U * V) := mul_le_mul_of_nonneg_right fs uv
    have F2 : (f : ℝ) * (U * V) ≤ 1 * (U * V) := mul_le_mul_of_nonneg_right h1 uv
    have F3 : (f' : ℝ) * (U * V) ≤ 1 * (U * V) := mul_le_mul_of_nonneg_right h1' uv
    have F4 : U * (U * V) ≤ 1e-10 * (U * V) := mul_le_mul_of_nonneg_right (by linarith) uv
    have F5 : U * H ≤ 1e-10 * H := mul_le_mul_of_nonneg_right (by linarith) hH0.le
    have F6 : U * V ≤ 1e-10 * V := mul_le_mul_of_nonneg_right (by linarith) hV
    have Q1 : eucNorm (realVec q.trans) ≤ 1.0001 * V + 410 * H := by linarith
    have Q2 : eucNorm (realVec p.trans) ≤ 1.0001 * V + 410 * H := by linarith
    have G1 := mul_le_mul_of_nonneg_left Q1 hU.le
    have G2 := mul_le_mul_of_nonneg_left Q2 hU.le
    have G3 : U * (U * eucNorm (realVec q.trans)) ≤ 1e-10 * (U * eucNorm (realVec q.trans)) :=
      mul_le_mul_of_nonneg_right (by linarith) (mul_nonneg hU.le (eucNorm_nonneg _))
    have A : 8.002 * U * ((1 + 166 * U) * eucNorm (realVec q.trans) + eucNorm (realVec p.trans)) + 1250 * H =
      8.002 * (U * eucNorm (realVec q.trans)) + 8.002 * 166 * (U * (U * eucNorm (realVec q.trans))) + 8.002 * (U * eucNorm (realVec p.trans)) + 1250 * H := by ring
    rw [A] at ap
    linarith

theorem log_zero {g : Stored} {w v : Fin 3 → ℚ} (h : LogSE3 g w v) (h0 : g.trans = 0) : v = 0 := by
  obtain ⟨-, q, a, b, c, k, x, y, -, -, -, hx, hy, hv⟩ := h
  rw [h0] at hx hv
  have cr : ∀ {s t : Fin 3 → ℚ}, Cross w s t → s = 0 → t = 0 := by
    rintro s t ⟨c0, c1, c2⟩ rfl
    ext i
    fin_cases i
    · exact evaluates_zero c0 fun i => by fin_cases i <;> simp
    · exact evaluates_zero c1 fun i => by fin_cases i <;> simp
    · exact evaluates_zero c2 fun i => by fin_cases i <;> simp
  have hx0 := cr hx rfl
  have hy0 := cr hy hx0
  ext i
  refine evaluates_zero (hv i) fun j => ?_
  rw [hx0, hy0]
  fin_cases j <;> simp

theorem exp_zero_trans {w v : Fin 3 → ℚ} {g : Stored} (h : ExpSE3 w v g) (h0 : v = 0) : g.trans = 0 := by
  obtain ⟨-, q', a', b', c', d, z, -, -, ⟨c0, c1, c2⟩, hd, ht⟩ := h
  subst h0
  have hz0 : z = 0 := by
    ext i
    fin_cases i
    · exact evaluates_zero c0 fun i => by fin_cases i <;> simp
    · exact evaluates_zero c1 fun i => by fin_cases i <;> simp
    · exact evaluates_zero c2 fun i => by fin_cases i <;> simp
  have hd0 : d = 0 := evaluates_zero hd fun i => by simp
  ext i
  refine evaluates_zero (ht i) fun j => ?_
  rw [hz0, hd0, mul_zero, round64_zero]
  fin_cases j <;> simp

theorem applied_zero {p q c : Stored} (h : Mul p q c) (hp : p.trans = 0) (hq : q.trans = 0) : c.trans = 0 := by
  ext i
  refine evaluates_zero (h.2 i) fun j => ?_
  rw [hp, hq]
  refine Fin.lastCases ?_ (fun j => ?_) j
  · rw [Fin.snoc_last, Pi.zero_apply, zero_mul]
  · rw [Fin.snoc_castSucc, Fin.snoc_castSucc, Pi.zero_apply, mul_zero]

/-- The parts of a transform, composed, are reported as approximately equal to it. -/
theorem parts_agree {g : Stored} {R : M3} {δ : ℝ} (hR : IsRotation R) (hm : TurnsAlike δ (realRot g.rot) R) (hδ : δ ≤ 4e-14)
    (ht : g.trans = 0 ∨ 1e-147 ≤ eucNorm (realVec g.trans)) {w v : Fin 3 → ℚ} {f f' : ℚ} (h0 : 0 ≤ (f : ℝ)) (h1 : (f : ℝ) ≤ 1) (h0' : 0 ≤ (f' : ℝ))
    (h1' : (f' : ℝ) ≤ 1) (hs : |(f : ℝ) + f' - 1| ≤ 2 * U) {p q c : Stored} (hl : LogSE3 g w v)
    (hp : ExpSE3 (fun i => round64 (w i * f)) (fun i => round64 (v i * f)) p) (hq : ExpSE3 (fun i => round64 (w i * f')) (fun i => round64 (v i * f')) q)
    (hc : Mul p q c) {r : Bool} (hr : TransformApprox g c r) : r = true := by
  have hU := U_pos; have hU1 := U_tiny.1; have hH0 := H_pos
  obtain ⟨x, hx, hr⟩ := hr
  obtain ⟨l1, l2⟩ := logSO3_near hR hm (hδ.trans (by norm_num)) hl.1
  have h3 := l2.trans pi_3_15
  obtain ⟨c1, c2⟩ := parts_near h0 h1 h0' h1' hs h3 hp hq hc
  have := rotations_agree hR hm (turnsAlike_trans c1 l1) (by linarith) hx
  rw [this, if_pos rfl] at hr
  rcases ht with hz | ht
  · have hv := log_zero hl hz
    have z : ∀ f : ℚ, (fun i => round64 (v i * f)) = 0 := fun f => by ext i; rw [hv, Pi.zero_apply, zero_mul, round64_zero]
    have := applied_zero hc (exp_zero_trans hp (z f)) (exp_zero_trans hq (z f'))
    rw [this, hz] at hr
    exact agree_self hr
  · obtain ⟨u, u1, u2⟩ := log_fine hl (h3.trans (by norm_num))
    have n1 := xexp_lower (h3.trans (by norm_num)) u
    rw [u1] at n1
    have n2 := eucNorm_le_add (realVec v) u
    have d : eucNorm ((SE3.xexp (realVec w, realVec v)).2 - realVec g.trans) ≤ eucNorm (realVec v - u) := by
      rw [← u1, LogDouble.xexp_sub]; exact SE3.xexp_norm _
    have e : realVec c.trans - realVec g.trans = (realVec c.trans - (SE3.xexp (realVec w, realVec v)).2) + ((SE3.xexp (realVec w, realVec v)).2 - realVec g.trans) := by
      abel
    refine translations_agree ht ?_ hr
    rw [e]
    refine (eucNorm_add_le _ _).trans ((add_le_add c2 (d.trans u2)).trans ?_)
    have hH := H_below
    have n := eucNorm_nonneg (realVec g.trans)
    have k := mul_le_mul_of_nonneg_right hU1 n
    have k2 : H ≤ 1e-29 * (1e-147 * eucNorm (realVec g.trans)) := by
      refine hH.trans (mul_le_mul_of_nonneg_left ?_ (by norm_num))
      rw [sq]
      exact mul_le_mul_of_nonneg_left ht (by norm_num)
    have k3 : (1e-147 : ℝ) * eucNorm (realVec g.trans) ≤ 1 * eucNorm (realVec g.trans) := mul_le_mul_of_nonneg_right (by norm_num) n
    generalize (1e-147 : ℝ) * eucNorm (realVec g.trans) = z at *
    generalize eucNorm (realVec g.trans) = T at *
    have uT : 0 ≤ U * T := by positivity
    have N : eucNorm (realVec v) ≤ 1.761 * T + 500 * H := by linarith
    have N2 := mul_le_mul_of_nonneg_left N hU.le
    have N3 : U * H ≤ 1e-10 * H := mul_le_mul_of_nonneg_right (by linarith) hH0.le
    linarith

theorem rest_ok {f : ℚ} (h0 : 0 ≤ f) (h1 : f ≤ 1) : 0 ≤ ((round64 (1 - f) : ℚ) : ℝ) ∧ ((round64 (1 - f) : ℚ) : ℝ) ≤ 1 ∧ |(f : ℝ) + (round64 (1 - f) : ℚ) - 1| ≤ 2 * U := by
  refine ⟨by exact_mod_cast round64_nonneg (by linarith), ?_, ?_⟩
  · have := round64_mono (by linarith : 1 - f ≤ 1)
    rw [show round64 1 = 1 by decide +kernel] at this
    exact_mod_cast this
  · have r := rnd (1 - f)
    have hH := H_tiny
    have hU := U_pos
    have hH0 := H_pos
    have f1 : (f : ℝ) ≤ 1 := by exact_mod_cast h1
    have f0 : 0 ≤ (f : ℝ) := by exact_mod_cast h0
    push_cast at r
    rw [abs_of_nonneg (by linarith : 0 ≤ 1 - (f : ℝ))] at r
    rw [show (f : ℝ) + (round64 (1 - f) : ℚ) - 1 = (round64 (1 - f) : ℚ) - (1 - (f : ℝ)) by ring]
    refine r.trans ?_
    nlinarith

theorem mul_some (p q : Stored) : ∃ c, Mul p q c := by
  choose m hm using fun i j => Evaluates.some (p.rot i) (fun k => q.rot k j) univ3
  choose t ht using fun i => Evaluates.some (Fin.snoc (α := fun _ => ℚ) (p.rot i) (p.trans i)) (Fin.snoc (α := fun _ => ℚ) q.trans 1)
    (Finset.univ_nonempty (α := Fin (3 + 1)))
  exact ⟨⟨m, t⟩, hm, ht⟩

theorem between_some (a b : Matrix (Fin 3) (Fin 3) ℚ) (f : ℚ) : ∃ c, Between a b f c := by
  choose r hr using fun i j => Evaluates.some (a.transpose i) (fun k => b k j) univ3
  obtain ⟨p, hp⟩ := interpSO3_some r f
  choose c hc using fun i j => Evaluates.some (a i) (fun k => p k j) univ3
  exact ⟨c, r, p, hr, hp, hc⟩

theorem twice_some (g : Stored) (f : ℚ) : ∃ c, Twice g f c := by
  obtain ⟨p, hp⟩ := interpSE3_some g f
  obtain ⟨c, hc⟩ := mul_some p p
  exact ⟨c, p, hp, hc⟩

theorem parts_some (g : Stored) (f : ℚ) : ∃ c, Parts g f c := by
  obtain ⟨w, v, hl⟩ := logSE3_some g
  obtain ⟨p, hp⟩ := expSE3_some (fun i => round64 (w i * f)) (fun i => round64 (v i * f))
  obtain ⟨q, hq⟩ := expSE3_some (fun i => round64 (w i * round64 (1 - f))) (fun i => round64 (v i * round64 (1 - f)))
  obtain ⟨c, hc⟩ := mul_some p q
  exact ⟨c, w, v, p, q, hl, hp, hq, hc⟩

end Verif.GuideDouble
