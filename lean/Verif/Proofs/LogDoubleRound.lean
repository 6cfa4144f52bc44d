import Verif.Proofs.LogDoubleMotion
/-! # Rounding errors of the logarithms: backward and forward errors, round trips and interpolation -/
namespace Verif.LogDouble
open SampleIntervalDouble TransformDouble ExpDouble Verif.Spec Matrix SO3

theorem turnsAlike_trans {e f : ℝ} {a b c : M3} (h1 : TurnsAlike e a b) (h2 : TurnsAlike f b c) : TurnsAlike (e + f) a c := by
  intro x
  have e1 : a *ᵥ x - c *ᵥ x = (a *ᵥ x - b *ᵥ x) + (b *ᵥ x - c *ᵥ x) := by abel
  rw [e1, add_mul]
  exact (eucNorm_add_le _ _).trans (add_le_add (h1 x) (h2 x))

theorem turnsAlike_mono {e f : ℝ} {a b : M3} (h : TurnsAlike e a b) (hef : e ≤ f) : TurnsAlike f a b :=
  fun x => (h x).trans (mul_le_mul_of_nonneg_right hef (eucNorm_nonneg x))

theorem unit_norm {n : V3} (h : sqNorm n = 1) : eucNorm n = 1 := by rw [eucNorm, h, Real.sqrt_one]

theorem eucNorm_le_add (a b : V3) : eucNorm a ≤ eucNorm (a - b) + eucNorm b := by
  have e : a = (a - b) + b := by abel
  nth_rewrite 1 [e]
  exact eucNorm_add_le _ _

/-- The computed logarithm of a rotation turns like the rotation, by at most half a turn and a bit. -/
theorem logSO3_near {m : Matrix (Fin 3) (Fin 3) ℚ} {R : M3} {δ : ℝ} (hR : IsRotation R) (hm : TurnsAlike δ (realRot m) R) (hδ : δ ≤ 1 / 1000)
    {w : Fin 3 → ℚ} (h : LogSO3 m w) :
    TurnsAlike (22 * δ + 240 * U) (SO3.exp (realVec w)) R ∧ eucNorm (realVec w) ≤ Real.pi + 60 * U := by
  obtain ⟨φ, n, Q, h0, h1, hn, hQ, hq, hw, hd⟩ := log_core hR hm hδ h
  have e : SO3.exp ((2 * φ) • n) = quatMatrix (turnQuat φ n) := by
    rw [exp_polar (by linarith) hn]; congr 2; ring
  have t1 := turnsAlike_exp (realVec w) ((2 * φ) • n)
  rw [e] at t1
  have t2 := turnsAlike_quat (qsq_turnQuat φ hn) hq
  rw [hQ] at t2
  have hδ0 := turnsAlike_nonneg hm
  have hU := U_pos
  refine ⟨turnsAlike_mono (turnsAlike_trans t1 t2) (by linarith), ?_⟩
  have := eucNorm_le_add (realVec w) ((2 * φ) • n)
  rw [eucNorm_smul, unit_norm hn, abs_of_nonneg (by linarith)] at this
  linarith

theorem logSO3_back {m : Matrix (Fin 3) (Fin 3) ℚ} {R : M3} {δ : ℝ} (hR : IsRotation R) (hm : TurnsAlike δ (realRot m) R) (hδ : δ ≤ 1 / 1000)
    {w : Fin 3 → ℚ} (h : LogSO3 m w) :
    TurnsAlike (100 * δ + 660 * U) (SO3.exp (realVec w)) R ∧ eucNorm (realVec w) ≤ Real.pi + 60 * U := by
  have hδ0 := turnsAlike_nonneg hm
  have hU := U_pos
  obtain ⟨h1, h2⟩ := logSO3_near hR hm hδ h
  exact ⟨turnsAlike_mono h1 (by linarith), h2⟩

theorem pi_small : Real.pi + 60 * U ≤ 3.2 := by
  have := Real.pi_lt_d2; have := U_tiny.1; linarith

theorem re_le_norm (q : Quaternion ℝ) : |q.re| ≤ ‖q‖ := by
  refine abs_le_of_sq_le_sq ?_ (norm_nonneg _)
  have h := Quaternion.normSq_eq_norm_mul_self q
  rw [Quaternion.normSq_def'] at h
  nlinarith [sq_nonneg q.imI, sq_nonneg q.imJ, sq_nonneg q.imK]

/-- The computed logarithm of a rotation by less than half a turn is near the exact one. -/
theorem logSO3_forward {m : Matrix (Fin 3) (Fin 3) ℚ} {W : V3} {δ : ℝ} (hm : TurnsAlike δ (realRot m) (SO3.exp W)) (hδ : δ ≤ 1 / 1000)
    (hW : eucNorm W ≤ Real.pi - (160 * δ + 950 * U)) {w : Fin 3 → ℚ} (h : LogSO3 m w) : eucNorm (realVec w - W) ≤ 160 * δ + 1010 * U := by
  have hδ0 := turnsAlike_nonneg hm
  have hU := U_pos
  obtain ⟨φ, n, Q, h0, h1, hn, hQ, hq, hw, hd⟩ := log_core (isRotation_exp W) hm hδ h
  obtain ⟨k, hk, eW⟩ := polar W
  have hθ := eucNorm_nonneg W
  have hpi := Real.pi_lt_d4
  have hpi0 := Real.pi_pos
  have hd := hd.trans (by linarith : _ ≤ 50 * δ + 300 * U)
  have hpe : Real.pi * (50 * δ + 300 * U) ≤ 3.1416 * (50 * δ + 300 * U) := mul_le_mul_of_nonneg_right hpi.le (by positivity)
  have eR : quatMatrix (turnQuat (eucNorm W / 2) k) = SO3.exp W := by
    rw [← exp_polar hθ hk, ← eW]
  have hφ2 : eucNorm W / 2 ≤ Real.pi / 2 := by linarith
  rcases quat_sign (qsq_turnQuat (eucNorm W / 2) hk) hq (hQ.trans eR.symm) with e | e
  · rw [e] at hd
    have p := polar_near h0 h1 (by linarith : 0 ≤ eucNorm W / 2) hφ2 hn hk
    rw [show 2 * (eucNorm W / 2) = eucNorm W by ring, ← eW] at p
    have p2 := p.trans (mul_le_mul_of_nonneg_left hd hpi0.le)
    have e2 : realVec w - W = (realVec w - (2 * φ) • n) + ((2 * φ) • n - W) := by abel
    rw [e2]
    refine (eucNorm_add_le _ _).trans ?_
    linarith
  · exfalso
    rw [e] at hd
    have r := (re_le_norm (toH (turnQuat φ n) - toH ⟨-(turnQuat (eucNorm W / 2) k).w, -(turnQuat (eucNorm W / 2) k).v⟩)).trans hd
    have e3 : (toH (turnQuat φ n) - toH ⟨-(turnQuat (eucNorm W / 2) k).w, -(turnQuat (eucNorm W / 2) k).v⟩).re = Real.cos φ + Real.cos (eucNorm W / 2) := by
      simp [turnQuat]
    rw [e3] at r
    have c1 : 0 ≤ Real.cos φ := Real.cos_nonneg_of_mem_Icc ⟨by linarith, h1⟩
    have c2 := Real.one_sub_mul_le_cos (by linarith : 0 ≤ eucNorm W / 2) hφ2
    have c3 : Real.pi * (1 - 2 / Real.pi * (eucNorm W / 2)) = Real.pi - eucNorm W := by field_simp
    have c4 := mul_le_mul_of_nonneg_left (c2.trans ((by linarith : Real.cos (eucNorm W / 2) ≤ Real.cos φ + Real.cos (eucNorm W / 2)).trans ((le_abs_self _).trans r))) hpi0.le
    rw [c3] at c4
    linarith

/-- The length of the computed translation part. -/
theorem logSE3_norm {g : Stored} {w v : Fin 3 → ℚ} (h : LogSE3 g w v) (h3 : eucNorm (realVec w) ≤ 3.2) :
    eucNorm (realVec v) ≤ 6.01 * eucNorm (realVec g.trans) + 500 * H := by
  obtain ⟨K, hK, -, -, h2⟩ := logSE3_entries h h3
  have n1 := second_norm hK rfl h3 (realVec g.trans)
  have n2 := (eucNorm_le_add (realVec v) _).trans (add_le_add h2 n1)
  have := mul_le_mul_of_nonneg_right U_tiny.1 (eucNorm_nonneg (realVec g.trans))
  have := eucNorm_nonneg (realVec g.trans)
  linarith

/-- The computed logarithm of a rigid motion by less than half a turn is near the exact one. -/
theorem logSE3_forward {g : Stored} {W V : V3} {δ ε : ℝ} (hm : TurnsAlike δ (realRot g.rot) (SO3.exp W)) (hδ : δ ≤ 1 / 1000)
    (ht : eucNorm (realVec g.trans - (SE3.xexp (W, V)).2) ≤ ε)
    (hW : eucNorm W ≤ Real.pi - (160 * δ + 950 * U)) {w v : Fin 3 → ℚ} (h : LogSE3 g w v) :
    eucNorm (realVec w - W) ≤ 160 * δ + 1010 * U ∧ eucNorm (realVec v - V) ≤ (960 * δ + 10561 * U) * eucNorm V + 6.01 * ε + 500 * H := by
  have hU := U_pos; have hU1 := U_tiny.1; have hH0 := H_pos
  have hw := logSO3_forward hm hδ hW h.1
  refine ⟨hw, ?_⟩
  have h3 := (logSO3_back (isRotation_exp W) hm hδ h.1).2.trans pi_small
  obtain ⟨K, hK, -, h1, h2⟩ := logSE3_entries h h3
  have hε : 0 ≤ ε := (eucNorm_nonneg _).trans ht
  have hV := eucNorm_nonneg V
  have nt : eucNorm (realVec g.trans) ≤ eucNorm V + ε := by
    have := (eucNorm_le_add (realVec g.trans) _).trans (add_le_add ht (SE3.xexp_norm (W, V)))
    linarith
  have hl := xexp_lip W (realVec w) V
  rw [show eucNorm (W - realVec w) = eucNorm (realVec w - W) by rw [← eucNorm_neg, neg_sub]] at hl
  have d : eucNorm (realVec g.trans - (SE3.xexp (realVec w, V)).2) ≤ ε + (160 * δ + 1010 * U) * eucNorm V := by
    have e : realVec g.trans - (SE3.xexp (realVec w, V)).2 =
        (realVec g.trans - (SE3.xexp (W, V)).2) + ((SE3.xexp (W, V)).2 - (SE3.xexp (realVec w, V)).2) := by abel
    rw [e]
    exact (eucNorm_add_le _ _).trans (add_le_add ht (hl.trans (mul_le_mul_of_nonneg_right hw hV)))
  have n6 := second_norm hK rfl h3 (realVec g.trans - (SE3.xexp (realVec w, V)).2)
  set N : V3 → V3 := fun t => t - (1 / 2 : ℝ) • (realVec w ⨯₃ t) + K • (realVec w ⨯₃ (realVec w ⨯₃ t)) with hN
  have eN : N (realVec g.trans - (SE3.xexp (realVec w, V)).2) = N (realVec g.trans) - V := by
    have e1 : N ((SE3.xexp (realVec w, V)).2) = V := h1 V
    simp only [hN, map_sub] at e1 ⊢
    rw [show ∀ a b c x y z : V3, a - x - (1 / 2 : ℝ) • (b - y) + K • (c - z) = a - (1 / 2 : ℝ) • b + K • c - (x - (1 / 2 : ℝ) • y + K • z) from
      fun a b c x y z => by module, e1]
  have e : realVec v - V = (realVec v - N (realVec g.trans)) + N (realVec g.trans - (SE3.xexp (realVec w, V)).2) := by rw [eN]; abel
  rw [e]
  refine (eucNorm_add_le _ _).trans ((add_le_add h2 n6).trans ?_)
  have a1 := mul_le_mul_of_nonneg_left nt hU.le
  have a2 : U * ε ≤ 1.2e-16 * ε := mul_le_mul_of_nonneg_right hU1 hε
  have a3 : 0 ≤ U * eucNorm V := by positivity
  linarith

/-- Taking the logarithm and then the exponential gives the motion back. -/
theorem exp_log {g g' : Stored} {R : M3} {δ : ℝ} (hR : IsRotation R) (hm : TurnsAlike δ (realRot g.rot) R) (hδ : δ ≤ 1 / 1000)
    {w v : Fin 3 → ℚ} (h : LogSE3 g w v) (he : ExpSE3 w v g') :
    TurnsAlike (100 * δ + 1080 * U) (realRot g'.rot) R ∧
    eucNorm (realVec g'.trans - realVec g.trans) ≤ 35000 * U * eucNorm (realVec g.trans) + 1000 * H := by
  have hU := U_pos; have hU1 := U_tiny.1; have hH0 := H_pos
  obtain ⟨b1, b2⟩ := logSO3_back hR hm hδ h.1
  have h3 := b2.trans pi_small
  have h500 : eucNorm (realVec w) ≤ 2 ^ (500 : ℤ) :=
    h3.trans (le_trans (by norm_num : (3.2 : ℝ) ≤ 2 ^ (3 : ℤ)) (zpow_le_zpow_right₀ (by norm_num) (by norm_num)))
  have hwU := mul_le_mul_of_nonneg_right h3 hU.le
  have hwH := mul_le_mul_of_nonneg_right h3 hH0.le
  refine ⟨turnsAlike_mono (turnsAlike_trans (expSO3_error he.1) b1) (by linarith), ?_⟩
  have x1 := expSE3_error he h500
  have x2 := logSE3_moves h h3
  have n := logSE3_norm h h3
  have e : realVec g'.trans - realVec g.trans = (realVec g'.trans - (SE3.xexp (realVec w, realVec v)).2) + ((SE3.xexp (realVec w, realVec v)).2 - realVec g.trans) := by abel
  rw [e]
  refine (eucNorm_add_le _ _).trans ((add_le_add x1 x2).trans ?_)
  have a1 := mul_le_mul_of_nonneg_left n hU.le
  have a2 : U * H ≤ 1.2e-16 * H := mul_le_mul_of_nonneg_right hU1 hH0.le
  have a3 : 0 ≤ U * eucNorm (realVec g.trans) := mul_nonneg hU.le (eucNorm_nonneg _)
  linarith

/-- Taking the exponential and then the logarithm gives the tangent vector back. -/
theorem log_exp {w v w' v' : Fin 3 → ℚ} {g : Stored} (hw : eucNorm (realVec w) ≤ Real.pi - 67400 * U) (he : ExpSE3 w v g) (h : LogSE3 g w' v') :
    eucNorm (realVec w' - realVec w) ≤ 68000 * U ∧ eucNorm (realVec v' - realVec v) ≤ 440000 * U * eucNorm (realVec v) + 3000 * H := by
  have hU := U_pos; have hU1 := U_tiny.1; have hH0 := H_pos
  have hpi := Real.pi_lt_d4
  have hn := eucNorm_nonneg (realVec v)
  have h3 : eucNorm (realVec w) ≤ 3.15 := by linarith
  have h500 : eucNorm (realVec w) ≤ 2 ^ (500 : ℤ) :=
    h3.trans (le_trans (by norm_num : (3.15 : ℝ) ≤ 2 ^ (3 : ℤ)) (zpow_le_zpow_right₀ (by norm_num) (by norm_num)))
  have hwU := mul_le_mul_of_nonneg_right h3 hU.le
  have hwH := mul_le_mul_of_nonneg_right h3 hH0.le
  have r : TurnsAlike (415 * U) (realRot g.rot) (SO3.exp (realVec w)) := turnsAlike_mono (expSO3_error he.1) (by linarith)
  have t : eucNorm (realVec g.trans - (SE3.xexp (realVec w, realVec v)).2) ≤ 5000 * U * eucNorm (realVec v) + 415 * H :=
    (expSE3_error he h500).trans (by linarith)
  obtain ⟨f1, f2⟩ := logSE3_forward r (by linarith) t (by linarith) h
  refine ⟨f1.trans (by linarith), f2.trans ?_⟩
  have a3 : 0 ≤ U * eucNorm (realVec v) := by positivity
  have a4 := mul_le_mul_of_nonneg_right hU1 hn
  linarith

theorem scaled_err (w : Fin 3 → ℚ) (f : ℚ) {M : ℝ} (hM : eucNorm (realVec w) ≤ M) (hf : |(f : ℝ)| ≤ 1) :
    eucNorm (realVec (fun i => round64 (w i * f)) - (f : ℝ) • realVec w) ≤ 2 * (U * M + H) := by
  refine eucNorm_le_of_entries fun i => ?_
  have h := rnd (w i * f)
  have e : (realVec (fun i => round64 (w i * f)) - (f : ℝ) • realVec w) i = ((round64 (w i * f) : ℚ) : ℝ) - ((w i * f : ℚ) : ℝ) := by
    simp [realVec, mul_comm]
  rw [e]
  refine h.trans (add_le_add (mul_le_mul_of_nonneg_left ?_ U_pos.le) le_rfl)
  push_cast
  rw [abs_mul]
  have h1 : |(w i : ℝ)| ≤ M := (abs_entry_le (realVec w) i).trans hM
  have := mul_le_mul h1 hf (abs_nonneg _) ((abs_nonneg _).trans h1)
  linarith

/-- Interpolating between the identity and a motion by less than half a turn. -/
theorem interpSE3_near {g g' : Stored} {W V : V3} {δ ε : ℝ} {f : ℚ} (hm : TurnsAlike δ (realRot g.rot) (SO3.exp W)) (hδ : δ ≤ 1 / 1000)
    (ht : eucNorm (realVec g.trans - (SE3.xexp (W, V)).2) ≤ ε)
    (hW : eucNorm W ≤ Real.pi - (160 * δ + 950 * U)) (hf : |(f : ℝ)| ≤ 1) (h : InterpSE3 g f g') :
    TurnsAlike (160 * δ + 1500 * U) (realRot g'.rot) (SO3.exp ((f : ℝ) • W)) ∧
    eucNorm (realVec g'.trans - (SE3.xexp ((f : ℝ) • (W, V))).2) ≤ (1300 * δ + 23000 * U) * eucNorm V + 8 * ε + 1200 * H := by
  have hU := U_pos; have hU1 := U_tiny.1; have hH := H_tiny; have hH0 := H_pos
  have hδ0 := turnsAlike_nonneg hm
  obtain ⟨w, v, hl, he⟩ := h
  obtain ⟨f1, f2⟩ := logSE3_forward hm hδ ht hW hl
  have h3 := (logSO3_back (isRotation_exp W) hm hδ hl.1).2.trans pi_small
  have hε : 0 ≤ ε := (eucNorm_nonneg _).trans ht
  have hV := eucNorm_nonneg V
  have scale : ∀ x : V3, eucNorm ((f : ℝ) • x) ≤ eucNorm x := fun x => by
    rw [eucNorm_smul]
    have := mul_le_mul_of_nonneg_right hf (eucNorm_nonneg x)
    linarith
  have nv : eucNorm (realVec v) ≤ 1.97 * eucNorm V + 6.01 * ε + 500 * H := by
    have := (eucNorm_le_add (realVec v) V).trans (add_le_add f2 le_rfl)
    have := mul_le_mul_of_nonneg_right hδ hV
    have := mul_le_mul_of_nonneg_right hU1 hV
    linarith
  have sw := scaled_err w f h3 hf
  have sv := scaled_err v f nv hf
  set w' : Fin 3 → ℚ := fun i => round64 (w i * f)
  set v' : Fin 3 → ℚ := fun i => round64 (v i * f)
  have dw : eucNorm (realVec w' - (f : ℝ) • W) ≤ 160 * δ + 1017 * U := by
    have e : realVec w' - (f : ℝ) • W = (realVec w' - (f : ℝ) • realVec w) + (f : ℝ) • (realVec w - W) := by rw [smul_sub]; abel
    rw [e]
    refine (eucNorm_add_le _ _).trans ((add_le_add sw ((scale _).trans f1)).trans ?_)
    linarith
  have UV : U * eucNorm V ≤ 1.2e-16 * eucNorm V := mul_le_mul_of_nonneg_right hU1 hV
  have Uε : U * ε ≤ 1.2e-16 * ε := mul_le_mul_of_nonneg_right hU1 hε
  have UH : U * H ≤ 1.2e-16 * H := mul_le_mul_of_nonneg_right hU1 hH0.le
  have δV : δ * eucNorm V ≤ 0.001 * eucNorm V := by have := mul_le_mul_of_nonneg_right hδ hV; linarith
  have UV0 : 0 ≤ U * eucNorm V := by positivity
  have dv : eucNorm (realVec v' - (f : ℝ) • V) ≤ (960 * δ + 10565 * U) * eucNorm V + 6.02 * ε + 503 * H := by
    have e : realVec v' - (f : ℝ) • V = (realVec v' - (f : ℝ) • realVec v) + (f : ℝ) • (realVec v - V) := by rw [smul_sub]; abel
    rw [e]
    refine (eucNorm_add_le _ _).trans ((add_le_add sv ((scale _).trans f2)).trans ?_)
    linarith
  have nw' : eucNorm (realVec w') ≤ 3.21 := by
    have := (eucNorm_le_add (realVec w') _).trans (add_le_add sw ((scale _).trans h3))
    linarith
  have nv' : eucNorm (realVec v') ≤ 2 * eucNorm V + 6.1 * ε + 510 * H := by
    have := (eucNorm_le_add (realVec v') _).trans (add_le_add sv ((scale _).trans nv))
    linarith
  have h500 : eucNorm (realVec w') ≤ 2 ^ (500 : ℤ) :=
    nw'.trans (le_trans (by norm_num : (3.21 : ℝ) ≤ 2 ^ (3 : ℤ)) (zpow_le_zpow_right₀ (by norm_num) (by norm_num)))
  have hwU := mul_le_mul_of_nonneg_right nw' hU.le
  have hwH := mul_le_mul_of_nonneg_right nw' hH0.le
  have t1 := turnsAlike_exp (realVec w') ((f : ℝ) • W)
  refine ⟨turnsAlike_mono (turnsAlike_trans (expSO3_error he.1) t1) (by linarith), ?_⟩
  have x1 := expSE3_error he h500
  have x2 := (xexp_lip (realVec w') ((f : ℝ) • W) (realVec v'))
  have x3 : eucNorm ((SE3.xexp ((f : ℝ) • W, realVec v')).2 - (SE3.xexp ((f : ℝ) • W, (f : ℝ) • V)).2) ≤ eucNorm (realVec v' - (f : ℝ) • V) := by
    rw [xexp_sub]; exact SE3.xexp_norm _
  have e : realVec g'.trans - (SE3.xexp ((f : ℝ) • (W, V))).2 = (realVec g'.trans - (SE3.xexp (realVec w', realVec v')).2) +
      ((SE3.xexp (realVec w', realVec v')).2 - (SE3.xexp ((f : ℝ) • W, realVec v')).2) +
      ((SE3.xexp ((f : ℝ) • W, realVec v')).2 - (SE3.xexp ((f : ℝ) • W, (f : ℝ) • V)).2) := by
    rw [Prod.smul_mk]; abel
  rw [e]
  refine (eucNorm_add_le _ _).trans ((add_le_add (eucNorm_add_le _ _) le_rfl).trans ((add_le_add (add_le_add x1 x2) (x3.trans dv)).trans ?_))
  have b1 := mul_le_mul_of_nonneg_left nv' hU.le
  have b2 : eucNorm (realVec w' - (f : ℝ) • W) * eucNorm (realVec v') ≤ (160 * δ + 1017 * U) * (2 * eucNorm V + 6.1 * ε + 510 * H) :=
    mul_le_mul dw nv' (eucNorm_nonneg _) (by positivity)
  have δε : δ * ε ≤ 0.001 * ε := by have := mul_le_mul_of_nonneg_right hδ hε; linarith
  have δH : δ * H ≤ 0.001 * H := by have := mul_le_mul_of_nonneg_right hδ hH0.le; linarith
  have δV0 : 0 ≤ δ * eucNorm V := by positivity
  linarith

/-- The computed length of the translation part. -/
theorem arcLength_near {g : Stored} {W V : V3} {δ ε : ℝ} {s : ℚ} (hm : TurnsAlike δ (realRot g.rot) (SO3.exp W)) (hδ : δ ≤ 1 / 1000)
    (ht : eucNorm (realVec g.trans - (SE3.xexp (W, V)).2) ≤ ε)
    (hW : eucNorm W ≤ Real.pi - (160 * δ + 950 * U)) (h : ArcLength g s) :
    |(s : ℝ) - eucNorm V| ≤ (960 * δ + 10570 * U) * eucNorm V + 7 * ε + 1e-28 := by
  have hU := U_pos; have hU1 := U_tiny.1; have hH := H_tiny; have hH0 := H_pos
  have hδ0 := turnsAlike_nonneg hm
  obtain ⟨w, v, hl, hs⟩ := h
  obtain ⟨-, f2⟩ := logSE3_forward hm hδ ht hW hl
  have hε : 0 ≤ ε := (eucNorm_nonneg _).trans ht
  have hV := eucNorm_nonneg V
  have hv := eucNorm_nonneg (realVec v)
  have nv : eucNorm (realVec v) ≤ 1.97 * eucNorm V + 6.01 * ε + 500 * H := by
    have := (eucNorm_le_add (realVec v) V).trans (add_le_add f2 le_rfl)
    have := mul_le_mul_of_nonneg_right hδ hV
    have := mul_le_mul_of_nonneg_right hU1 hV
    linarith
  have d1 : |(s : ℝ) - eucNorm (realVec v)| ≤ 2.52 * U * eucNorm (realVec v) + 2e-29 := by
    rcases le_total ((2 : ℝ) ^ (-500 : ℤ)) (eucNorm (realVec v)) with h | h
    · have := norm_err hs h; linarith
    · have a := abs_le.mp (norm_tiny hs h)
      have b := h.trans tiny_numbers.1
      have : 0 ≤ U * eucNorm (realVec v) := by positivity
      rw [abs_le]; constructor <;> linarith
  have d2 : |eucNorm (realVec v) - eucNorm V| ≤ eucNorm (realVec v - V) := by
    have a := eucNorm_le_add (realVec v) V
    have b := eucNorm_le_add V (realVec v)
    rw [show eucNorm (V - realVec v) = eucNorm (realVec v - V) by rw [← eucNorm_neg, neg_sub]] at b
    rw [abs_le]; constructor <;> linarith
  have d3 := abs_sub_le (s : ℝ) (eucNorm (realVec v)) (eucNorm V)
  have a1 := mul_le_mul_of_nonneg_left nv hU.le
  have Uε : U * ε ≤ 1.2e-16 * ε := mul_le_mul_of_nonneg_right hU1 hε
  have UH : U * H ≤ 1.2e-16 * H := mul_le_mul_of_nonneg_right hU1 hH0.le
  have UV0 : 0 ≤ U * eucNorm V := by positivity
  have hH2 := tiny_numbers.2
  linarith

/-! ## Results exist -/

theorem quatOf_some (m : Matrix (Fin 3) (Fin 3) ℚ) : ∃ q, QuatOf m q := by
  obtain ⟨tr, h⟩ := Evaluates.some ![1, 1, 1] ![m 0 0, m 1 1, m 2 2] univ3
  by_cases ht : tr > 0
  · obtain ⟨t, h2⟩ := sqrtOf_some (round64 (tr + 1))
    exact ⟨_, tr, h, by rw [if_pos ht]; exact ⟨t, h2, rfl⟩⟩
  · obtain ⟨t, h2⟩ := sqrtOf_some (round64 (round64 (round64 (m (largest m) (largest m) - m (largest m + 1) (largest m + 1)) -
      m (largest m + 1 + 1) (largest m + 1 + 1)) + 1))
    exact ⟨_, tr, h, by rw [if_neg ht]; exact ⟨t, h2, rfl⟩⟩

theorem stableNorm_some (v : Fin 3 → ℚ) : ∃ n, StableNorm v n := by
  by_cases h : v = 0
  · exact ⟨0, .inl ⟨h, rfl⟩⟩
  · have hp : 0 < ∑ i, (v i : ℝ) ^ 2 := by
      obtain ⟨i, hi⟩ := Function.ne_iff.mp h
      refine Finset.sum_pos' (fun i _ => sq_nonneg _) ⟨i, Finset.mem_univ _, ?_⟩
      have : (v i : ℝ) ≠ 0 := by exact_mod_cast hi
      positivity
    have hs := Real.sqrt_pos.mpr hp
    have hq := Real.sq_sqrt hp.le
    obtain ⟨n, h1, h2⟩ := exists_rat_btwn (by linarith : Real.sqrt (∑ i, (v i : ℝ) ^ 2) < 2 * Real.sqrt (∑ i, (v i : ℝ) ^ 2))
    refine ⟨n, .inr ⟨?_, ?_, by exact_mod_cast hs.trans h1⟩⟩
    · nlinarith
    · nlinarith

theorem atan2Of_some (y x : ℚ) : ∃ r, Atan2Of y x r := by
  obtain ⟨r, h⟩ := rat_near (Complex.arg ⟨x, y⟩) (e := 2 ^ (-52 : ℤ)) (by positivity)
  have : (0 : ℝ) < 2 ^ (-1074 : ℤ) := zpow_pos two_pos _
  exact ⟨r, h.trans (by linarith)⟩

theorem angleAxisOf_some (q : Quat64) : ∃ angle axis, AngleAxisOf q angle axis := by
  obtain ⟨s, hs⟩ := Evaluates.some q.v q.v univ3
  obtain ⟨r, hr⟩ := sqrtOf_some s
  obtain ⟨n, hn⟩ : ∃ n, if r < 2 ^ (-52 : ℤ) then StableNorm q.v n else n = r := by
    split
    · exact stableNorm_some q.v
    · exact ⟨r, rfl⟩
  by_cases h : n ≠ 0
  · obtain ⟨a, ha⟩ := atan2Of_some n |q.w|
    exact ⟨_, _, r, n, ⟨s, hs, hr⟩, hn, by rw [if_pos h]; exact ⟨a, ha, rfl, fun i => rfl⟩⟩
  · exact ⟨_, _, r, n, ⟨s, hs, hr⟩, hn, by rw [if_neg h]; exact ⟨rfl, rfl⟩⟩

theorem logSO3_some (m : Matrix (Fin 3) (Fin 3) ℚ) : ∃ w, LogSO3 m w := by
  obtain ⟨q, hq⟩ := quatOf_some m
  obtain ⟨a, x, h⟩ := angleAxisOf_some q
  exact ⟨_, q, a, x, hq, h, fun i => rfl⟩

theorem cross_some (w v : Fin 3 → ℚ) : ∃ x, Cross w v x := by
  obtain ⟨x0, h0⟩ := Evaluates.some ![w 1, -w 2] ![v 2, v 1] univ2
  obtain ⟨x1, h1⟩ := Evaluates.some ![w 2, -w 0] ![v 0, v 2] univ2
  obtain ⟨x2, h2⟩ := Evaluates.some ![w 0, -w 1] ![v 1, v 0] univ2
  exact ⟨![x0, x1, x2], h0, h1, h2⟩

theorem order2_some (q a b c : ℚ) : ∃ k, Order2 q a b c k := by
  unfold Order2
  split_ifs
  · exact Evaluates.some _ _ univ2
  · obtain ⟨n, hn⟩ := Evaluates.some ![1, -(1 / 2)] ![b, a] univ2
    exact ⟨_, n, hn, rfl⟩
  · obtain ⟨n, hn⟩ := Evaluates.some ![b, -1] ![1 / 2, c] univ2
    exact ⟨_, n, hn, rfl⟩

theorem logSE3_some (g : Stored) : ∃ w v, LogSE3 g w v := by
  obtain ⟨w, hw⟩ := logSO3_some g.rot
  obtain ⟨q, hq⟩ := Evaluates.some w w univ3
  obtain ⟨a, b, c, hc⟩ := expDiffCoeffs_some q
  obtain ⟨k, hk⟩ := order2_some q a b c
  obtain ⟨x, hx⟩ := cross_some w g.trans
  obtain ⟨y, hy⟩ := cross_some w x
  choose v hv using fun i => Evaluates.some ![1, -(1 / 2), k] ![g.trans i, x i, y i] univ3
  exact ⟨w, v, hw, q, a, b, c, k, x, y, hq, hc, hk, hx, hy, hv⟩

theorem interpSE3_some (g : Stored) (f : ℚ) : ∃ g', InterpSE3 g f g' := by
  obtain ⟨w, v, h⟩ := logSE3_some g
  obtain ⟨g', h'⟩ := expSE3_some (fun i => round64 (w i * f)) (fun i => round64 (v i * f))
  exact ⟨g', w, v, h, h'⟩

theorem interpSO3_some (m : Matrix (Fin 3) (Fin 3) ℚ) (f : ℚ) : ∃ m', InterpSO3 m f m' := by
  obtain ⟨w, h⟩ := logSO3_some m
  obtain ⟨m', h'⟩ := expSO3_some (fun i => round64 (w i * f))
  exact ⟨m', w, h, h'⟩

theorem arcLength_some (g : Stored) : ∃ s, ArcLength g s := by
  obtain ⟨w, v, h⟩ := logSE3_some g
  obtain ⟨s, hs⟩ := Evaluates.some v v univ3
  obtain ⟨r, hr⟩ := sqrtOf_some s
  exact ⟨r, w, v, h, s, hs, hr⟩

/-- Interpolating between the identity and a rotation by less than half a turn. -/
theorem interpSO3_near {m m' : Matrix (Fin 3) (Fin 3) ℚ} {W : V3} {δ : ℝ} {f : ℚ} (hm : TurnsAlike δ (realRot m) (SO3.exp W)) (hδ : δ ≤ 1 / 1000)
    (hW : eucNorm W ≤ Real.pi - (160 * δ + 950 * U)) (hf : |(f : ℝ)| ≤ 1) (h : InterpSO3 m f m') :
    TurnsAlike (160 * δ + 1500 * U) (realRot m') (SO3.exp ((f : ℝ) • W)) := by
  have hU := U_pos; have hU1 := U_tiny.1; have hH := H_tiny; have hH0 := H_pos
  obtain ⟨w, hl, he⟩ := h
  have f1 := logSO3_forward hm hδ hW hl
  have h3 := (logSO3_back (isRotation_exp W) hm hδ hl).2.trans pi_small
  have scale : ∀ x : V3, eucNorm ((f : ℝ) • x) ≤ eucNorm x := fun x => by
    rw [eucNorm_smul]
    have := mul_le_mul_of_nonneg_right hf (eucNorm_nonneg x)
    linarith
  have sw := scaled_err w f h3 hf
  set w' : Fin 3 → ℚ := fun i => round64 (w i * f)
  have dw : eucNorm (realVec w' - (f : ℝ) • W) ≤ 160 * δ + 1017 * U := by
    have e : realVec w' - (f : ℝ) • W = (realVec w' - (f : ℝ) • realVec w) + (f : ℝ) • (realVec w - W) := by rw [smul_sub]; abel
    rw [e]
    refine (eucNorm_add_le _ _).trans ((add_le_add sw ((scale _).trans f1)).trans ?_)
    linarith
  have nw' : eucNorm (realVec w') ≤ 3.21 := by
    have := (eucNorm_le_add (realVec w') _).trans (add_le_add sw ((scale _).trans h3))
    linarith
  have hwU := mul_le_mul_of_nonneg_right nw' hU.le
  exact turnsAlike_mono (turnsAlike_trans (expSO3_error he) (turnsAlike_exp (realVec w') ((f : ℝ) • W))) (by linarith)

end Verif.LogDouble
