import Verif.Spec.ExpDouble
import Verif.Proofs.LogDoubleRound
import Verif.Props.ExpDouble
/-! # C110: rounding errors of the logarithms and of the interpolation -/
namespace Verif.Props
open Verif.Spec Verif.TransformDouble Verif.ExpDouble Verif.LogDouble Matrix SO3

theorem exp_of_rotHat (w : V3) : NormedSpace.exp (rotHat w) = SO3.exp w := (SO3.exp_eq_matrix_exp w).symm

theorem pose_of_exp {G : Pose} {x : Twist} (h : poseMatrix G = NormedSpace.exp (twistHat x)) : G = SE3.xexp x :=
  SE3.H_injective (h.trans (SE3.H_xexp x).symm)

/-- C110, every rotation: whatever a compiler makes of the sums, the vector computed as the logarithm of a stored rotation that turns like `R` up to `δ` has
an exponential that turns like `R` up to `100 δ` and 660 units of `2⁻⁵³`, and it is at most half a turn and 60 units long.  Nothing is asked of the angle. -/
theorem c110_rotation {m : Matrix (Fin 3) (Fin 3) ℚ} {R : M3} {δ : ℝ} (hR : IsRotation R) (hm : TurnsAlike δ (realRot m) R) (hδ : δ ≤ 1 / 1000)
    {w : Fin 3 → ℚ} (h : LogSO3 m w) :
    TurnsAlike (100 * δ + 660 * 2 ^ (-53 : ℤ)) (NormedSpace.exp (rotHat (realVec w))) R ∧ eucNorm (realVec w) ≤ Real.pi + 60 * 2 ^ (-53 : ℤ) := by
  rw [exp_of_rotHat]
  exact logSO3_back hR hm hδ h

/-- C110, every rigid motion: the exponential of the computed logarithm has a rotation near the stored one and moves the origin to the stored translation
up to 4500 units of `2⁻⁵³` of its length; `2⁻¹⁰⁷⁵` stands for results that underflow. -/
theorem c110_motion {g : Stored} {R : M3} {δ : ℝ} (hR : IsRotation R) (hm : TurnsAlike δ (realRot g.rot) R) (hδ : δ ≤ 1 / 1000)
    {w v : Fin 3 → ℚ} (h : LogSE3 g w v) :
    ∃ x : Pose, poseMatrix x = NormedSpace.exp (twistHat (realVec w, realVec v)) ∧ TurnsAlike (100 * δ + 660 * 2 ^ (-53 : ℤ)) x.1 R ∧
      eucNorm (x.2 - realVec g.trans) ≤ 4500 * 2 ^ (-53 : ℤ) * eucNorm (realVec g.trans) + 500 * 2 ^ (-1075 : ℤ) := by
  obtain ⟨h1, h2⟩ := logSO3_back hR hm hδ h.1
  exact ⟨SE3.xexp (realVec w, realVec v), SE3.H_xexp _, h1, logSE3_moves h (h2.trans pi_small)⟩

/-- C110, forward error: for a motion that is the exponential of `(W, V)` with less than half a turn, the computed logarithm is near `(W, V)`. -/
theorem c110_forward {g : Stored} {G : Pose} {W V : V3} (hG : poseMatrix G = NormedSpace.exp (twistHat (W, V))) {δ ε : ℝ}
    (hm : TurnsAlike δ (realRot g.rot) G.1) (hδ : δ ≤ 1 / 1000) (ht : eucNorm (realVec g.trans - G.2) ≤ ε)
    (hW : eucNorm W ≤ Real.pi - (160 * δ + 950 * 2 ^ (-53 : ℤ))) {w v : Fin 3 → ℚ} (h : LogSE3 g w v) :
    eucNorm (realVec w - W) ≤ 160 * δ + 1010 * 2 ^ (-53 : ℤ) ∧
    eucNorm (realVec v - V) ≤ (960 * δ + 10561 * 2 ^ (-53 : ℤ)) * eucNorm V + 6.01 * ε + 500 * 2 ^ (-1075 : ℤ) := by
  have e := pose_of_exp hG
  subst e
  exact logSE3_forward hm hδ ht hW h

/-- C110, forward error for rotations. -/
theorem c110_forward_rotation {m : Matrix (Fin 3) (Fin 3) ℚ} {W : V3} {δ : ℝ} (hm : TurnsAlike δ (realRot m) (NormedSpace.exp (rotHat W)))
    (hδ : δ ≤ 1 / 1000) (hW : eucNorm W ≤ Real.pi - (160 * δ + 950 * 2 ^ (-53 : ℤ))) {w : Fin 3 → ℚ} (h : LogSO3 m w) :
    eucNorm (realVec w - W) ≤ 160 * δ + 1010 * 2 ^ (-53 : ℤ) := by
  rw [exp_of_rotHat] at hm
  exact logSO3_forward hm hδ hW h

/-- C110, round trip from the group: the stored transform, its logarithm, the exponential of that.  No angle is left out. -/
theorem c110_exp_log {g g' : Stored} {R : M3} {δ : ℝ} (hR : IsRotation R) (hm : TurnsAlike δ (realRot g.rot) R) (hδ : δ ≤ 1 / 1000)
    {w v : Fin 3 → ℚ} (h : LogSE3 g w v) (he : ExpSE3 w v g') :
    TurnsAlike (100 * δ + 1080 * 2 ^ (-53 : ℤ)) (realRot g'.rot) R ∧
    eucNorm (realVec g'.trans - realVec g.trans) ≤ 35000 * 2 ^ (-53 : ℤ) * eucNorm (realVec g.trans) + 1000 * 2 ^ (-1075 : ℤ) :=
  exp_log hR hm hδ h he

/-- C110, round trip from the tangent space: a tangent vector with less than half a turn, its exponential, the logarithm of that. -/
theorem c110_log_exp {w v w' v' : Fin 3 → ℚ} {g : Stored} (hw : eucNorm (realVec w) ≤ Real.pi - 67400 * 2 ^ (-53 : ℤ)) (he : ExpSE3 w v g)
    (h : LogSE3 g w' v') :
    eucNorm (realVec w' - realVec w) ≤ 68000 * 2 ^ (-53 : ℤ) ∧
    eucNorm (realVec v' - realVec v) ≤ 440000 * 2 ^ (-53 : ℤ) * eucNorm (realVec v) + 3000 * 2 ^ (-1075 : ℤ) :=
  log_exp hw he h

/-- C110, interpolation: the computed transform at a fraction of the way is near the exponential of that fraction of the tangent vector. -/
theorem c110_interp {g g' : Stored} {G : Pose} {W V : V3} (hG : poseMatrix G = NormedSpace.exp (twistHat (W, V))) {δ ε : ℝ}
    (hm : TurnsAlike δ (realRot g.rot) G.1) (hδ : δ ≤ 1 / 1000) (ht : eucNorm (realVec g.trans - G.2) ≤ ε)
    (hW : eucNorm W ≤ Real.pi - (160 * δ + 950 * 2 ^ (-53 : ℤ))) {f : ℚ} (hf : |(f : ℝ)| ≤ 1) (h : InterpSE3 g f g') :
    ∃ x : Pose, poseMatrix x = NormedSpace.exp ((f : ℝ) • twistHat (W, V)) ∧
      TurnsAlike (160 * δ + 1500 * 2 ^ (-53 : ℤ)) (realRot g'.rot) x.1 ∧
      eucNorm (realVec g'.trans - x.2) ≤ (1300 * δ + 23000 * 2 ^ (-53 : ℤ)) * eucNorm V + 8 * ε + 1200 * 2 ^ (-1075 : ℤ) := by
  have e := pose_of_exp hG
  subst e
  obtain ⟨h1, h2⟩ := interpSE3_near hm hδ ht hW hf h
  refine ⟨SE3.xexp ((f : ℝ) • (W, V)), ?_, h1, h2⟩
  rw [show (f : ℝ) • twistHat (W, V) = twistHat ((f : ℝ) • (W, V)) from (se3Rep.hat_smul _ _).symm]
  exact SE3.H_xexp _

/-- C110, interpolation of rotations. -/
theorem c110_interp_rotation {m m' : Matrix (Fin 3) (Fin 3) ℚ} {W : V3} {δ : ℝ} (hm : TurnsAlike δ (realRot m) (NormedSpace.exp (rotHat W)))
    (hδ : δ ≤ 1 / 1000) (hW : eucNorm W ≤ Real.pi - (160 * δ + 950 * 2 ^ (-53 : ℤ))) {f : ℚ} (hf : |(f : ℝ)| ≤ 1) (h : InterpSO3 m f m') :
    TurnsAlike (160 * δ + 1500 * 2 ^ (-53 : ℤ)) (realRot m') (NormedSpace.exp (rotHat ((f : ℝ) • W))) := by
  rw [exp_of_rotHat] at hm ⊢
  exact interpSO3_near hm hδ hW hf h

/-- C110, arc length: the computed one is near the length of the translation part of the tangent vector. -/
theorem c110_arc_length {g : Stored} {G : Pose} {W V : V3} (hG : poseMatrix G = NormedSpace.exp (twistHat (W, V))) {δ ε : ℝ}
    (hm : TurnsAlike δ (realRot g.rot) G.1) (hδ : δ ≤ 1 / 1000) (ht : eucNorm (realVec g.trans - G.2) ≤ ε)
    (hW : eucNorm W ≤ Real.pi - (160 * δ + 950 * 2 ^ (-53 : ℤ))) {s : ℚ} (h : ArcLength g s) :
    |(s : ℝ) - eucNorm V| ≤ (960 * δ + 10570 * 2 ^ (-53 : ℤ)) * eucNorm V + 7 * ε + 1e-28 := by
  have e := pose_of_exp hG
  subst e
  exact arcLength_near hm hδ ht hW h

/-- C110, the relations are not empty: every stored transform has a computed logarithm, interpolation and arc length. -/
theorem c110_computed (g : Stored) (f : ℚ) :
    (∃ w v, LogSE3 g w v) ∧ (∃ g', InterpSE3 g f g') ∧ (∃ s, ArcLength g s) ∧ (∃ w, LogSO3 g.rot w) ∧ ∃ m, InterpSO3 g.rot f m :=
  ⟨logSE3_some g, interpSE3_some g f, arcLength_some g, logSO3_some g.rot, interpSO3_some g.rot f⟩

/-- Half a turn about the first axis, stored exactly: the logarithm still has the half turn as its exponential up to 1e-13, whichever of the two
directions it points in. -/
example : ∃ w, LogSO3 !![1, 0, 0; 0, -1, 0; 0, 0, -1] w ∧
    TurnsAlike 1e-13 (NormedSpace.exp (rotHat (realVec w))) !![1, 0, 0; 0, -1, 0; 0, 0, -1] ∧ eucNorm (realVec w) ≤ 3.15 := by
  obtain ⟨w, hw⟩ := logSO3_some !![1, 0, 0; 0, -1, 0; 0, 0, -1]
  have e : realRot !![1, 0, 0; 0, -1, 0; 0, 0, -1] = !![1, 0, 0; 0, -1, 0; 0, 0, -1] := by
    ext i j; fin_cases i <;> fin_cases j <;> simp [realRot]
  have hR : IsRotation !![1, 0, 0; 0, -1, 0; 0, 0, -1] := by
    refine ⟨?_, ?_⟩
    · ext i j; fin_cases i <;> fin_cases j <;> simp [Matrix.mul_apply, Fin.sum_univ_three]
    · simp [Matrix.det_fin_three]
  obtain ⟨h1, h2⟩ := c110_rotation hR (δ := 0) (by rw [e]; intro x; rw [sub_self, eucNorm_zero, zero_mul]) (by norm_num) hw
  have hU := U_tiny.1
  unfold U at hU
  have hpi := Real.pi_lt_d4
  exact ⟨w, hw, turnsAlike_mono h1 (by linarith), h2.trans (by linarith)⟩

/-- A turn by 1/128 moving by two: its exponential, the logarithm of that, and the midpoint. -/
example : ∃ (g g' : Stored) (w v : Fin 3 → ℚ) (s : ℚ) (x : Pose), ExpSE3 ![0, 0, 1 / 128] ![0, 2, 0] g ∧ LogSE3 g w v ∧ InterpSE3 g (1 / 2) g' ∧ ArcLength g s ∧
    eucNorm (realVec w - ![0, 0, 1 / 128]) ≤ 1e-11 ∧ eucNorm (realVec v - ![0, 2, 0]) ≤ 2e-10 ∧ |(s : ℝ) - 2| ≤ 2e-10 ∧
    poseMatrix x = NormedSpace.exp ((1 / 2 : ℝ) • twistHat (![0, 0, 1 / 128], ![0, 2, 0])) ∧ eucNorm (realVec g'.trans - x.2) ≤ 2e-10 := by
  have e1 : realVec ![0, 0, 1 / 128] = ![0, 0, 1 / 128] := by ext i; fin_cases i <;> simp [realVec]
  have e2 : realVec ![0, 2, 0] = ![0, 2, 0] := by ext i; fin_cases i <;> simp [realVec]
  have n1 : eucNorm ![0, 0, 1 / 128] = 1 / 128 := by rw [eucNorm, sqNorm_eq]; simp
  have n2 : eucNorm ![0, 2, 0] = 2 := by rw [eucNorm, sqNorm_eq]; simp
  have hU := U_tiny.1; have hH := tiny_numbers.2
  unfold U at hU
  unfold TransformDouble.H at hH
  have hpi := Real.pi_gt_d4
  obtain ⟨g, hg⟩ := (c109_computed ![0, 0, 1 / 128] ![0, 2, 0]).1
  have h5 : (1 / 128 : ℝ) ≤ 2 ^ (500 : ℤ) := le_trans (by norm_num : (1 / 128 : ℝ) ≤ 2 ^ (3 : ℤ)) (zpow_le_zpow_right₀ (by norm_num) (by norm_num))
  obtain ⟨G, hG, hr, ht⟩ := c109_motion hg (by rw [e1, n1]; exact h5)
  rw [e1, n1] at hr ht
  rw [e2, n2] at ht
  rw [e1, e2] at hG
  obtain ⟨⟨w, v, hl⟩, ⟨g', hi⟩, ⟨s, hs⟩, -⟩ := c110_computed g (1 / 2)
  have hr' : TurnsAlike (101 * 2 ^ (-53 : ℤ)) (realRot g.rot) G.1 := turnsAlike_mono hr (by norm_num)
  have ht' : eucNorm (realVec g.trans - G.2) ≤ 1.3e-12 := ht.trans (by linarith)
  have hW : eucNorm ![0, 0, 1 / 128] ≤ Real.pi - (160 * (101 * 2 ^ (-53 : ℤ)) + 950 * 2 ^ (-53 : ℤ)) := by rw [n1]; linarith
  obtain ⟨f1, f2⟩ := c110_forward hG hr' (by linarith) ht' hW hl
  have a := c110_arc_length hG hr' (by linarith) ht' hW hs
  obtain ⟨x, i1, -, i3⟩ := c110_interp hG hr' (by linarith) ht' hW (f := 1 / 2) (by norm_num [abs_le]) hi
  rw [n2] at f2 a i3
  refine ⟨g, g', w, v, s, x, hg, hl, hi, hs, f1.trans (by linarith), f2.trans (by linarith), a.trans (by linarith), ?_, i3.trans (by linarith)⟩
  rw [i1]
  norm_num

/-- The round trips at a turn by 1/128: the hypotheses. -/
example : ∃ (g g' : Stored) (w v : Fin 3 → ℚ), ExpSE3 ![0, 0, 1 / 128] ![0, 2, 0] g ∧ LogSE3 g w v ∧ ExpSE3 w v g' ∧
    eucNorm (realVec ![0, 0, 1 / 128]) ≤ Real.pi - 67400 * 2 ^ (-53 : ℤ) := by
  have e1 : realVec ![0, 0, 1 / 128] = ![0, 0, 1 / 128] := by ext i; fin_cases i <;> simp [realVec]
  have n1 : eucNorm ![0, 0, 1 / 128] = 1 / 128 := by rw [eucNorm, sqNorm_eq]; simp
  have hU := U_tiny.1
  unfold U at hU
  have hpi := Real.pi_gt_d4
  obtain ⟨g, hg⟩ := (c109_computed ![0, 0, 1 / 128] ![0, 2, 0]).1
  obtain ⟨⟨w, v, hl⟩, -⟩ := c110_computed g 0
  obtain ⟨g', hg'⟩ := (c109_computed w v).1
  exact ⟨g, g', w, v, hg, hl, hg', by rw [e1, n1]; linarith⟩

end Verif.Props
