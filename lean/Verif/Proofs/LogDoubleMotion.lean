import Verif.Proofs.LogDoubleTrans
import Verif.Proofs.Shadow
import Mathlib.Analysis.Calculus.MeanValue
/-! # Rounding errors of the logarithm of rigid motions: the translation -/
namespace Verif.LogDouble
open SampleIntervalDouble TransformDouble ExpDouble Verif.Spec Matrix SO3

theorem crossed_twice {w t x y : Fin 3 → ℚ} (h3 : eucNorm (realVec w) ≤ 3.2) (hx : Cross w t x) (hy : Cross w x y) (i : Fin 3) :
    |(y i : ℝ) - (realVec w ⨯₃ (realVec w ⨯₃ realVec t)) i| ≤ 6.01 * U * (eucNorm (realVec w) ^ 2 * eucNorm (realVec t)) + 31 * H := by
  have hU := U_pos; have hU1 := U_tiny.1; have hH := H_tiny; have hH0 := H_pos
  have hθ := eucNorm_nonneg (realVec w)
  have hT := eucNorm_nonneg (realVec t)
  have ex : eucNorm (realVec x - realVec w ⨯₃ realVec t) ≤ 2 * (2.001 * U * (eucNorm (realVec w) * eucNorm (realVec t)) + 4 * H) :=
    eucNorm_le_of_entries fun i => cross_err hx i
  have ey := cross_err hy i
  have nx : eucNorm (realVec x) ≤ eucNorm (realVec x - realVec w ⨯₃ realVec t) + eucNorm (realVec w) * eucNorm (realVec t) := by
    have e : realVec x = (realVec x - realVec w ⨯₃ realVec t) + realVec w ⨯₃ realVec t := by abel
    nth_rewrite 1 [e]
    exact (eucNorm_add_le _ _).trans (add_le_add le_rfl (eucNorm_cross_le _ _))
  have ez : |(realVec w ⨯₃ realVec x) i - (realVec w ⨯₃ (realVec w ⨯₃ realVec t)) i| ≤ eucNorm (realVec w) * eucNorm (realVec x - realVec w ⨯₃ realVec t) := by
    rw [← Pi.sub_apply, ← map_sub]
    exact (abs_entry_le _ i).trans (eucNorm_cross_le _ _)
  have tri : |(y i : ℝ) - (realVec w ⨯₃ (realVec w ⨯₃ realVec t)) i| ≤ |(y i : ℝ) - (realVec w ⨯₃ realVec x) i| +
      |(realVec w ⨯₃ realVec x) i - (realVec w ⨯₃ (realVec w ⨯₃ realVec t)) i| := abs_sub_le _ _ _
  have he := eucNorm_nonneg (realVec x - realVec w ⨯₃ realVec t)
  generalize eucNorm (realVec w) = θ at *
  generalize eucNorm (realVec t) = T at *
  generalize eucNorm (realVec x - realVec w ⨯₃ realVec t) = e at *
  generalize eucNorm (realVec x) = X at *
  have a1 : θ * e ≤ θ * (2 * (2.001 * U * (θ * T) + 4 * H)) := mul_le_mul_of_nonneg_left ex hθ
  have a2 : U * (θ * X) ≤ U * (θ * (e + θ * T)) := mul_le_mul_of_nonneg_left (mul_le_mul_of_nonneg_left nx hθ) hU.le
  have a3 : U * (θ * e) ≤ 1e-10 * (θ * (2 * (2.001 * U * (θ * T) + 4 * H))) := by
    refine mul_le_mul (by linarith) a1 ?_ (by norm_num)
    positivity
  have a4 : θ * H ≤ 3.2 * H := mul_le_mul_of_nonneg_right h3 hH0.le
  have a5 : 0 ≤ U * (θ ^ 2 * T) := by positivity
  linarith

/-- One entry of the translation part, where the coefficient is off by `κ`. -/
theorem log_entry_of {ti xi yi k vi : ℚ} {θ T K X Y κ : ℝ} (hκ : κ ≤ 2200 * U) (hθ : 0 ≤ θ) (h3 : θ ≤ 3.2) (hT : 0 ≤ T) (ht : |(ti : ℝ)| ≤ T)
    (hx : |(xi : ℝ) - X| ≤ 2.001 * U * (θ * T) + 4 * H) (hX : |X| ≤ θ * T)
    (hy : |(yi : ℝ) - Y| ≤ 6.01 * U * (θ ^ 2 * T) + 31 * H) (hY : |Y| ≤ θ * (θ * T))
    (hk : θ ^ 2 * |(k : ℝ) - K| ≤ κ) (hk1 : |(k : ℝ) - K| ≤ 1) (hK : θ ^ 2 * |K| ≤ 3.01) (hK4 : |K| ≤ 5)
    (h : Evaluates ![1, -(1 / 2), k] ![ti, xi, yi] Finset.univ vi) :
    |(vi : ℝ) - (ti - 1 / 2 * X + K * Y)| ≤ κ * T + 41 * U * T + 250 * H := by
  have hU := U_pos; have hU1 := U_tiny.1; have hH := H_tiny; have hH0 := H_pos
  have ev := eval3 h
  push_cast at ev
  have p1 : θ * T ≤ 3.2 * T := mul_le_mul_of_nonneg_right h3 hT
  have t1 : θ ^ 2 ≤ 10.24 := by nlinarith
  have p2 : θ ^ 2 * T ≤ 10.24 * T := mul_le_mul_of_nonneg_right t1 hT
  have u0 : 0 ≤ U * T := by positivity
  have u1 : U * T ≤ 1e-10 * T := mul_le_mul_of_nonneg_right (by linarith) hT
  have p1u : U * (θ * T) ≤ 3.2 * (U * T) := by have := mul_le_mul_of_nonneg_left p1 hU.le; linarith
  have p2u : U * (θ ^ 2 * T) ≤ 10.24 * (U * T) := by have := mul_le_mul_of_nonneg_left p2 hU.le; linarith
  have hx1 : |(xi : ℝ) - X| ≤ 6.41 * (U * T) + 4 * H := by linarith
  have nx : |(xi : ℝ)| ≤ 3.21 * T + 4 * H := by
    have := abs_le_of_near (xi : ℝ) X
    linarith
  have kk : |(k : ℝ)| ≤ 6 := by have := abs_le_of_near (k : ℝ) K; linarith
  have kθ : θ ^ 2 * |(k : ℝ)| ≤ 3.02 := by
    have := mul_le_mul_of_nonneg_left (abs_le_of_near (k : ℝ) K) (sq_nonneg θ)
    linarith
  have ky : |(k : ℝ)| * |(yi : ℝ) - Y| ≤ 18.2 * (U * T) + 186 * H := by
    have q1 := mul_le_mul_of_nonneg_left hy (abs_nonneg (k : ℝ))
    have q2 := mul_le_mul_of_nonneg_left kθ u0
    have q3 := mul_le_mul_of_nonneg_right kk hH0.le
    have e : |(k : ℝ)| * (6.01 * U * (θ ^ 2 * T) + 31 * H) = 6.01 * (U * T * (θ ^ 2 * |(k : ℝ)|)) + 31 * (|(k : ℝ)| * H) := by ring
    linarith
  have kY : |(k : ℝ)| * |Y| ≤ 3.02 * T := by
    have q1 := mul_le_mul_of_nonneg_left hY (abs_nonneg (k : ℝ))
    have q2 := mul_le_mul_of_nonneg_right kθ hT
    have e : |(k : ℝ)| * (θ * (θ * T)) = θ ^ 2 * |(k : ℝ)| * T := by ring
    linarith
  have kyi : |(k : ℝ)| * |(yi : ℝ)| ≤ 3.03 * T + 186 * H := by
    have := mul_le_mul_of_nonneg_left (abs_le_of_near (yi : ℝ) Y) (abs_nonneg (k : ℝ))
    linarith
  have dK : |(k : ℝ) - K| * |Y| ≤ κ * T := by
    have q1 := mul_le_mul_of_nonneg_left hY (abs_nonneg ((k : ℝ) - K))
    have q2 := mul_le_mul_of_nonneg_right hk hT
    have e : |(k : ℝ) - K| * (θ * (θ * T)) = θ ^ 2 * |(k : ℝ) - K| * T := by ring
    linarith
  have s : |1 * (ti : ℝ)| + |-(1 / 2) * (xi : ℝ)| + |(k : ℝ) * yi| ≤ 6 * T + 190 * H := by
    rw [one_mul, abs_mul (-(1 / 2) : ℝ), abs_mul (k : ℝ), abs_neg, abs_of_pos (by norm_num : (0 : ℝ) < 1 / 2)]
    linarith
  have s' := mul_le_mul_of_nonneg_left s (by positivity : 0 ≤ 3.001 * U)
  have uH : U * H ≤ 1e-10 * H := mul_le_mul_of_nonneg_right (by linarith) hH0.le
  have ev' : |(vi : ℝ) - (1 * (ti : ℝ) + -(1 / 2) * xi + k * yi)| ≤ 18.1 * (U * T) + 7 * H := by linarith
  have e1 : |(k : ℝ) * (yi - Y)| ≤ 18.2 * (U * T) + 186 * H := by rw [abs_mul]; exact ky
  have e2 : |((k : ℝ) - K) * Y| ≤ κ * T := by rw [abs_mul]; exact dK
  rw [abs_le] at ev' e1 e2 hx1 ⊢
  constructor <;> linarith

/-- One entry of the translation part. -/
theorem log_entry {ti xi yi k vi : ℚ} {θ T K X Y : ℝ} (hθ : 0 ≤ θ) (h3 : θ ≤ 3.2) (hT : 0 ≤ T) (ht : |(ti : ℝ)| ≤ T)
    (hx : |(xi : ℝ) - X| ≤ 2.001 * U * (θ * T) + 4 * H) (hX : |X| ≤ θ * T)
    (hy : |(yi : ℝ) - Y| ≤ 6.01 * U * (θ ^ 2 * T) + 31 * H) (hY : |Y| ≤ θ * (θ * T))
    (hk : θ ^ 2 * |(k : ℝ) - K| ≤ 2200 * U) (hk1 : |(k : ℝ) - K| ≤ 1) (hK : θ ^ 2 * |K| ≤ 3) (hK4 : |K| ≤ 4)
    (h : Evaluates ![1, -(1 / 2), k] ![ti, xi, yi] Finset.univ vi) :
    |(vi : ℝ) - (ti - 1 / 2 * X + K * Y)| ≤ 2241 * U * T + 250 * H := by
  have := log_entry_of le_rfl hθ h3 hT ht hx hX hy hY hk hk1 (by linarith) (by linarith) h
  linarith

theorem xexp_sub (w a b : V3) : (SE3.xexp (w, a)).2 - (SE3.xexp (w, b)).2 = (SE3.xexp (w, a - b)).2 := by
  obtain ⟨A, B, C, hE⟩ := exact_some (eucNorm w)
  rw [xexp_exact hE, xexp_exact hE, xexp_exact hE]
  ext i
  simp only [Pi.add_apply, Pi.sub_apply, Pi.smul_apply, smul_eq_mul, map_sub, dotProduct_sub]
  ring

/-- Bounds of the coefficient. -/
def CoeffBound (θ K : ℝ) : Prop := θ ^ 2 * |K| ≤ 3 ∧ |K| ≤ 4

/-- The translation part, in terms of the coefficients. -/
theorem logSE3_entries {g : Stored} {w v : Fin 3 → ℚ} (h : LogSE3 g w v) (h3 : eucNorm (realVec w) ≤ 3.2) :
    ∃ K, CoeffBound (eucNorm (realVec w)) K ∧ (∀ t, (SE3.xexp (realVec w, t - (1 / 2 : ℝ) • (realVec w ⨯₃ t) + K • (realVec w ⨯₃ (realVec w ⨯₃ t)))).2 = t) ∧
      (∀ v, (SE3.xexp (realVec w, v)).2 - (1 / 2 : ℝ) • (realVec w ⨯₃ (SE3.xexp (realVec w, v)).2) +
        K • (realVec w ⨯₃ (realVec w ⨯₃ (SE3.xexp (realVec w, v)).2)) = v) ∧
      eucNorm (realVec v - (realVec g.trans - (1 / 2 : ℝ) • (realVec w ⨯₃ realVec g.trans) + K • (realVec w ⨯₃ (realVec w ⨯₃ realVec g.trans)))) ≤
        4500 * U * eucNorm (realVec g.trans) + 500 * H := by
  obtain ⟨-, q, a, b, c, k, x, y, hq, hc, ho, hx, hy, hv⟩ := h
  have hU := U_pos; have hH0 := H_pos
  have hθ := eucNorm_nonneg (realVec w)
  have hT := eucNorm_nonneg (realVec g.trans)
  obtain ⟨A, B, C, hE⟩ := exact_some (eucNorm (realVec w))
  obtain ⟨K, hK⟩ := second_some hθ h3 hE
  obtain ⟨o1, o2⟩ := order2_err h3 hq hc ho hE hK
  obtain ⟨k1, k2⟩ := second_bounds hθ h3 hE hK
  refine ⟨K, ⟨k1, k2⟩, xexp_second hE hK, second_xexp hE hK, ?_⟩
  refine (eucNorm_le_of_entries (c := 2241 * U * eucNorm (realVec g.trans) + 250 * H) fun i => ?_).trans ?_
  · have c1 := eucNorm_cross_le (realVec w) (realVec g.trans)
    have c2 := eucNorm_cross_le (realVec w) (realVec w ⨯₃ realVec g.trans)
    exact log_entry hθ h3 hT (abs_entry_le (realVec g.trans) i) (cross_err hx i) ((abs_entry_le _ i).trans c1) (crossed_twice h3 hx hy i)
      ((abs_entry_le _ i).trans (c2.trans (mul_le_mul_of_nonneg_left c1 hθ))) o1 o2 k1 k2 (hv i)
  · have : 0 ≤ U * eucNorm (realVec g.trans) := by positivity
    linarith

/-- The computed logarithm moves the origin where it should. -/
theorem logSE3_moves {g : Stored} {w v : Fin 3 → ℚ} (h : LogSE3 g w v) (h3 : eucNorm (realVec w) ≤ 3.2) :
    eucNorm ((SE3.xexp (realVec w, realVec v)).2 - realVec g.trans) ≤ 4500 * U * eucNorm (realVec g.trans) + 500 * H := by
  obtain ⟨K, -, h1, -, h2⟩ := logSE3_entries h h3
  nth_rewrite 1 [← h1 (realVec g.trans)]
  rw [xexp_sub]
  exact (SE3.xexp_norm _).trans h2

/-- Every motion with a turn up to a half turn and a bit has a translation part at most six times as long as its translation. -/
theorem second_norm {θ K : ℝ} (hK : CoeffBound θ K) {w : V3} (hw : eucNorm w = θ) (h3 : θ ≤ 3.2) (t : V3) :
    eucNorm (t - (1 / 2 : ℝ) • (w ⨯₃ t) + K • (w ⨯₃ (w ⨯₃ t))) ≤ 6 * eucNorm t := by
  have hT := eucNorm_nonneg t
  have hθ : 0 ≤ θ := hw ▸ eucNorm_nonneg w
  have c1 := eucNorm_cross_le w t
  have c2 := eucNorm_cross_le w (w ⨯₃ t)
  rw [hw] at c1 c2
  refine (eucNorm_add_le _ _).trans ((add_le_add (SE3.eucNorm_sub_le _ _) le_rfl).trans ?_)
  rw [eucNorm_smul, eucNorm_smul, abs_of_pos (by norm_num : (0 : ℝ) < 1 / 2)]
  have a1 : θ * eucNorm t ≤ 3.2 * eucNorm t := mul_le_mul_of_nonneg_right h3 hT
  have a2 : |K| * eucNorm (w ⨯₃ (w ⨯₃ t)) ≤ 3 * eucNorm t := by
    have q1 := mul_le_mul_of_nonneg_left (c2.trans (mul_le_mul_of_nonneg_left c1 hθ)) (abs_nonneg K)
    have q2 := mul_le_mul_of_nonneg_right hK.1 hT
    have e : |K| * (θ * (θ * eucNorm t)) = θ ^ 2 * |K| * eucNorm t := by ring
    linarith
  linarith

/-- Going along a screw motion, the origin moves in the direction to which the rotation has turned the translation part. -/
theorem xexp_line_deriv (x : Twist) (t : ℝ) (i : Fin 3) :
    HasDerivAt (fun s : ℝ => (SE3.xexp (s • x)).2 i) ((SO3.exp (t • x.1) *ᵥ x.2) i) t := by
  have h := mhas_exp (twistHat x) t (.inl i) (.inr ())
  have e : ∀ s : ℝ, NormedSpace.exp (s • twistHat x) = poseMatrix (SE3.xexp (s • x)) := fun s => by
    rw [show s • twistHat x = twistHat (s • x) from (se3Rep.hat_smul s x).symm]
    exact (SE3.H_xexp _).symm
  have hc : twistHat x * NormedSpace.exp (t • twistHat x) = NormedSpace.exp (t • twistHat x) * twistHat x :=
    ((Commute.refl (twistHat x)).smul_right t).exp_right
  rw [hc] at h
  simp only [e] at h
  refine (h.congr_deriv ?_)
  simp [poseMatrix, twistHat, homogeneous, twistMatrix, Matrix.mul_apply, mulVec, dotProduct, SE3.xexp]

/-- The translation of a motion depends on its rotation part with rate at most the length of the translation part. -/
theorem xexp_lip (a b v : V3) : eucNorm ((SE3.xexp (a, v)).2 - (SE3.xexp (b, v)).2) ≤ eucNorm (a - b) * eucNorm v := by
  set u := (SE3.xexp (a, v)).2 - (SE3.xexp (b, v)).2 with hu
  have hd : ∀ t : ℝ, HasDerivAt (fun s : ℝ => u ⬝ᵥ ((SE3.xexp (s • (a, v))).2 - (SE3.xexp (s • (b, v))).2))
      (u ⬝ᵥ (SO3.exp (t • a) *ᵥ v - SO3.exp (t • b) *ᵥ v)) t := by
    intro t
    simp only [dotProduct, Fin.sum_univ_three, Pi.sub_apply]
    have h := fun i => ((xexp_line_deriv (a, v) t i).sub (xexp_line_deriv (b, v) t i)).const_mul (u i)
    exact ((h 0).add (h 1)).add (h 2)
  have hb : ∀ t ∈ Set.Ico (0 : ℝ) 1, ‖u ⬝ᵥ (SO3.exp (t • a) *ᵥ v - SO3.exp (t • b) *ᵥ v)‖ ≤ eucNorm u * (eucNorm (a - b) * eucNorm v) := by
    intro t ht
    rw [Real.norm_eq_abs]
    refine (abs_dot_le _ _).trans (mul_le_mul_of_nonneg_left ((turnsAlike_exp (t • a) (t • b) v).trans ?_) (eucNorm_nonneg u))
    rw [← smul_sub, eucNorm_smul, abs_of_nonneg ht.1]
    refine mul_le_mul_of_nonneg_right ?_ (eucNorm_nonneg v)
    have := mul_le_mul_of_nonneg_right ht.2.le (eucNorm_nonneg (a - b))
    linarith
  have h := norm_image_sub_le_of_norm_deriv_le_segment_01' (fun t _ => (hd t).hasDerivWithinAt) hb
  simp only [one_smul, zero_smul, sub_self, dotProduct_zero, sub_zero] at h
  rw [← hu, Real.norm_eq_abs] at h
  have hs : u ⬝ᵥ u = eucNorm u * eucNorm u := by
    rw [eucNorm, Real.mul_self_sqrt (sqNorm_nonneg u)]; rfl
  rw [hs, abs_of_nonneg (mul_nonneg (eucNorm_nonneg u) (eucNorm_nonneg u))] at h
  rcases (eucNorm_nonneg u).eq_or_lt with h0 | h0
  · rw [← h0]; exact mul_nonneg (eucNorm_nonneg _) (eucNorm_nonneg _)
  · exact le_of_mul_le_mul_left h h0

end Verif.LogDouble
