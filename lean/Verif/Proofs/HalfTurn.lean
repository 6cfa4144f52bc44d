import Verif.Spec.HalfTurn
import Verif.Proofs.SO3Log
import Verif.Proofs.SO3Construct
/-! # The logarithm at exactly half a turn -/
namespace Verif.SO3
open Matrix Verif.Spec

/-- The index Eigen picks on the diagonal of a half turn about `n` is the first of the largest components of `n`. -/
theorem largestDiag_half (n : V3) :
    (∀ j, |n j| ≤ |n (largestDiag (quatMatrix ⟨0, n⟩))|) ∧ ∀ j < largestDiag (quatMatrix ⟨0, n⟩), |n j| < |n (largestDiag (quatMatrix ⟨0, n⟩))| := by
  have d0 : quatMatrix ⟨0, n⟩ 0 0 = 1 - 2 * (n 1 ^ 2 + n 2 ^ 2) := by simp [quatMatrix]; ring
  have d1 : quatMatrix ⟨0, n⟩ 1 1 = 1 - 2 * (n 0 ^ 2 + n 2 ^ 2) := by simp [quatMatrix]; ring
  have d2 : quatMatrix ⟨0, n⟩ 2 2 = 1 - 2 * (n 0 ^ 2 + n 1 ^ 2) := by simp [quatMatrix]; ring
  obtain ⟨i, hi⟩ : ∃ i, i = largestDiag (quatMatrix ⟨0, n⟩) := ⟨_, rfl⟩
  rw [← hi]
  unfold largestDiag at hi
  simp only at hi
  have all : ∀ {P : Fin 3 → Prop}, P 0 → P 1 → P 2 → ∀ j, P j := by
    intro P h0 h1 h2 j; fin_cases j <;> assumption
  split_ifs at hi with h1 h2 h2
  all_goals
    subst hi
    rw [d2] at h2
    rw [d1, d0] at h1
    first | rw [d1] at h2 | rw [d0] at h2
    constructor
    · apply all <;> first | exact le_rfl | (apply sq_le_sq.mp; linarith)
    · apply all <;> intro hj <;> first | (exact absurd hj (by decide)) | (apply sq_lt_sq.mp; linarith)

open Classical in
/-- The logarithm of a half turn about `n` is `n` or its opposite, whichever has a positive leading component. -/
theorem log_half {n : V3} (hn : sqNorm n = 1) :
    log (quatMatrix ⟨0, n⟩) = (if LeadsUp n then Real.pi • n else -(Real.pi • n)) ∧ (LeadsUp n ∨ LeadsUp (-n)) := by
  have hq1 : qsq ⟨0, n⟩ = 1 := by simp [qsq, hn]
  have hR : IsRotation (quatMatrix ⟨0, n⟩) := by
    have := angleAxis_half (Real.pi / 2) hn
    rw [Real.cos_pi_div_two, Real.sin_pi_div_two, one_smul] at this
    rw [← this, angleAxis_exp _ hn]
    exact isRotation_exp _
  obtain ⟨s1, s2⟩ := quatOfMatrix_spec hR
  obtain ⟨m1, m2⟩ := largestDiag_half n
  obtain ⟨i, hi⟩ : ∃ i, i = largestDiag (quatMatrix ⟨0, n⟩) := ⟨_, rfl⟩
  rw [← hi] at m1 m2
  have hne : n i ≠ 0 := by
    intro h0
    rw [h0, abs_zero] at m1
    have z : ∀ j, n j = 0 := fun j => abs_eq_zero.mp (le_antisymm (m1 j) (abs_nonneg _))
    rw [sqNorm_eq, z 0, z 1, z 2] at hn
    norm_num at hn
  have hn' := hn
  rw [sqNorm_eq] at hn'
  have tr : quatMatrix ⟨0, n⟩ 0 0 + quatMatrix ⟨0, n⟩ 1 1 + quatMatrix ⟨0, n⟩ 2 2 = -1 := by
    simp [quatMatrix]; linear_combination (-4) * hn'
  have hpos : 0 ≤ (quatOfMatrix (quatMatrix ⟨0, n⟩)).v i := by
    unfold quatOfMatrix
    simp only
    rw [if_neg (by rw [tr]; norm_num), ← hi]
    simp only [if_true]
    positivity
  have e1 : eucNorm n = 1 := by rw [eucNorm, hn, Real.sqrt_one]
  have arg1 : Complex.arg ⟨0, 1⟩ = Real.pi / 2 := Complex.arg_I
  rcases quat_sign hq1 s2 s1 with h | h
  · rw [h] at hpos
    have hp : 0 < n i := lt_of_le_of_ne hpos (Ne.symm hne)
    have up : LeadsUp n := ⟨i, hp, fun j => by have := m1 j; rwa [abs_of_pos hp] at this, fun j hj => by have := m2 j hj; rwa [abs_of_pos hp] at this⟩
    rw [if_pos up]
    refine ⟨?_, .inl up⟩
    unfold log
    rw [h]
    simp only [angleAxisOfQuat, e1, abs_zero, arg1]
    simp
    ring_nf
  · rw [h] at hpos
    have hp : 0 < -n i := lt_of_le_of_ne hpos (by simpa using hne)
    have hp' : n i < 0 := by linarith
    have up : LeadsUp (-n) := ⟨i, hp, fun j => by have := m1 j; rw [abs_of_neg hp'] at this; simpa using this,
      fun j hj => by have := m2 j hj; rw [abs_of_neg hp'] at this; simpa using this⟩
    have nup : ¬ LeadsUp n := by
      rintro ⟨k, k1, k2, k3⟩
      rcases lt_trichotomy i k with hik | hik | hik
      · have a1 := k3 i hik
        have a2 := m1 k
        rw [abs_of_pos k1] at a2
        linarith
      · subst hik; linarith
      · have a1 := m2 k hik
        have a2 := k2 i
        rw [abs_of_pos k1] at a1
        linarith
    rw [if_neg nup]
    refine ⟨?_, .inr up⟩
    unfold log
    rw [h]
    have e2 : eucNorm (-n) = 1 := by rw [← neg_one_smul ℝ n, eucNorm_smul, e1]; simp
    simp only [angleAxisOfQuat, e2, neg_zero, abs_zero, arg1]
    simp
    ring_nf

theorem sqrt_eucNorm (v : V3) : Real.sqrt (v 0 ^ 2 + v 1 ^ 2 + v 2 ^ 2) = eucNorm v := by rw [eucNorm, sqNorm_eq]

theorem leadsUp_smul {r : ℝ} (hr : 0 < r) (n : V3) : LeadsUp (r • n) ↔ LeadsUp n := by
  unfold LeadsUp
  simp only [Pi.smul_apply, smul_eq_mul, abs_mul, abs_of_pos hr]
  simp only [mul_pos_iff_of_pos_left hr, mul_le_mul_iff_right₀ hr, mul_lt_mul_iff_right₀ hr]

/-- Half a turn: the logarithm returns the vector or its opposite. -/
theorem log_exp_half {v : V3} (h : eucNorm v = Real.pi) :
    (LeadsUp v → log (SO3.exp v) = v) ∧ (¬ LeadsUp v → log (SO3.exp v) = -v) ∧ (LeadsUp v ∨ LeadsUp (-v)) := by
  have hpi := Real.pi_pos
  obtain ⟨n, hn⟩ : ∃ n : V3, n = Real.pi⁻¹ • v := ⟨_, rfl⟩
  have hv : v = Real.pi • n := by rw [hn, smul_smul, mul_inv_cancel₀ hpi.ne', one_smul]
  have h1 : eucNorm n = 1 := by rw [hn, eucNorm_smul, h, abs_of_pos (by positivity), inv_mul_cancel₀ hpi.ne']
  have h2 : sqNorm n = 1 := by rw [← eucNorm_sq, h1, one_pow]
  have he : SO3.exp v = quatMatrix ⟨0, n⟩ := by
    have := angleAxis_half (Real.pi / 2) h2
    rw [Real.cos_pi_div_two, Real.sin_pi_div_two, one_smul, angleAxis_exp _ h2, show 2 * (Real.pi / 2) = Real.pi by ring, ← hv] at this
    exact this
  obtain ⟨l1, l2⟩ := log_half h2
  rw [he, l1, hv, leadsUp_smul hpi, ← smul_neg, leadsUp_smul hpi]
  refine ⟨fun u => by rw [if_pos u], fun u => by rw [if_neg u, smul_neg], l2⟩

/-- The vectors that survive `exp` and then `log` are exactly the ones within reach. -/
theorem log_exp_iff (v : V3) : log (SO3.exp v) = v ↔ WithinReach v := by
  unfold WithinReach
  rw [sqrt_eucNorm]
  constructor
  · intro h
    have hle : eucNorm v ≤ Real.pi := by rw [← h]; exact (exp_log (isRotation_exp _)).2
    rcases hle.lt_or_eq with hlt | heq
    · exact .inl hlt
    · refine .inr ⟨heq, ?_⟩
      by_contra hup
      have := (log_exp_half heq).2.1 hup
      rw [h] at this
      have hz : v = 0 := by
        ext i
        have := congrFun this i
        simp only [Pi.neg_apply] at this
        simp; linarith
      rw [hz, eucNorm_zero] at heq
      linarith [Real.pi_pos]
  · rintro (h | ⟨h, up⟩)
    · exact log_exp h
    · exact (log_exp_half h).1 up

/-- The logarithm of a rotation about `v` is a multiple of `v`. -/
theorem log_exp_along (v : V3) : ∃ r : ℝ, log (SO3.exp v) = r • v := by
  by_cases h0 : v = 0
  · exact ⟨1, by rw [h0, log_exp (by rw [eucNorm_zero]; exact Real.pi_pos), smul_zero]⟩
  have hp := eucNorm_pos h0
  have hpi := Real.pi_pos
  obtain ⟨n, hn⟩ : ∃ n : V3, n = (eucNorm v)⁻¹ • v := ⟨_, rfl⟩
  have hv : v = eucNorm v • n := by rw [hn, smul_smul, mul_inv_cancel₀ hp.ne', one_smul]
  have h1 : eucNorm n = 1 := by rw [hn, eucNorm_smul, abs_of_pos (by positivity), inv_mul_cancel₀ hp.ne']
  have h2 : sqNorm n = 1 := by rw [← eucNorm_sq, h1, one_pow]
  obtain ⟨k, hk⟩ : ∃ k : ℤ, k = round (eucNorm v / (2 * Real.pi)) := ⟨_, rfl⟩
  have hr := abs_sub_round (eucNorm v / (2 * Real.pi))
  rw [← hk] at hr
  have he : SO3.exp v = SO3.exp ((eucNorm v - k * (2 * Real.pi)) • n) := by
    conv_lhs => rw [hv]
    rw [← angleAxis_exp _ h2, ← angleAxis_exp _ h2]
    unfold angleAxisMatrix
    rw [Real.cos_sub_int_mul_two_pi, Real.sin_sub_int_mul_two_pi]
  have hle : eucNorm ((eucNorm v - k * (2 * Real.pi)) • n) ≤ Real.pi := by
    rw [eucNorm_smul, h1, mul_one]
    have : eucNorm v - k * (2 * Real.pi) = (eucNorm v / (2 * Real.pi) - k) * (2 * Real.pi) := by field_simp
    rw [this, abs_mul, abs_of_pos (by positivity : 0 < 2 * Real.pi)]
    nlinarith
  have key : ∃ s : ℝ, log (SO3.exp v) = s • n := by
    rw [he]
    rcases hle.lt_or_eq with h | h
    · exact ⟨_, log_exp h⟩
    · by_cases hu : LeadsUp ((eucNorm v - k * (2 * Real.pi)) • n)
      · exact ⟨_, (log_exp_half h).1 hu⟩
      · exact ⟨-(eucNorm v - k * (2 * Real.pi)), by rw [(log_exp_half h).2.1 hu, neg_smul]⟩
  obtain ⟨s, hs⟩ := key
  exact ⟨s * (eucNorm v)⁻¹, by rw [hs, hn, smul_smul]⟩

end Verif.SO3
