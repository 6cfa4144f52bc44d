import Verif.Proofs.Homogeneous
/-! # `SO3::log` inverts `SO3::exp` -/
namespace Verif
open Matrix Spec

namespace SO3

/-- Squared length of a quaternion. -/
def qsq (q : Quat) : ℝ := q.w ^ 2 + sqNorm q.v

/-- The matrix equations in the branch with positive trace. -/
theorem quat_main_branch {R : M3} (h : IsRotation R) {t : ℝ} (ht : t ^ 2 = R 0 0 + R 1 1 + R 2 2 + 1) (hp : 0 < t) (q : Quat)
    (hw : q.w = 1 / 2 * t) (h0 : q.v 0 = (R 2 1 - R 1 2) * (1 / 2 / t)) (h1 : q.v 1 = (R 0 2 - R 2 0) * (1 / 2 / t))
    (h2 : q.v 2 = (R 1 0 - R 0 1) * (1 / 2 / t)) : quatMatrix q = R ∧ qsq q = 1 := by
  obtain ⟨c00, c01, c02, c10, c11, c12, c20, c21, c22⟩ := cofactors h
  have r00 := rows h 0 0
  have r11 := rows h 1 1
  have r22 := rows h 2 2
  have r01 := rows h 0 1
  have r02 := rows h 0 2
  have r12 := rows h 1 2
  have k00 := cols h 0 0
  have k11 := cols h 1 1
  have k22 := cols h 2 2
  have k01 := cols h 0 1
  have k02 := cols h 0 2
  have k12 := cols h 1 2
  simp at r00 r11 r22 r01 r02 r12 k00 k11 k22 k01 k02 k12
  obtain ⟨r, hrdef⟩ : ∃ r, r = 1 / 2 / t := ⟨_, rfl⟩
  have hrt : r * t = 1 / 2 := by rw [hrdef]; field_simp
  have hr : r ^ 2 * t ^ 2 = 1 / 4 := by rw [← mul_pow, hrt]; norm_num
  rw [← hrdef] at h0 h1 h2
  have hxw : q.v 0 * q.w = (R 2 1 - R 1 2) / 4 := by rw [h0, hw]; linear_combination ((R 2 1 - R 1 2) / 2) * hrt
  have hyw : q.v 1 * q.w = (R 0 2 - R 2 0) / 4 := by rw [h1, hw]; linear_combination ((R 0 2 - R 2 0) / 2) * hrt
  have hzw : q.v 2 * q.w = (R 1 0 - R 0 1) / 4 := by rw [h2, hw]; linear_combination ((R 1 0 - R 0 1) / 2) * hrt
  have hww : q.w ^ 2 = (R 0 0 + R 1 1 + R 2 2 + 1) / 4 := by rw [hw, ← ht]; ring
  have hxy : q.v 0 * q.v 1 = (R 1 0 + R 0 1) / 4 := by
    have e : (R 2 1 - R 1 2) * (R 0 2 - R 2 0) = t ^ 2 * (R 1 0 + R 0 1) := by
      rw [ht]; linear_combination c10 + c01 - k01 - r01
    rw [h0, h1]; linear_combination r ^ 2 * e + (R 1 0 + R 0 1) * hr
  have hyz : q.v 1 * q.v 2 = (R 2 1 + R 1 2) / 4 := by
    have e : (R 0 2 - R 2 0) * (R 1 0 - R 0 1) = t ^ 2 * (R 2 1 + R 1 2) := by
      rw [ht]; linear_combination c21 + c12 - k12 - r12
    rw [h1, h2]; linear_combination r ^ 2 * e + (R 2 1 + R 1 2) * hr
  have hxz : q.v 0 * q.v 2 = (R 2 0 + R 0 2) / 4 := by
    have e : (R 2 1 - R 1 2) * (R 1 0 - R 0 1) = t ^ 2 * (R 2 0 + R 0 2) := by
      rw [ht]; linear_combination c20 + c02 - k02 - r02
    rw [h0, h2]; linear_combination r ^ 2 * e + (R 2 0 + R 0 2) * hr
  have hxx : q.v 0 ^ 2 = (1 + R 0 0 - R 1 1 - R 2 2) / 4 := by
    have e : (R 2 1 - R 1 2) ^ 2 = t ^ 2 * (1 + R 0 0 - R 1 1 - R 2 2) := by
      rw [ht]; linear_combination 2 * c00 + r11 + r22 - k00
    rw [h0]; linear_combination r ^ 2 * e + (1 + R 0 0 - R 1 1 - R 2 2) * hr
  have hyy : q.v 1 ^ 2 = (1 + R 1 1 - R 0 0 - R 2 2) / 4 := by
    have e : (R 0 2 - R 2 0) ^ 2 = t ^ 2 * (1 + R 1 1 - R 0 0 - R 2 2) := by
      rw [ht]; linear_combination 2 * c11 + r00 + r22 - k11
    rw [h1]; linear_combination r ^ 2 * e + (1 + R 1 1 - R 0 0 - R 2 2) * hr
  have hzz : q.v 2 ^ 2 = (1 + R 2 2 - R 1 1 - R 0 0) / 4 := by
    have e : (R 1 0 - R 0 1) ^ 2 = t ^ 2 * (1 + R 2 2 - R 1 1 - R 0 0) := by
      rw [ht]; linear_combination 2 * c22 + r00 + r11 - k22
    rw [h2]; linear_combination r ^ 2 * e + (1 + R 2 2 - R 1 1 - R 0 0) * hr
  refine ⟨?_, ?_⟩
  · ext i j
    fin_cases i <;> fin_cases j <;> simp [quatMatrix]
    · linear_combination -2 * hyy - 2 * hzz
    · linear_combination 2 * hxy - 2 * hzw
    · linear_combination 2 * hxz + 2 * hyw
    · linear_combination 2 * hxy + 2 * hzw
    · linear_combination -2 * hxx - 2 * hzz
    · linear_combination 2 * hyz - 2 * hxw
    · linear_combination 2 * hxz - 2 * hyw
    · linear_combination 2 * hyz + 2 * hxw
    · linear_combination -2 * hxx - 2 * hyy
  · rw [qsq, sqNorm_eq]
    linear_combination hww + hxx + hyy + hzz

/-- The matrix equations in the branch where the first diagonal entry is largest. -/
theorem quat_other_branch {R : M3} (h : IsRotation R) {t : ℝ} (ht : t ^ 2 = R 0 0 - R 1 1 - R 2 2 + 1) (hp : 0 < t) (q : Quat)
    (hw : q.w = (R 2 1 - R 1 2) * (1 / 2 / t)) (h0 : q.v 0 = 1 / 2 * t) (h1 : q.v 1 = (R 1 0 + R 0 1) * (1 / 2 / t))
    (h2 : q.v 2 = (R 2 0 + R 0 2) * (1 / 2 / t)) : quatMatrix q = R ∧ qsq q = 1 := by
  obtain ⟨c00, c01, c02, c10, c11, c12, c20, c21, c22⟩ := cofactors h
  have r00 := rows h 0 0
  have r11 := rows h 1 1
  have r22 := rows h 2 2
  have r01 := rows h 0 1
  have r02 := rows h 0 2
  have r12 := rows h 1 2
  have k00 := cols h 0 0
  have k11 := cols h 1 1
  have k22 := cols h 2 2
  have k01 := cols h 0 1
  have k02 := cols h 0 2
  have k12 := cols h 1 2
  simp at r00 r11 r22 r01 r02 r12 k00 k11 k22 k01 k02 k12
  obtain ⟨r, hrdef⟩ : ∃ r, r = 1 / 2 / t := ⟨_, rfl⟩
  have hrt : r * t = 1 / 2 := by rw [hrdef]; field_simp
  have hr : r ^ 2 * t ^ 2 = 1 / 4 := by rw [← mul_pow, hrt]; norm_num
  rw [← hrdef] at hw h1 h2
  have hxw : q.v 0 * q.w = (R 2 1 - R 1 2) / 4 := by rw [h0, hw]; linear_combination ((R 2 1 - R 1 2) / 2) * hrt
  have hxy : q.v 0 * q.v 1 = (R 1 0 + R 0 1) / 4 := by rw [h0, h1]; linear_combination ((R 1 0 + R 0 1) / 2) * hrt
  have hxz : q.v 0 * q.v 2 = (R 2 0 + R 0 2) / 4 := by rw [h0, h2]; linear_combination ((R 2 0 + R 0 2) / 2) * hrt
  have hxx : q.v 0 ^ 2 = (1 + R 0 0 - R 1 1 - R 2 2) / 4 := by
    rw [h0]; linear_combination ht / 4
  have hww : q.w ^ 2 = (R 0 0 + R 1 1 + R 2 2 + 1) / 4 := by
    have e : (R 2 1 - R 1 2) ^ 2 = t ^ 2 * (R 0 0 + R 1 1 + R 2 2 + 1) := by
      rw [ht]; linear_combination 2 * c00 + r11 + r22 - k00
    rw [hw]; linear_combination r ^ 2 * e + (R 0 0 + R 1 1 + R 2 2 + 1) * hr
  have hyw : q.v 1 * q.w = (R 0 2 - R 2 0) / 4 := by
    have e : (R 1 0 + R 0 1) * (R 2 1 - R 1 2) = t ^ 2 * (R 0 2 - R 2 0) := by
      rw [ht]; linear_combination c02 - c20 - k02 + r02
    rw [h1, hw]; linear_combination r ^ 2 * e + (R 0 2 - R 2 0) * hr
  have hzw : q.v 2 * q.w = (R 1 0 - R 0 1) / 4 := by
    have e : (R 2 0 + R 0 2) * (R 2 1 - R 1 2) = t ^ 2 * (R 1 0 - R 0 1) := by
      rw [ht]; linear_combination c10 - c01 - r01 + k01
    rw [h2, hw]; linear_combination r ^ 2 * e + (R 1 0 - R 0 1) * hr
  have hyy : q.v 1 ^ 2 = (1 + R 1 1 - R 0 0 - R 2 2) / 4 := by
    have e : (R 1 0 + R 0 1) ^ 2 = t ^ 2 * (1 + R 1 1 - R 0 0 - R 2 2) := by
      rw [ht]; linear_combination r00 + r11 - k22 - 2 * c22
    rw [h1]; linear_combination r ^ 2 * e + (1 + R 1 1 - R 0 0 - R 2 2) * hr
  have hzz : q.v 2 ^ 2 = (1 + R 2 2 - R 1 1 - R 0 0) / 4 := by
    have e : (R 2 0 + R 0 2) ^ 2 = t ^ 2 * (1 + R 2 2 - R 1 1 - R 0 0) := by
      rw [ht]; linear_combination r00 + r22 - k11 - 2 * c11
    rw [h2]; linear_combination r ^ 2 * e + (1 + R 2 2 - R 1 1 - R 0 0) * hr
  have hyz : q.v 1 * q.v 2 = (R 2 1 + R 1 2) / 4 := by
    have e : (R 1 0 + R 0 1) * (R 2 0 + R 0 2) = t ^ 2 * (R 2 1 + R 1 2) := by
      rw [ht]; linear_combination r12 + k12 + c21 + c12
    rw [h1, h2]; linear_combination r ^ 2 * e + (R 2 1 + R 1 2) * hr
  refine ⟨?_, ?_⟩
  · ext i j
    fin_cases i <;> fin_cases j <;> simp [quatMatrix]
    · linear_combination -2 * hyy - 2 * hzz
    · linear_combination 2 * hxy - 2 * hzw
    · linear_combination 2 * hxz + 2 * hyw
    · linear_combination 2 * hxy + 2 * hzw
    · linear_combination -2 * hxx - 2 * hzz
    · linear_combination 2 * hyz - 2 * hxw
    · linear_combination 2 * hxz - 2 * hyw
    · linear_combination 2 * hyz + 2 * hxw
    · linear_combination -2 * hxx - 2 * hyy
  · rw [qsq, sqNorm_eq]
    linear_combination hww + hxx + hyy + hzz

/-- Renumbering the axes cyclically keeps a rotation a rotation. -/
theorem isRotation_shift {R : M3} (h : IsRotation R) (i : Fin 3) : IsRotation (R.submatrix (i + ·) (i + ·)) := by
  have e : (i + · : Fin 3 → Fin 3) = (Equiv.addLeft i : Fin 3 ≃ Fin 3) := rfl
  constructor
  · rw [transpose_submatrix, e, submatrix_mul_equiv, h.orth]
    exact submatrix_one_equiv _
  · rw [e, det_submatrix_equiv_self, h.det]

theorem quatMatrix_shift (q : Quat) (i : Fin 3) :
    quatMatrix ⟨q.w, fun l => q.v (i + l)⟩ = (quatMatrix q).submatrix (i + ·) (i + ·) := by
  ext a b
  fin_cases i <;> fin_cases a <;> fin_cases b <;> simp [quatMatrix] <;> ring

theorem shift_injective (i : Fin 3) {A B : M3} (h : A.submatrix (i + ·) (i + ·) = B.submatrix (i + ·) (i + ·)) : A = B := by
  ext a b
  have := congrFun (congrFun h (a - i)) (b - i)
  simpa using this

theorem qsq_shift (q : Quat) (i : Fin 3) : qsq ⟨q.w, fun l => q.v (i + l)⟩ = qsq q := by
  rw [qsq, qsq, sqNorm_eq, sqNorm_eq]
  fin_cases i <;> simp <;> ring

theorem largestDiag_max (m : M3) (l : Fin 3) : m l l ≤ m (largestDiag m) (largestDiag m) := by
  unfold largestDiag
  by_cases h1 : m 1 1 > m 0 0
  · by_cases h2 : m 2 2 > m 1 1
    · fin_cases l <;> simp [h1, h2] <;> linarith
    · fin_cases l <;> simp [h1, h2] <;> linarith
  · by_cases h2 : m 2 2 > m 0 0
    · fin_cases l <;> simp [h1, h2] <;> linarith
    · fin_cases l <;> simp [h1, h2] <;> linarith

/-- Eigen's conversion from rotation matrix to quaternion is right in all four branches. -/
theorem quatOfMatrix_spec {R : M3} (h : IsRotation R) : quatMatrix (quatOfMatrix R) = R ∧ qsq (quatOfMatrix R) = 1 := by
  unfold quatOfMatrix
  simp only
  split_ifs with htr
  · have hp : 0 < R 0 0 + R 1 1 + R 2 2 + 1 := by linarith
    exact quat_main_branch h (Real.sq_sqrt hp.le) (Real.sqrt_pos.mpr hp) _ rfl rfl rfl rfl
  · obtain ⟨i, hi⟩ : ∃ i, i = largestDiag R := ⟨_, rfl⟩
    have hmax := largestDiag_max R
    rw [← hi] at hmax ⊢
    have hsum : R i i + R (i + 1) (i + 1) + R (i + 1 + 1) (i + 1 + 1) = R 0 0 + R 1 1 + R 2 2 := by
      fin_cases i <;> simp [show (1 : Fin 3) + 1 = 2 from rfl, show (2 : Fin 3) + 1 = 0 from rfl] <;> ring
    have hp : 0 < R i i - R (i + 1) (i + 1) - R (i + 1 + 1) (i + 1 + 1) + 1 := by
      have h1 := hmax (i + 1)
      have h2 := hmax (i + 1 + 1)
      rw [← hsum] at htr
      linarith
    have e12 : i + 1 + 1 = i + 2 := by rw [add_assoc]; rfl
    have n1 : i + 1 ≠ i := by simp
    have n2 : i + 2 ≠ i := by simp
    have n3 : i + 2 ≠ i + 1 := by simp
    rw [e12] at hp ⊢
    generalize hq : Quat.mk _ _ = q
    have key := quat_other_branch (isRotation_shift h i) (t := Real.sqrt (R i i - R (i + 1) (i + 1) - R (i + 2) (i + 2) + 1))
      (by simpa using Real.sq_sqrt hp.le) (Real.sqrt_pos.mpr hp) ⟨q.w, fun l => q.v (i + l)⟩
      (by rw [← hq]; simp) (by rw [← hq]; simp) (by rw [← hq]; simp) (by rw [← hq]; simp [n2])
    rw [qsq_shift, quatMatrix_shift] at key
    exact ⟨shift_injective i key.1, key.2⟩

theorem angleAxis_half (t : ℝ) {n : V3} (hn : sqNorm n = 1) :
    angleAxisMatrix (2 * t) n = quatMatrix ⟨Real.cos t, Real.sin t • n⟩ := by
  have hs := Real.sin_sq_add_cos_sq t
  rw [sqNorm_eq] at hn
  unfold angleAxisMatrix quatMatrix
  rw [Real.sin_two_mul, Real.cos_two_mul']
  generalize Real.sin t = s at *
  generalize Real.cos t = c at *
  ext i j
  fin_cases i <;> fin_cases j <;> simp
  · linear_combination (-n 0 ^ 2 + 1) * hs + 2 * s ^ 2 * hn
  · linear_combination (-n 0 * n 1) * hs
  · linear_combination (-n 0 * n 2) * hs
  · linear_combination (-n 0 * n 1) * hs
  · linear_combination (-n 1 ^ 2 + 1) * hs + 2 * s ^ 2 * hn
  · linear_combination (-n 1 * n 2) * hs
  · linear_combination (-n 0 * n 2) * hs
  · linear_combination (-n 1 * n 2) * hs
  · linear_combination (-n 2 ^ 2 + 1) * hs + 2 * s ^ 2 * hn

theorem quatMatrix_neg (q : Quat) : quatMatrix ⟨-q.w, -q.v⟩ = quatMatrix q := by
  unfold quatMatrix
  simp

/-- The half angle Eigen computes. -/
theorem halfAngle_spec {q : Quat} (h : qsq q = 1) (hn : eucNorm q.v ≠ 0) :
    Real.cos (Complex.arg ⟨|q.w|, eucNorm q.v⟩) = |q.w| ∧ Real.sin (Complex.arg ⟨|q.w|, eucNorm q.v⟩) = eucNorm q.v ∧
    0 < Complex.arg ⟨|q.w|, eucNorm q.v⟩ ∧ Complex.arg ⟨|q.w|, eucNorm q.v⟩ ≤ Real.pi / 2 := by
  have hnp : 0 < eucNorm q.v := lt_of_le_of_ne (eucNorm_nonneg _) (Ne.symm hn)
  have hnorm : ‖(⟨|q.w|, eucNorm q.v⟩ : ℂ)‖ = 1 := by
    rw [Complex.norm_def, Complex.normSq_mk, ← pow_two, ← pow_two, sq_abs, eucNorm_sq]
    rw [qsq] at h
    rw [h, Real.sqrt_one]
  have hz : (⟨|q.w|, eucNorm q.v⟩ : ℂ) ≠ 0 := by
    intro e; rw [e] at hnorm; simp at hnorm
  refine ⟨?_, ?_, ?_, ?_⟩
  · rw [Complex.cos_arg hz, hnorm, div_one]
  · rw [Complex.sin_arg, hnorm, div_one]
  · have := Complex.arg_nonneg_iff.mpr (show 0 ≤ (⟨|q.w|, eucNorm q.v⟩ : ℂ).im from hnp.le)
    refine lt_of_le_of_ne this ?_
    intro e
    have h2 : Real.sin (Complex.arg ⟨|q.w|, eucNorm q.v⟩) = eucNorm q.v := by rw [Complex.sin_arg, hnorm, div_one]
    rw [← e, Real.sin_zero] at h2
    exact hn h2.symm
  · have := Complex.abs_arg_le_pi_div_two_iff.mpr (show 0 ≤ (⟨|q.w|, eucNorm q.v⟩ : ℂ).re from abs_nonneg _)
    exact (abs_le.mp this).2

/-- The angle-axis of a unit quaternion exponentiates to its matrix. -/
theorem angleAxisOfQuat_spec {q : Quat} (h : qsq q = 1) :
    SO3.exp ((angleAxisOfQuat q).1 • (angleAxisOfQuat q).2) = quatMatrix q ∧
    eucNorm ((angleAxisOfQuat q).1 • (angleAxisOfQuat q).2) ≤ Real.pi := by
  unfold angleAxisOfQuat
  simp only
  by_cases hn : eucNorm q.v ≠ 0
  · rw [if_pos hn]
    obtain ⟨hc, hs, hpos, hle⟩ := halfAngle_spec h hn
    have hsq := eucNorm_sq q.v
    generalize Complex.arg ⟨|q.w|, eucNorm q.v⟩ = φ at *
    generalize hN : eucNorm q.v = N at *
    have hNp : 0 < N := by rw [← hN] at hn ⊢; exact lt_of_le_of_ne (eucNorm_nonneg _) (Ne.symm hn)
    obtain ⟨σ, hσ, hσ2⟩ : ∃ σ : ℝ, (if q.w < 0 then -N else N) = σ * N ∧ (σ = 1 ∧ q.w = |q.w| ∨ σ = -1 ∧ q.w = -|q.w|) := by
      split_ifs with hw
      · exact ⟨-1, by ring, .inr ⟨rfl, by rw [abs_of_neg hw]; ring⟩⟩
      · exact ⟨1, by ring, .inl ⟨rfl, (abs_of_nonneg (not_lt.mp hw)).symm⟩⟩
    rw [hσ]
    have hσσ : σ ^ 2 = 1 := by rcases hσ2 with ⟨rfl, -⟩ | ⟨rfl, -⟩ <;> norm_num
    have hσ0 : σ ≠ 0 := by intro e; rw [e] at hσσ; norm_num at hσσ
    have hunit : sqNorm ((σ * N)⁻¹ • q.v) = 1 := by
      rw [sqNorm_smul, ← hsq, inv_pow, mul_pow, hσσ]
      field_simp
    have hu0 : (σ * N)⁻¹ • q.v ≠ 0 := by
      intro e; rw [e] at hunit; rw [sqNorm_eq_zero.mpr rfl] at hunit; norm_num at hunit
    have hnrm : eucNorm ((σ * N)⁻¹ • q.v) = 1 := by rw [eucNorm, hunit, Real.sqrt_one]
    have hang : eucNorm ((2 * φ) • (σ * N)⁻¹ • q.v) = 2 * φ := by
      rw [eucNorm_smul, hnrm, mul_one, abs_of_pos (by linarith)]
    have hax : normalized ((2 * φ) • (σ * N)⁻¹ • q.v) = (σ * N)⁻¹ • q.v := by
      rw [normalized_of_ne (smul_ne_zero (by linarith) hu0), hang, smul_smul, inv_mul_cancel₀ (by linarith), one_smul]
    refine ⟨?_, by rw [hang]; linarith⟩
    rw [SO3.exp, hang, hax, angleAxis_half φ hunit, hc, hs, smul_smul]
    have : N * (σ * N)⁻¹ = σ := by
      rw [mul_inv]
      have : σ⁻¹ = σ := by rcases hσ2 with ⟨rfl, -⟩ | ⟨rfl, -⟩ <;> norm_num
      rw [this]; field_simp
    rw [this]
    rcases hσ2 with ⟨rfl, hw⟩ | ⟨rfl, hw⟩
    · rw [one_smul, ← hw]
    · rw [neg_one_smul]
      have : |q.w| = -q.w := by linarith
      rw [this]
      exact quatMatrix_neg q
  · rw [if_neg hn]
    have hv : q.v = 0 := eucNorm_eq_zero.mp (not_not.mp hn)
    have hz : (0 : ℝ) • (![1, 0, 0] : V3) = 0 := zero_smul _ _
    rw [hz]
    refine ⟨?_, by rw [eucNorm_zero]; exact Real.pi_pos.le⟩
    rw [exp_zero]
    ext i j
    fin_cases i <;> fin_cases j <;> simp [quatMatrix, hv]

theorem exp_log {R : M3} (h : IsRotation R) : SO3.exp (log R) = R ∧ eucNorm (log R) ≤ Real.pi := by
  obtain ⟨h1, h2⟩ := quatOfMatrix_spec h
  obtain ⟨h3, h4⟩ := angleAxisOfQuat_spec h2
  exact ⟨by rw [log, h3, h1], h4⟩

theorem sq0 {a b c e : ℝ} (h : a ^ 2 + b ^ 2 + c ^ 2 + e ^ 2 = 0) : a = 0 ∧ b = 0 ∧ c = 0 ∧ e = 0 := by
  have ha := sq_nonneg a
  have hb := sq_nonneg b
  have hc := sq_nonneg c
  have he := sq_nonneg e
  refine ⟨?_, ?_, ?_, ?_⟩ <;> apply pow_eq_zero_iff (two_ne_zero) |>.mp <;> linarith

/-- Unit quaternions with the same rotation matrix agree up to sign. -/
theorem quat_sign {p q : Quat} (hp : qsq p = 1) (hq : qsq q = 1) (h : quatMatrix q = quatMatrix p) :
    q = p ∨ q = ⟨-p.w, -p.v⟩ := by
  have e : ∀ i j, quatMatrix q i j = quatMatrix p i j := fun i j => by rw [h]
  have e00 := e 0 0
  have e01 := e 0 1
  have e02 := e 0 2
  have e10 := e 1 0
  have e11 := e 1 1
  have e12 := e 1 2
  have e20 := e 2 0
  have e21 := e 2 1
  have e22 := e 2 2
  simp [quatMatrix] at e00 e01 e02 e10 e11 e12 e20 e21 e22
  rw [qsq, sqNorm_eq] at hp hq
  have xx : q.v 0 * q.v 0 = p.v 0 * p.v 0 := by linarith
  have yy : q.v 1 * q.v 1 = p.v 1 * p.v 1 := by linarith
  have zz : q.v 2 * q.v 2 = p.v 2 * p.v 2 := by linarith
  have ww : q.w * q.w = p.w * p.w := by linarith
  have xy : q.v 0 * q.v 1 = p.v 0 * p.v 1 := by linarith
  have xz : q.v 0 * q.v 2 = p.v 0 * p.v 2 := by linarith
  have yz : q.v 1 * q.v 2 = p.v 1 * p.v 2 := by linarith
  have xw : q.v 0 * q.w = p.v 0 * p.w := by linarith
  have yw : q.v 1 * q.w = p.v 1 * p.w := by linarith
  have zw : q.v 2 * q.w = p.v 2 * p.w := by linarith
  obtain ⟨d, hd⟩ : ∃ d, d = q.w * p.w + q.v 0 * p.v 0 + q.v 1 * p.v 1 + q.v 2 * p.v 2 := ⟨_, rfl⟩
  have hdd : d ^ 2 = 1 := by
    have : d ^ 2 = (p.w ^ 2 + (p.v 0 ^ 2 + p.v 1 ^ 2 + p.v 2 ^ 2)) ^ 2 := by
      rw [hd]
      linear_combination p.w ^ 2 * ww + p.v 0 ^ 2 * xx + p.v 1 ^ 2 * yy + p.v 2 ^ 2 * zz + 2 * p.v 0 * p.v 1 * xy
        + 2 * p.v 0 * p.v 2 * xz + 2 * p.v 1 * p.v 2 * yz + 2 * p.v 0 * p.w * xw + 2 * p.v 1 * p.w * yw + 2 * p.v 2 * p.w * zw
    rw [this, hp]; norm_num
  have hd1 : (d - 1) * (d + 1) = 0 := by linear_combination hdd
  rcases mul_eq_zero.mp hd1 with h1 | h1
  · left
    obtain ⟨a, b, c, e⟩ := sq0 (a := q.w - p.w) (b := q.v 0 - p.v 0) (c := q.v 1 - p.v 1) (e := q.v 2 - p.v 2)
      (by linear_combination hp + hq - 2 * h1 + 2 * hd)
    apply Quat.ext
    · linarith
    · ext i; fin_cases i <;> simp <;> linarith
  · right
    obtain ⟨a, b, c, e⟩ := sq0 (a := q.w + p.w) (b := q.v 0 + p.v 0) (c := q.v 1 + p.v 1) (e := q.v 2 + p.v 2)
      (by linear_combination hp + hq + 2 * h1 - 2 * hd)
    apply Quat.ext
    · simp; linarith
    · ext i; fin_cases i <;> simp <;> linarith

theorem angleAxisOfQuat_neg {q : Quat} (h : 0 < q.w) : angleAxisOfQuat ⟨-q.w, -q.v⟩ = angleAxisOfQuat q := by
  have e : eucNorm (-q.v) = eucNorm q.v := by
    rw [← neg_one_smul ℝ q.v, eucNorm_smul]; simp
  unfold angleAxisOfQuat
  simp only [e, abs_neg]
  split_ifs with h1 h2 h3
  all_goals first | rfl | (exfalso; linarith) | skip
  all_goals simp

theorem log_exp {w : V3} (h : eucNorm w < Real.pi) : log (SO3.exp w) = w := by
  by_cases h0 : w = 0
  · subst h0
    rw [exp_zero]
    have hq : quatOfMatrix (1 : M3) = ⟨1, 0⟩ := by
      have hs : Real.sqrt 4 = 2 := by rw [show (4 : ℝ) = 2 ^ 2 by norm_num]; exact Real.sqrt_sq (by norm_num)
      unfold quatOfMatrix
      simp only [Matrix.one_apply_eq]
      rw [if_pos (by norm_num)]
      apply Quat.ext
      · simp only; norm_num [hs]
      · ext i; fin_cases i <;> simp
    rw [log, hq]
    simp [angleAxisOfQuat, eucNorm_zero]
  · have hp := eucNorm_pos h0
    have hu := normalized_unit h0
    obtain ⟨φ, hφ⟩ : ∃ φ, φ = eucNorm w / 2 := ⟨_, rfl⟩
    have hφ2 : eucNorm w = 2 * φ := by rw [hφ]; ring
    have hφ0 : 0 < φ := by linarith
    have hφ1 : φ < Real.pi / 2 := by linarith
    have hcos : 0 < Real.cos φ := Real.cos_pos_of_mem_Ioo ⟨by linarith, hφ1⟩
    have hsin : 0 < Real.sin φ := Real.sin_pos_of_pos_of_lt_pi hφ0 (by linarith)
    have hexp : SO3.exp w = quatMatrix ⟨Real.cos φ, Real.sin φ • normalized w⟩ := by
      rw [SO3.exp, hφ2, angleAxis_half φ hu]
    have hunit : qsq ⟨Real.cos φ, Real.sin φ • normalized w⟩ = 1 := by
      rw [qsq]; simp only; rw [sqNorm_smul, hu]; linear_combination Real.sin_sq_add_cos_sq φ
    have hnn : eucNorm (normalized w) = 1 := by rw [eucNorm, hu, Real.sqrt_one]
    have hnv : eucNorm (Real.sin φ • normalized w) = Real.sin φ := by
      rw [eucNorm_smul, hnn, abs_of_pos hsin, mul_one]
    have haa : angleAxisOfQuat ⟨Real.cos φ, Real.sin φ • normalized w⟩ = (eucNorm w, normalized w) := by
      unfold angleAxisOfQuat
      simp only [hnv, abs_of_pos hcos]
      rw [if_pos hsin.ne', if_neg (not_lt.mpr hcos.le), smul_smul, inv_mul_cancel₀ hsin.ne', one_smul]
      have harg : Complex.arg ⟨Real.cos φ, Real.sin φ⟩ = φ := by
        have := Complex.arg_cos_add_sin_mul_I (θ := φ) ⟨by linarith [Real.pi_pos], by linarith [Real.pi_pos]⟩
        have e : (⟨Real.cos φ, Real.sin φ⟩ : ℂ) = Complex.cos φ + Complex.sin φ * Complex.I := by
          apply Complex.ext <;> simp [Complex.cos_ofReal_re, Complex.sin_ofReal_re]
        rw [e, this]
      rw [harg, hφ2]
    obtain ⟨s1, s2⟩ := quatOfMatrix_spec (isRotation_exp w)
    have hsign := quat_sign hunit s2 (s1.trans hexp)
    rw [log]
    rcases hsign with e | e
    · rw [e, haa]; exact eucNorm_smul_normalized w
    · rw [e]
      have := angleAxisOfQuat_neg (q := ⟨Real.cos φ, Real.sin φ • normalized w⟩) hcos
      simp only at this
      rw [this, haa]; exact eucNorm_smul_normalized w

end SO3
end Verif
