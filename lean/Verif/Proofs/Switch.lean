import Verif.Proofs.DCurveSE3
import Verif.Proofs.TinyAngle
import Verif.Proofs.ExpDiff
/-! # The angle at which `exp` switches formulas -/
namespace Verif
open Matrix Topology SO3

/-- The cosine is more than the first four terms of its series. -/
theorem cos_gt {t : ℝ} (h0 : 0 < t) (h : t ≤ 1) : 1 - t ^ 2 / 2 + t ^ 4 / 24 - t ^ 6 / 720 < Real.cos t := by
  have hx : ‖(t : ℂ) * Complex.I‖ ≤ 1 := by simpa [abs_of_pos h0] using h
  have hb := Complex.exp_bound hx (n := 9) (by norm_num)
  have hn : ‖(t : ℂ) * Complex.I‖ = t := by simp [abs_of_pos h0]
  rw [hn] at hb
  have hfac : ((Nat.factorial 9 : ℕ) : ℝ) = 362880 := by norm_num [Nat.factorial]
  have hb' : ‖Complex.exp (t * Complex.I) - ∑ m ∈ Finset.range 9, (t * Complex.I) ^ m / (m.factorial : ℂ)‖ ≤ t ^ 9 / 300000 := by
    refine hb.trans ?_
    rw [hfac, div_eq_mul_inv]
    apply mul_le_mul_of_nonneg_left _ (by positivity)
    norm_num
  have hsum : ∑ m ∈ Finset.range 9, ((t : ℂ) * Complex.I) ^ m / (m.factorial : ℂ) =
      ((1 - t ^ 2 / 2 + t ^ 4 / 24 - t ^ 6 / 720 + t ^ 8 / 40320 : ℝ) : ℂ) + ((t - t ^ 3 / 6 + t ^ 5 / 120 - t ^ 7 / 5040 : ℝ) : ℂ) * Complex.I := by
    have i2 := Complex.I_sq
    have i3 : Complex.I ^ 3 = -Complex.I := by rw [pow_succ, i2]; ring
    have i4 : Complex.I ^ 4 = 1 := by rw [pow_succ, i3]; linear_combination -i2
    have i5 : Complex.I ^ 5 = Complex.I := by rw [pow_succ, i4]; ring
    have i6 : Complex.I ^ 6 = -1 := by rw [pow_succ, i5]; linear_combination i2
    have i7 : Complex.I ^ 7 = -Complex.I := by rw [pow_succ, i6]; ring
    have i8 : Complex.I ^ 8 = 1 := by rw [pow_succ, i7]; linear_combination -i2
    simp only [Finset.sum_range_succ, Finset.sum_range_zero, mul_pow, i2, i3, i4, i5, i6, i7, i8]
    push_cast
    norm_num [Nat.factorial]
    ring
  rw [hsum, Complex.exp_mul_I, ← Complex.ofReal_cos, ← Complex.ofReal_sin] at hb'
  have e : (Real.cos t : ℂ) + Real.sin t * Complex.I - (((1 - t ^ 2 / 2 + t ^ 4 / 24 - t ^ 6 / 720 + t ^ 8 / 40320 : ℝ) : ℂ) + ((t - t ^ 3 / 6 + t ^ 5 / 120 - t ^ 7 / 5040 : ℝ) : ℂ) * Complex.I)
      = ⟨Real.cos t - (1 - t ^ 2 / 2 + t ^ 4 / 24 - t ^ 6 / 720 + t ^ 8 / 40320), Real.sin t - (t - t ^ 3 / 6 + t ^ 5 / 120 - t ^ 7 / 5040)⟩ := by
    apply Complex.ext <;> simp [-Complex.ofReal_cos, -Complex.ofReal_sin, -Complex.ofReal_sub, -Complex.ofReal_add]
  rw [e] at hb'
  have := (abs_le.mp ((Complex.abs_re_le_norm _).trans hb')).1
  dsimp only at this
  have h9 : t ^ 9 ≤ t ^ 8 := by
    rw [pow_succ]
    exact mul_le_of_le_one_right (by positivity) h
  have h8 : 0 < t ^ 8 := by positivity
  linarith

/-- The series for the second coefficient, as used below the switch. -/
noncomputable def bSeries (sq : ℝ) : ℝ := 0.5 - sq * (1 / 24 - sq * (1 / 720))

theorem b_below {sq : ℝ} (h : sq < tinySquareAngle) : (expDiffCoeffs sq).b = bSeries sq := by
  unfold expDiffCoeffs
  rw [if_pos h]
  rfl

theorem b_jumps : (expDiffCoeffs tinySquareAngle).b < bSeries tinySquareAngle := by
  unfold expDiffCoeffs
  rw [if_neg (lt_irrefl _)]
  have hs : Real.sqrt tinySquareAngle = 0.002 := by
    rw [tinySquareAngle, show (4e-6 : ℝ) = 0.002 ^ 2 by norm_num, Real.sqrt_sq (by norm_num)]
  have hc := cos_gt (t := 0.002) (by norm_num) (by norm_num)
  show (1 - Real.cos (Real.sqrt tinySquareAngle)) * (1 / Real.sqrt tinySquareAngle * (1 / Real.sqrt tinySquareAngle)) < _
  rw [hs, bSeries, tinySquareAngle]
  generalize Real.cos 0.002 = k at *
  norm_num at hc ⊢
  linarith

/-- `1 - a = c * sq` in both branches. -/
theorem a_eq (sq : ℝ) (h : 0 ≤ sq) : (expDiffCoeffs sq).a = 1 - sq * (expDiffCoeffs sq).c := by
  unfold expDiffCoeffs
  split
  · rfl
  · rename_i hn
    have hp : 0 < sq := lt_of_lt_of_le (by unfold tinySquareAngle; norm_num) (not_lt.mp hn)
    have hs : Real.sqrt sq * Real.sqrt sq = sq := Real.mul_self_sqrt h
    have h0 : Real.sqrt sq ≠ 0 := (Real.sqrt_pos.mpr hp).ne'
    dsimp only
    have : sq * ((1 - Real.sin (Real.sqrt sq) * (1 / Real.sqrt sq)) * (1 / Real.sqrt sq * (1 / Real.sqrt sq))) =
        1 - Real.sin (Real.sqrt sq) * (1 / Real.sqrt sq) := by
      generalize Real.sin (Real.sqrt sq) = k
      nth_rw 1 [← hs]
      field_simp
    rw [this]
    ring

/-- The displacement of a pose that moves along its axis. -/
theorem SE3.exp_along {w v : V3} (h : w ⨯₃ v = 0) (f : ℝ) : (SE3.exp (f • ((w, v) : Twist))).2 = f • v := by
  show (expDiffCoeffs (sqNorm (f • w))).a • (f • v) + (expDiffCoeffs (sqNorm (f • w))).b • ((f • w) ⨯₃ (f • v)) +
    ((expDiffCoeffs (sqNorm (f • w))).c * ((f • w) ⬝ᵥ (f • v))) • (f • w) = _
  rw [a_eq _ (by rw [← eucNorm_sq]; positivity)]
  generalize (expDiffCoeffs (sqNorm (f • w))).c = c
  generalize (expDiffCoeffs (sqNorm (f • w))).b = b
  have h0 := congrFun h 0
  have h1 := congrFun h 1
  have h2 := congrFun h 2
  simp only [cross_apply, cons_val_zero, cons_val_one, cons_val, Pi.zero_apply] at h0 h1 h2
  funext k
  fin_cases k <;>
    simp only [sqNorm_eq, cross_apply, dotProduct, Fin.sum_univ_three, Pi.add_apply, Pi.smul_apply, smul_eq_mul, cons_val_zero, cons_val_one, cons_val,
      Fin.zero_eta, Fin.mk_one, Fin.reduceFinMk]
  · linear_combination (b * f ^ 2) * h0 - (c * f ^ 3 * w 2) * h1 + (c * f ^ 3 * w 1) * h2
  · linear_combination (b * f ^ 2) * h1 - (c * f ^ 3 * w 0) * h2 + (c * f ^ 3 * w 2) * h0
  · linear_combination (b * f ^ 2) * h2 - (c * f ^ 3 * w 1) * h0 + (c * f ^ 3 * w 0) * h1

/-- Across the plane of axis and velocity only the second coefficient is seen. -/
theorem SE3.exp_across (w v : V3) (f : ℝ) :
    (w ⨯₃ v) ⬝ᵥ (SE3.exp (f • ((w, v) : Twist))).2 = (expDiffCoeffs (f ^ 2 * sqNorm w)).b * f ^ 2 * sqNorm (w ⨯₃ v) := by
  show (w ⨯₃ v) ⬝ᵥ ((expDiffCoeffs (sqNorm (f • w))).a • (f • v) + (expDiffCoeffs (sqNorm (f • w))).b • ((f • w) ⨯₃ (f • v)) +
    ((expDiffCoeffs (sqNorm (f • w))).c * ((f • w) ⬝ᵥ (f • v))) • (f • w)) = _
  have e : sqNorm (f • w) = f ^ 2 * sqNorm w := by
    simp only [sqNorm_eq, Pi.smul_apply, smul_eq_mul]
    ring
  rw [e]
  generalize (expDiffCoeffs (f ^ 2 * sqNorm w)).a = a
  generalize (expDiffCoeffs (f ^ 2 * sqNorm w)).b = b
  generalize (expDiffCoeffs (f ^ 2 * sqNorm w)).c = c
  simp only [sqNorm_eq, cross_apply, dotProduct, Fin.sum_univ_three, Pi.add_apply, Pi.smul_apply, smul_eq_mul, cons_val_zero, cons_val_one, cons_val]
  ring

/-- Where the angle turned reaches the switch, the displacement jumps unless it is along the axis. -/
theorem SE3.exp_jumps {w v : V3} (h : w ⨯₃ v ≠ 0) {f : ℝ → ℝ} {s : ℝ} (hf : ContinuousAt f s) (hs : f s ^ 2 * sqNorm w = tinySquareAngle)
    (hl : ∀ᶠ r in 𝓝[<] s, f r ^ 2 * sqNorm w < tinySquareAngle) : ¬ ContinuousAt (fun r => (SE3.exp (f r • ((w, v) : Twist))).2) s := by
  intro hc
  have hk : 0 < sqNorm (w ⨯₃ v) := by
    rw [← eucNorm_sq]
    have := eucNorm_pos h
    positivity
  have hf0 : 0 < f s ^ 2 := by
    rcases (sq_nonneg (f s)).eq_or_lt with h0 | h0
    · rw [← h0, zero_mul, tinySquareAngle] at hs
      norm_num at hs
    · exact h0
  have h1 : ContinuousAt (fun r => (w ⨯₃ v) ⬝ᵥ (SE3.exp (f r • ((w, v) : Twist))).2) s := by
    simp only [dotProduct, Fin.sum_univ_three]
    have hi : ∀ i, ContinuousAt (fun r => (SE3.exp (f r • ((w, v) : Twist))).2 i) s := fun i => continuousAt_pi.mp hc i
    exact ((continuousAt_const.mul (hi 0)).add (continuousAt_const.mul (hi 1))).add (continuousAt_const.mul (hi 2))
  simp only [SE3.exp_across] at h1
  have h2 : Filter.Tendsto (fun r => bSeries (f r ^ 2 * sqNorm w) * f r ^ 2 * sqNorm (w ⨯₃ v)) (𝓝[<] s)
      (𝓝 (bSeries (f s ^ 2 * sqNorm w) * f s ^ 2 * sqNorm (w ⨯₃ v))) := by
    have : ContinuousAt (fun r => bSeries (f r ^ 2 * sqNorm w) * f r ^ 2 * sqNorm (w ⨯₃ v)) s := by
      unfold bSeries
      fun_prop
    exact this.tendsto.mono_left nhdsWithin_le_nhds
  have h3 : Filter.Tendsto (fun r => bSeries (f r ^ 2 * sqNorm w) * f r ^ 2 * sqNorm (w ⨯₃ v)) (𝓝[<] s)
      (𝓝 ((expDiffCoeffs (f s ^ 2 * sqNorm w)).b * f s ^ 2 * sqNorm (w ⨯₃ v))) := by
    refine (h1.tendsto.mono_left nhdsWithin_le_nhds).congr' ?_
    filter_upwards [hl] with r hr
    rw [b_below hr]
  have e := tendsto_nhds_unique h2 h3
  rw [hs] at e
  have := b_jumps
  have e := mul_right_cancel₀ hf0.ne' (mul_right_cancel₀ hk.ne' e)
  linarith

/-- A screw moves along its axis exactly if its end is displaced along the axis. -/
theorem along_iff {w v : V3} (h0 : w ≠ 0) (hpi : eucNorm w ≤ Real.pi) (hbig : 0.002 ≤ eucNorm w) : w ⨯₃ v = 0 ↔ w ⨯₃ (SE3.exp (w, v)).2 = 0 := by
  constructor
  · intro h
    have := SE3.exp_along h 1
    rw [one_smul, one_smul] at this
    rw [this, h]
  · intro h
    have hk := SE3.exp_across w v 1
    rw [one_smul, one_pow, one_mul, mul_one] at hk
    have hp := eucNorm_pos h0
    have hb : 0 < (expDiffCoeffs (sqNorm w)).b := by
      unfold expDiffCoeffs
      rw [if_neg (by rw [← eucNorm_sq, tinySquareAngle, not_lt]; nlinarith)]
      have hs : Real.sqrt (sqNorm w) = eucNorm w := rfl
      show 0 < (1 - Real.cos (Real.sqrt (sqNorm w))) * _
      rw [hs]
      refine mul_pos ?_ (by positivity)
      have : Real.cos (eucNorm w) < Real.cos 0 := Real.cos_lt_cos_of_nonneg_of_le_pi (le_refl 0) hpi hp
      rw [Real.cos_zero] at this
      linarith
    -- the displacement is along the axis, so it is orthogonal to the cross product
    have hd : (w ⨯₃ v) ⬝ᵥ (SE3.exp (w, v)).2 = 0 := by
      have e : (w ⨯₃ v) ⬝ᵥ (SE3.exp (w, v)).2 = - (v ⬝ᵥ (w ⨯₃ (SE3.exp (w, v)).2)) := by
        generalize (SE3.exp (w, v)).2 = d
        simp only [cross_apply, Matrix.vec3_dotProduct, Matrix.cons_val]
        ring
      rw [e, h, dotProduct_zero, neg_zero]
    rw [hd] at hk
    by_contra hne
    have : 0 < sqNorm (w ⨯₃ v) := by
      rw [← eucNorm_sq]
      have := eucNorm_pos hne
      positivity
    exact absurd hk (mul_pos hb this).ne

end Verif
