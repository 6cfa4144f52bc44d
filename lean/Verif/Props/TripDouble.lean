import Verif.Proofs.TripDouble
/-! # C120: exponential and then logarithm in doubles, as asserted in the Lie group guide -/
namespace Verif.Props
open Verif.Spec hiding Jet
open Verif.TransformDouble Verif.ExpDouble Verif.LogDouble Verif.ApproxDouble Verif.TripDouble Matrix SO3

theorem two_pow_50 : (2 : ℝ) ^ (-50 : ℤ) = 8 * U := by unfold U; norm_num

/-- C120, rotations: a rotation vector of at most 1.75 radians comes back with a small relative error, however small it is (down to 2^-50). -/
theorem c120_rotation {w w' : Fin 3 → ℚ} {m : Matrix (Fin 3) (Fin 3) ℚ} (h1 : 2 ^ (-50 : ℤ) ≤ eucNorm (realVec w)) (h2 : eucNorm (realVec w) ≤ 1.75) (he : ExpSO3 w m)
    (h : LogSO3 m w') : eucNorm (realVec w' - realVec w) ≤ 2280 * 2 ^ (-53 : ℤ) * eucNorm (realVec w) :=
  log_rel (two_pow_50 ▸ h1) h2 he h

theorem len_x (a : ℚ) (h : 0 ≤ a) : eucNorm (realVec ![a, 0, 0]) = a := by
  rw [eucNorm, sqNorm_eq]
  simp [realVec, Real.sqrt_sq (by exact_mod_cast h : (0 : ℝ) ≤ a)]

/-- A rotation by a billionth of a radian comes back to within 3e-22 radians. -/
example : ∃ m w', ExpSO3 ![1e-9, 0, 0] m ∧ LogSO3 m w' ∧ eucNorm (realVec w' - realVec ![1e-9, 0, 0]) ≤ 3e-22 := by
  obtain ⟨m, hm⟩ := expSO3_some ![1e-9, 0, 0]
  obtain ⟨w', hw⟩ := logSO3_some m
  have e := len_x 1e-9 (by norm_num)
  refine ⟨m, w', hm, hw, (c120_rotation ?_ ?_ hm hw).trans ?_⟩ <;> rw [e] <;> norm_num

/-- C120, rigid motions: both parts of a tangent vector come back with a small relative error, each relative to itself. -/
theorem c120_motion {w v w' v' : Fin 3 → ℚ} (h1 : 2 ^ (-50 : ℤ) ≤ eucNorm (realVec w)) (h2 : eucNorm (realVec w) ≤ 1.75) (h : ExpThenLog w v w' v') :
    eucNorm (realVec w' - realVec w) ≤ 2280 * 2 ^ (-53 : ℤ) * eucNorm (realVec w) ∧
    eucNorm (realVec v' - realVec v) ≤ 7450 * 2 ^ (-53 : ℤ) * eucNorm (realVec v) + 1000 * 2 ^ (-1075 : ℤ) :=
  trip_rel (two_pow_50 ▸ h1) h2 h

/-- A billionth of a radian together with a kilometre: the rotation does not drown in the translation. -/
example : ∃ w' v', ExpThenLog ![1e-9, 0, 0] ![1000, 0, 0] w' v' ∧ eucNorm (realVec w' - realVec ![1e-9, 0, 0]) ≤ 3e-22 ∧
    eucNorm (realVec v' - realVec ![1000, 0, 0]) ≤ 9e-10 := by
  obtain ⟨w', v', h⟩ := trip_some ![1e-9, 0, 0] ![1000, 0, 0]
  have e := len_x 1e-9 (by norm_num)
  have e' := len_x 1000 (by norm_num)
  obtain ⟨a, b⟩ := c120_motion (by rw [e]; norm_num) (by rw [e]; norm_num) h
  rw [e] at a
  rw [e'] at b
  refine ⟨w', v', h, a.trans (by norm_num), b.trans ?_⟩
  change _ + 1000 * TransformDouble.H ≤ _
  have := tiny_numbers.2
  norm_num
  linarith

/-- C120, next to no rotation: the rotation vector comes back to within 3750 roundings of one radian, the translation part as before. -/
theorem c120_tiny {w v w' v' : Fin 3 → ℚ} (h1 : eucNorm (realVec w) ≤ 2 ^ (-50 : ℤ)) (h : ExpThenLog w v w' v') :
    eucNorm (realVec w' - realVec w) ≤ 3750 * 2 ^ (-53 : ℤ) ∧
    eucNorm (realVec v' - realVec v) ≤ 7450 * 2 ^ (-53 : ℤ) * eucNorm (realVec v) + 1000 * 2 ^ (-1075 : ℤ) :=
  trip_tiny (two_pow_50 ▸ h1) h

/-- A rotation by 1e-100 radians with a translation of one metre. -/
example : ∃ w' v', ExpThenLog ![1e-100, 0, 0] ![1, 0, 0] w' v' ∧ eucNorm (realVec v' - realVec ![1, 0, 0]) ≤ 9e-13 := by
  obtain ⟨w', v', h⟩ := trip_some ![1e-100, 0, 0] ![1, 0, 0]
  have e := len_x 1e-100 (by norm_num)
  have e' := len_x 1 (by norm_num)
  have b := (c120_tiny (by rw [e]; norm_num) h).2
  rw [e'] at b
  refine ⟨w', v', h, b.trans ?_⟩
  change _ + 1000 * TransformDouble.H ≤ _
  have := tiny_numbers.2
  norm_num
  linarith

/-- C120, approximate equality: the tangent vector is reported approximately equal to the logarithm of its exponential. -/
theorem c120_approx {w v w' v' : Fin 3 → ℚ} (h2 : eucNorm (realVec w) ≤ 1.75) (h1 : 2 ^ (-50 : ℤ) ≤ eucNorm (realVec w) ∨ 1 ≤ eucNorm (realVec v))
    (h : ExpThenLog w v w' v') {r : Bool} (hr : ApproxOf (ApproxDouble.six (w, v)) (ApproxDouble.six (w', v')) r) : r = true :=
  trip_agrees h2 (two_pow_50 ▸ h1) h hr

/-- A rotation by one radian about the x axis and no translation. -/
example (w' v' : Fin 3 → ℚ) (h : ExpThenLog ![1, 0, 0] 0 w' v') (r : Bool) (hr : ApproxOf (ApproxDouble.six (![1, 0, 0], 0)) (ApproxDouble.six (w', v')) r) : r = true := by
  have e := len_x 1 (by norm_num)
  exact c120_approx (by rw [e]; norm_num) (.inl (by rw [e]; norm_num)) h hr

/-- C120, as in the guide: a tangent vector with entries between -1 and 1, where the rotation part has an entry of at least 2^-50 or the translation part one
of 1 in absolute value. -/
theorem c120_guide {w v w' v' : Fin 3 → ℚ} (hw : ∀ i, |w i| ≤ 1) (h1 : (∃ i, 2 ^ (-50 : ℤ) ≤ |w i|) ∨ ∃ i, 1 ≤ |v i|) (h : ExpThenLog w v w' v') {r : Bool}
    (hr : ApproxOf (ApproxDouble.six (w, v)) (ApproxDouble.six (w', v')) r) : r = true := by
  refine c120_approx ?_ ?_ h hr
  · refine Real.sqrt_le_iff.mpr ⟨by norm_num, ?_⟩
    rw [sqNorm_eq]
    have k : ∀ i, (realVec w i) ^ 2 ≤ 1 := fun i => by
      have : |(w i : ℝ)| ≤ 1 := by exact_mod_cast hw i
      exact (sq_le_one_iff_abs_le_one _).mpr this
    have := k 0; have := k 1; have := k 2
    norm_num
    linarith
  · rcases h1 with ⟨i, hi⟩ | ⟨i, hi⟩
    · refine .inl (le_trans ?_ (abs_entry_le (realVec w) i))
      have : (((2 : ℚ) ^ (-50 : ℤ) : ℚ) : ℝ) ≤ ((|w i| : ℚ) : ℝ) := by exact_mod_cast hi
      rw [Rat.cast_zpow, Rat.cast_abs, Rat.cast_ofNat] at this
      exact this
    · refine .inr (le_trans ?_ (abs_entry_le (realVec v) i))
      have : ((1 : ℚ) : ℝ) ≤ ((|v i| : ℚ) : ℝ) := by exact_mod_cast hi
      rw [Rat.cast_one, Rat.cast_abs] at this
      exact this

/-- One draw of the guide. -/
example (w' v' : Fin 3 → ℚ) (h : ExpThenLog ![1 / 2, -1, 3 / 4] ![-1 / 8, 1 / 16, 7 / 8] w' v') (r : Bool)
    (hr : ApproxOf (ApproxDouble.six (![1 / 2, -1, 3 / 4], ![-1 / 8, 1 / 16, 7 / 8])) (ApproxDouble.six (w', v')) r) : r = true := by
  refine c120_guide (fun i => ?_) (.inl ⟨1, ?_⟩) h hr
  · fin_cases i <;> norm_num [abs_of_pos]
  · norm_num

/-- C120, the computations have results. -/
theorem c120_computed (w v : Fin 3 → ℚ) : ∃ w' v' r, ExpThenLog w v w' v' ∧ ApproxOf (ApproxDouble.six (w, v)) (ApproxDouble.six (w', v')) r := by
  obtain ⟨w', v', h⟩ := trip_some w v
  obtain ⟨r, hr⟩ := approx_some (ApproxDouble.six (w, v)) (ApproxDouble.six (w', v'))
  exact ⟨w', v', r, h, hr⟩

end Verif.Props
