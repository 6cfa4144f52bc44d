import Verif.Model.TripDouble
import Verif.Proofs.GuideDouble
import Verif.Proofs.Difference
import Verif.Props.ApproxDouble
import Mathlib.Analysis.InnerProductSpace.PiL2
/-! # Exponential and then logarithm in doubles: small rotations keep their relative precision -/
namespace Verif.TripDouble
open SampleIntervalDouble TransformDouble ExpDouble LogDouble ApproxDouble GuideDouble Verif.Spec Matrix SO3

/-- The difference of two mirrored entries of a computed rotation. -/
theorem skew_err {k b s n m1 m2 : ℚ} {θ S N : ℝ} (h8 : 8 * U ≤ θ) (hk : |(k : ℝ)| ≤ 2 * θ) (hb : |(b : ℝ)| ≤ 1.0001) (hs : |(s : ℝ) - S| ≤ 4.6 * (U * θ)) (hS : |S| ≤ θ)
    (hn : |(n : ℝ) - N| ≤ 3.6 * U) (hN : |N| ≤ 1) (h1 : Evaluates ![k, s] ![b, n] Finset.univ m1) (h2 : Evaluates ![k, -s] ![b, n] Finset.univ m2) :
    |((m1 - m2 : ℚ) : ℝ) - 2 * S * N| ≤ 29 * (U * θ) := by
  have hU := U_pos; have hU1 := U_tiny.1; have hU2 := U_tiny.2; have hH := tiny_numbers.2; have hH0 := H_pos
  have hθ : 0 < θ := by linarith
  have e0 : 8e-32 ≤ U * θ := by nlinarith
  have e1 := eval2 h1
  have e2 := eval2 h2
  push_cast at e2 ⊢
  have s1 : |(s : ℝ)| ≤ 1.001 * θ := by
    have := abs_le_of_near (s : ℝ) S
    have : U * θ ≤ 1.2e-16 * θ := mul_le_mul_of_nonneg_right hU1 hθ.le
    linarith
  have n1 : |(n : ℝ)| ≤ 1.0001 := by
    have := abs_le_of_near (n : ℝ) N
    linarith
  have kb : |(k : ℝ) * b| ≤ 2.001 * θ := by
    rw [abs_mul]
    have := mul_le_mul hk hb (abs_nonneg _) (by linarith)
    linarith
  have sn : |(s : ℝ) * n| ≤ 1.002 * θ := by
    rw [abs_mul]
    have := mul_le_mul s1 n1 (abs_nonneg _) (by linarith)
    linarith
  have sn' : |-(s : ℝ) * n| ≤ 1.002 * θ := by rw [neg_mul, abs_neg]; exact sn
  have f1 : |(m1 : ℝ) - (k * b + s * n)| ≤ 6.02 * (U * θ) := by
    have := mul_le_mul_of_nonneg_left (add_le_add kb sn) (by positivity : 0 ≤ 2.001 * U)
    linarith
  have f2 : |(m2 : ℝ) - (k * b + -s * n)| ≤ 6.02 * (U * θ) := by
    have := mul_le_mul_of_nonneg_left (add_le_add kb sn') (by positivity : 0 ≤ 2.001 * U)
    linarith
  have p := prod_err hs hn s1 hN
  have p2 : 1.001 * θ * (3.6 * U) + 4.6 * (U * θ) * 1 ≤ 8.21 * (U * θ) := by linarith
  have p3 := abs_le.mp (p.trans p2)
  have f1' := abs_le.mp f1
  have f2' := abs_le.mp f2
  rw [abs_le]
  constructor <;> linarith

/-- The computed rotation by a small angle: the differences of mirrored entries are relatively precise. -/
theorem skews {w : Fin 3 → ℚ} {m : Matrix (Fin 3) (Fin 3) ℚ} (h : ExpSO3 w m) {θ : ℝ} (hθ : θ = eucNorm (realVec w)) (h8 : 8 * U ≤ θ) (h2 : θ ≤ 1.75) :
    |((m 2 1 - m 1 2 : ℚ) : ℝ) - 2 * Real.sin θ * (w 0 / θ)| ≤ 29 * (U * θ) ∧ |((m 0 2 - m 2 0 : ℚ) : ℝ) - 2 * Real.sin θ * (w 1 / θ)| ≤ 29 * (U * θ) ∧
    |((m 1 0 - m 0 1 : ℚ) : ℝ) - 2 * Real.sin θ * (w 2 / θ)| ≤ 29 * (U * θ) := by
  have hU := U_pos; have hU1 := U_tiny.1; have hU2 := U_tiny.2; have hH := tiny_numbers.2; have hH0 := H_pos
  have hp : 0 < θ := by linarith
  have h500 : (2 : ℝ) ^ (-500 : ℤ) ≤ θ := tiny_numbers.1.trans (by linarith)
  obtain ⟨angle, n, h1, hn, s, c, hs, hc, k, hk, -, h01, h10, h02, h20, h12, h21⟩ := h
  have ha := norm_err h1 (hθ ▸ h500)
  have hn' := fun i => normalized_err hn (hθ ▸ h500) i
  rw [← hθ] at ha hn'
  have hN : ∀ i, |(w i : ℝ) / θ| ≤ 1 := fun i => by
    rw [abs_div, abs_of_pos hp]; exact (div_le_one hp).mpr (hθ ▸ abs_entry_le (realVec w) i)
  have n1 : ∀ i, |(n i : ℝ)| ≤ 1.0001 := fun i => by
    have := abs_le_of_near (n i : ℝ) (w i / θ)
    linarith [hn' i, hN i]
  have Uθ : U * θ ≤ 1.2e-16 * θ := mul_le_mul_of_nonneg_right hU1 hp.le
  have e0 : 8e-32 ≤ U * θ := by nlinarith
  have hS : |Real.sin θ| ≤ θ := by have := Real.abs_sin_le_abs (x := θ); rwa [abs_of_pos hp] at this
  have hs1 : |(s : ℝ) - Real.sin θ| ≤ 4.6 * (U * θ) := by
    unfold SinOf at hs
    rw [two_U] at hs
    have a1 := (sin_lip angle θ).trans ha
    have a2 := abs_le_of_near (Real.sin (angle : ℝ)) (Real.sin θ)
    have a3 : |Real.sin (angle : ℝ)| ≤ 1.001 * θ := by linarith
    have a4 := mul_le_mul_of_nonneg_left a3 (by positivity : 0 ≤ 2 * U)
    have e : (s : ℝ) - Real.sin θ = (s - Real.sin angle) + (Real.sin angle - Real.sin θ) := by ring
    rw [e]
    exact (abs_add_le _ _).trans (by linarith)
  have hc1 : |(c : ℝ) - Real.cos θ| ≤ 6.5 * U := by
    have := (trig_err hs hc ha).2.1
    have := mul_le_mul_of_nonneg_right h2 hU.le
    linarith
  have hk1 : ∀ i, |(k i : ℝ)| ≤ 2 * θ := fun i => by
    have o1 : |(1 : ℝ) - c| ≤ 1.876 * θ := by
      have c1 := Real.one_sub_sq_div_two_le_cos (x := θ)
      have c2 := Real.cos_le_one θ
      have c3 := abs_le.mp hc1
      have c4 : θ ^ 2 ≤ 1.75 * θ := by nlinarith
      rw [abs_le]; constructor <;> linarith
    have o2 := rnd (1 - c)
    push_cast at o2
    have o3 := mul_le_mul_of_nonneg_left o1 hU.le
    have o4 : |((round64 (1 - c) : ℚ) : ℝ)| ≤ 1.877 * θ := by
      have := abs_le_of_near ((round64 (1 - c) : ℚ) : ℝ) (1 - c)
      linarith
    have o5 : |((round64 (1 - c) : ℚ) : ℝ) * n i| ≤ 1.878 * θ := by
      rw [abs_mul]
      have := mul_le_mul o4 (n1 i) (abs_nonneg _) (by linarith)
      linarith
    have o6 := rnd (round64 (1 - c) * n i)
    rw [← hk i] at o6
    push_cast at o6
    have o7 := mul_le_mul_of_nonneg_left o5 hU.le
    have := abs_le_of_near (k i : ℝ) (((round64 (1 - c) : ℚ) : ℝ) * n i)
    linarith
  exact ⟨skew_err h8 (hk1 1) (n1 2) hs1 hS (hn' 0) (hN 0) h21 h12, skew_err h8 (hk1 0) (n1 2) hs1 hS (hn' 1) (hN 1) h02 h20,
    skew_err h8 (hk1 0) (n1 1) hs1 hS (hn' 2) (hN 2) h10 h01⟩

/-- Its trace. -/
theorem trace_near {w : Fin 3 → ℚ} {m : Matrix (Fin 3) (Fin 3) ℚ} (h : ExpSO3 w m) {θ : ℝ} (hθ : θ = eucNorm (realVec w)) (h8 : 8 * U ≤ θ) (h2 : θ ≤ 1.75) {tr : ℚ}
    (ht : Evaluates ![1, 1, 1] ![m 0 0, m 1 1, m 2 2] Finset.univ tr) :
    |((round64 (tr + 1) : ℚ) : ℝ) - (2 + 2 * Real.cos θ)| ≤ 146 * U ∧ 0 < tr := by
  have hU := U_pos; have hU1 := U_tiny.1; have hU2 := U_tiny.2; have hH := H_tiny; have hH0 := H_pos
  have h500 : (2 : ℝ) ^ (-500 : ℤ) ≤ θ := tiny_numbers.1.trans (by linarith)
  have d := fun i => expSO3_large h (hθ ▸ h500) i i
  have t := trace_exp (realVec w)
  rw [← hθ] at d t
  have dU := mul_le_mul_of_nonneg_right h2 hU.le
  have d0 := abs_le.mp ((d 0).trans (by linarith : _ ≤ 43.5 * U))
  have d1 := abs_le.mp ((d 1).trans (by linarith : _ ≤ 43.5 * U))
  have d2 := abs_le.mp ((d 2).trans (by linarith : _ ≤ 43.5 * U))
  have one := fun i => abs_le.mp (rotation_entry (isRotation_exp (realVec w)) i i)
  have big : ∀ i, |(m i i : ℝ)| ≤ 1.001 := fun i => by
    have := abs_le_of_near (m i i : ℝ) (SO3.exp (realVec w) i i)
    have := rotation_entry (isRotation_exp (realVec w)) i i
    linarith [d i]
  have e := eval3 ht
  push_cast at e
  simp only [one_mul] at e
  have b := mul_le_mul_of_nonneg_left (add_le_add (add_le_add (big 0) (big 1)) (big 2)) hU.le
  have e1 := abs_le.mp (e.trans (by linarith : _ ≤ 9.1 * U))
  have cl : -0.18 ≤ Real.cos θ := by
    have h := cos_lip (Real.pi / 2) θ
    rw [Real.cos_pi_div_two, zero_sub, abs_neg] at h
    rcases le_total θ (Real.pi / 2) with hl | hl
    · have := Real.cos_nonneg_of_mem_Icc ⟨by linarith [Real.pi_pos], hl⟩
      linarith
    · have e : |Real.pi / 2 - θ| = θ - Real.pi / 2 := by rw [abs_sub_comm, abs_of_nonneg (by linarith)]
      rw [e] at h
      have := Real.pi_gt_d2
      linarith [(abs_le.mp h).1]
  have cu := Real.cos_le_one θ
  constructor
  · have r := rnd (tr + 1)
    push_cast at r
    have b : |(tr : ℝ) + 1| ≤ 4.1 := by rw [abs_le]; constructor <;> linarith
    have b2 := mul_le_mul_of_nonneg_left b hU.le
    have r2 := abs_le.mp (r.trans (by linarith : _ ≤ 4.2 * U))
    rw [abs_le]; constructor <;> linarith
  · have : (0 : ℝ) < tr := by linarith
    exact_mod_cast this

/-- One entry of the vector part of the quaternion. -/
theorem part_rel {d r : ℚ} {θ D ρ : ℝ} (h8 : 8 * U ≤ θ) (hd : |((d : ℚ) : ℝ) - D| ≤ 29 * (U * θ)) (hD : |D| ≤ 2 * θ) (hr : |(r : ℝ) - ρ| ≤ 42.5 * U) (hρ0 : 0 ≤ ρ)
    (hρ : ρ ≤ 0.41) : |((round64 (round64 d * r) : ℚ) : ℝ) - D * ρ| ≤ 99 * (U * θ) := by
  have hU := U_pos; have hU1 := U_tiny.1; have hU2 := U_tiny.2; have hH := tiny_numbers.2; have hH0 := H_pos
  have hp : 0 < θ := by linarith
  have Uθ : U * θ ≤ 1.2e-16 * θ := mul_le_mul_of_nonneg_right hU1 hp.le
  have e0 : 8e-32 ≤ U * θ := by nlinarith
  have d1 : |(d : ℝ)| ≤ 2.0001 * θ := by linarith [abs_le_of_near (d : ℝ) D]
  have r1 := rnd d
  have r2 := mul_le_mul_of_nonneg_left d1 hU.le
  have r3 : |((round64 d : ℚ) : ℝ) - D| ≤ 31.01 * (U * θ) := by
    have e : ((round64 d : ℚ) : ℝ) - D = (((round64 d : ℚ) : ℝ) - d) + (d - D) := by ring
    rw [e]; exact (abs_add_le _ _).trans (by linarith)
  have r4 : |((round64 d : ℚ) : ℝ)| ≤ 2.001 * θ := by linarith [abs_le_of_near ((round64 d : ℚ) : ℝ) D]
  have p := prod_err r3 hr r4 ((abs_of_nonneg hρ0).trans_le hρ)
  have q1 : |(r : ℝ)| ≤ 0.411 := by
    have := abs_le_of_near (r : ℝ) ρ
    rw [abs_of_nonneg hρ0] at this
    linarith
  have q2 : |((round64 d : ℚ) : ℝ) * r| ≤ 0.83 * θ := by
    rw [abs_mul]
    have := mul_le_mul r4 q1 (abs_nonneg _) (by linarith)
    linarith
  have q3 := rnd (round64 d * r)
  push_cast at q3
  have q4 := mul_le_mul_of_nonneg_left q2 hU.le
  have e : ((round64 (round64 d * r) : ℚ) : ℝ) - D * ρ = (((round64 (round64 d * r) : ℚ) : ℝ) - ((round64 d : ℚ) : ℝ) * r) + (((round64 d : ℚ) : ℝ) * r - D * ρ) := by ring
  rw [e]
  exact (abs_add_le _ _).trans (by linarith)

/-- Sine and cosine of half the angle. -/
theorem half_angle {θ : ℝ} (h0 : 0 < θ) (h2 : θ ≤ 1.75) :
    0.617 ≤ Real.cos (θ / 2) ∧ 0.436 * θ ≤ Real.sin (θ / 2) ∧ Real.sin (θ / 2) ≤ θ / 2 ∧ 2 + 2 * Real.cos θ = (2 * Real.cos (θ / 2)) ^ 2 ∧
    Real.sin θ = 2 * Real.sin (θ / 2) * Real.cos (θ / 2) := by
  have x0 : 0 < θ / 2 := by linarith
  have x2 : (θ / 2) ^ 2 ≤ 0.765625 := by nlinarith
  refine ⟨?_, ?_, (Real.sin_lt x0).le, ?_, ?_⟩
  · have := Real.one_sub_sq_div_two_le_cos (x := θ / 2)
    linarith
  · have := Real.sin_gt_sub_cube x0
    nlinarith
  · have := Real.cos_two_mul (θ / 2)
    rw [show 2 * (θ / 2) = θ by ring] at this
    rw [this]; ring
  · have := Real.sin_two_mul (θ / 2)
    rwa [show 2 * (θ / 2) = θ by ring] at this

/-- The quaternion of a computed rotation by a small angle. -/
theorem quat_rel {w : Fin 3 → ℚ} {m : Matrix (Fin 3) (Fin 3) ℚ} (h : ExpSO3 w m) {θ : ℝ} (hθ : θ = eucNorm (realVec w)) (h8 : 8 * U ≤ θ) (h2 : θ ≤ 1.75) {q : Quat64}
    (hq : QuatOf m q) :
    |(q.w : ℝ) - Real.cos (θ / 2)| ≤ 41 * U ∧ ∀ i, |(q.v i : ℝ) - Real.sin (θ / 2) * (w i / θ)| ≤ 99 * (U * θ) := by
  have hU := U_pos; have hU1 := U_tiny.1
  have hp : 0 < θ := by linarith
  obtain ⟨tr, ht, hq⟩ := hq
  obtain ⟨t1, t2⟩ := trace_near h hθ h8 h2 ht
  rw [if_pos t2] at hq
  obtain ⟨t, hst, rfl⟩ := hq
  obtain ⟨c1, s1, s2, e1, e2⟩ := half_angle hp h2
  have cu := Real.cos_le_one (θ / 2)
  obtain ⟨f1, f2, -⟩ := half_err (τ := 2 * Real.cos (θ / 2)) (by linarith) e1.symm (by rw [e1]; nlinarith) (by rw [e1]; nlinarith) t1 (by linarith) hst
  have hρ : 1 / 2 / (2 * Real.cos (θ / 2)) ≤ 0.41 := by rw [div_le_iff₀ (by linarith)]; linarith
  have hρ0 : 0 ≤ 1 / 2 / (2 * Real.cos (θ / 2)) := by have : 0 < Real.cos (θ / 2) := by linarith
                                                      positivity
  obtain ⟨k0, k1, k2⟩ := skews h hθ h8 h2
  have hS : |Real.sin θ| ≤ θ := by have := Real.abs_sin_le_abs (x := θ); rwa [abs_of_pos hp] at this
  have hD : ∀ i, |2 * Real.sin θ * ((w i : ℝ) / θ)| ≤ 2 * θ := fun i => by
    have hN : |(w i : ℝ) / θ| ≤ 1 := by
      rw [abs_div, abs_of_pos hp]; exact (div_le_one hp).mpr (hθ ▸ abs_entry_le (realVec w) i)
    rw [abs_mul, abs_mul, abs_of_pos (by norm_num : (0 : ℝ) < 2)]
    have := mul_le_mul (mul_le_mul_of_nonneg_left hS (by norm_num : (0 : ℝ) ≤ 2)) hN (abs_nonneg _) (by linarith)
    linarith
  have e3 : ∀ i, 2 * Real.sin θ * ((w i : ℝ) / θ) * (1 / 2 / (2 * Real.cos (θ / 2))) = Real.sin (θ / 2) * (w i / θ) := fun i => by
    have : Real.cos (θ / 2) ≠ 0 := by linarith
    rw [e2]; field_simp
  have f2' := f2.trans (by linarith : _ ≤ 42.5 * U)
  rw [show 1 / 2 * (2 * Real.cos (θ / 2)) = Real.cos (θ / 2) by ring] at f1
  refine ⟨f1.trans (by linarith), fun i => ?_⟩
  rw [← e3 i]
  fin_cases i
  · exact part_rel h8 k0 (hD 0) f2' hρ0 hρ
  · exact part_rel h8 k1 (hD 1) f2' hρ0 hρ
  · exact part_rel h8 k2 (hD 2) f2' hρ0 hρ

/-- The angle of a point near one on the unit circle. -/
theorem arg_rel {x r θ : ℝ} (h8 : 8 * U ≤ θ) (h2 : θ ≤ 1.75) (hx : |x - Real.cos (θ / 2)| ≤ 41 * U) (hr : |r - Real.sin (θ / 2)| ≤ 200 * (U * θ)) :
    |2 * Complex.arg ⟨x, r⟩ - θ| ≤ 448 * (U * θ) := by
  have hU := U_pos; have hU1 := U_tiny.1
  have hp : 0 < θ := by linarith
  have Uθ : U * θ ≤ 1.2e-16 * θ := mul_le_mul_of_nonneg_right hU1 hp.le
  obtain ⟨c1, s1, s2, -, -⟩ := half_angle hp h2
  have cu := Real.cos_le_one (θ / 2)
  have hx' := abs_le.mp hx
  have hr' := abs_le.mp hr
  have hx0 : 0 ≤ x := by linarith
  have hr0 : 0 < r := by linarith
  obtain ⟨g, g0, g1, gc, gs⟩ := arg_first hx0 hr0
  generalize Complex.arg ⟨x, r⟩ = φ at *
  have hρ : 0.99 ≤ Real.sqrt (x ^ 2 + r ^ 2) := by
    refine Real.le_sqrt_of_sq_le ?_
    have := Real.sin_sq_add_cos_sq (θ / 2)
    have a1 : (0.999 * Real.cos (θ / 2)) ^ 2 ≤ x ^ 2 := pow_le_pow_left₀ (by linarith) (by linarith) 2
    have a2 : (0.999 * Real.sin (θ / 2)) ^ 2 ≤ r ^ 2 := pow_le_pow_left₀ (by linarith) (by linarith) 2
    nlinarith
  have key : Real.sin (φ - θ / 2) = ((r - Real.sin (θ / 2)) * Real.cos (θ / 2) - (x - Real.cos (θ / 2)) * Real.sin (θ / 2)) / Real.sqrt (x ^ 2 + r ^ 2) := by
    rw [Real.sin_sub, gc, gs]; field_simp; ring
  have b : |Real.sin (φ - θ / 2)| ≤ 223 * (U * θ) := by
    rw [key, abs_div, abs_of_pos g, div_le_iff₀ g]
    rw [sub_eq_add_neg]
    refine (abs_add_le _ _).trans ?_
    rw [abs_neg, abs_mul, abs_mul, abs_of_pos (by linarith : 0 < Real.cos (θ / 2)), abs_of_pos (by linarith : 0 < Real.sin (θ / 2))]
    have b1 := mul_le_mul hr cu (by linarith) (by positivity)
    have b2 := mul_le_mul hx s2 (by linarith) (by positivity)
    have b3 := mul_le_mul_of_nonneg_left hρ (by positivity : 0 ≤ 223 * (U * θ))
    linarith
  have hpi := Real.pi_lt_d2
  have hpi0 := Real.pi_gt_d2
  have y1 : |φ - θ / 2| ≤ Real.pi / 2 := by rw [abs_le]; constructor <;> linarith
  have y2 := Real.mul_abs_le_abs_sin y1
  rw [Real.abs_sin_eq_sin_abs_of_abs_le_pi (by linarith)] at b y2
  have e : |2 * φ - θ| = 2 * |φ - θ / 2| := by
    rw [show 2 * φ - θ = 2 * (φ - θ / 2) by ring, abs_mul, abs_of_pos (by norm_num : (0 : ℝ) < 2)]
  rw [e]
  have y0 := abs_nonneg (φ - θ / 2)
  generalize |φ - θ / 2| = y at *
  have y3 : y ≤ 1e-10 := by
    have h1 : y = Real.pi / 2 * (2 / Real.pi * y) := by field_simp
    rw [h1]
    have h2 := mul_le_mul_of_nonneg_left (y2.trans b) (by positivity : 0 ≤ Real.pi / 2)
    have h3 : Real.pi / 2 * (223 * (U * θ)) ≤ 2 * (223 * (U * θ)) := mul_le_mul_of_nonneg_right (by linarith) (by positivity)
    linarith
  rcases y0.eq_or_lt with h | h
  · rw [← h, mul_zero]; positivity
  · have y4 := Real.sin_gt_sub_cube h
    have y5 : y ^ 3 ≤ 1e-10 * y := by
      have : y ^ 2 ≤ 1e-10 := by nlinarith
      have := mul_le_mul_of_nonneg_right this h.le
      nlinarith
    linarith

/-- The rotation vector of the computed quaternion. -/
theorem vector_rel {q : Quat64} {r a : ℚ} {axis : Fin 3 → ℚ} {w' : Fin 3 → ℚ} {θ S : ℝ} {N : V3} (h8 : 8 * U ≤ θ) (hN : ∀ i, |N i| ≤ 1)
    (hv : ∀ i, |(q.v i : ℝ) - S * N i| ≤ 99 * (U * θ)) (hr : |(r : ℝ) - S| ≤ 200 * (U * θ)) (hS : 0.436 * θ ≤ S) (hvr : ∀ i, |(q.v i : ℝ)| ≤ 1.0001 * r) {φ : ℝ}
    (h0 : 0 ≤ φ) (hφ : |2 * φ - θ| ≤ 448 * (U * θ)) (ha : |(a : ℝ) - φ| ≤ 2 * U * φ + 2 * H) (hax : ∀ i, axis i = round64 (q.v i / r))
    (hw : ∀ i, w' i = round64 (axis i * (2 * a))) (i : Fin 3) : |(w' i : ℝ) - θ * N i| ≤ 1140 * (U * θ) := by
  have hU := U_pos; have hU1 := U_tiny.1; have hU2 := U_tiny.2; have hH := tiny_numbers.2; have hH0 := H_pos
  have hp : 0 < θ := by linarith
  have Uθ : U * θ ≤ 1.2e-16 * θ := mul_le_mul_of_nonneg_right hU1 hp.le
  have e0 : 8e-32 ≤ U * θ := by nlinarith
  have hr' := abs_le.mp hr
  have rl : 0.4359 * θ ≤ (r : ℝ) := by linarith
  have rp : (0 : ℝ) < r := by linarith
  have hφ' := abs_le.mp hφ
  have φu : 2 * φ ≤ 1.0001 * θ := by linarith
  have q1 : |(q.v i : ℝ) / r| ≤ 1.0001 := by rw [abs_div, abs_of_pos rp, div_le_iff₀ rp]; exact hvr i
  -- the rounded axis and angle
  have x1 := rnd (q.v i / r)
  rw [← hax i] at x1
  push_cast at x1
  have x2 := mul_le_mul_of_nonneg_left q1 hU.le
  have hHU : H ≤ 1e-20 * U := by linarith
  have x3 : |(axis i : ℝ) - q.v i / r| ≤ 1.001 * U := by linarith
  have x4 : |(axis i : ℝ)| ≤ 1.001 := by linarith [abs_le_of_near (axis i : ℝ) (q.v i / r)]
  have a1 : |2 * (a : ℝ) - 2 * φ| ≤ 2.001 * (U * θ) := by
    rw [← mul_sub, abs_mul, abs_of_pos (by norm_num : (0 : ℝ) < 2)]
    have := mul_le_mul_of_nonneg_left φu hU.le
    linarith
  have p := prod_err x3 a1 x4 (by rw [abs_of_nonneg (by linarith)]; exact φu : |2 * φ| ≤ 1.0001 * θ)
  have a2 : |2 * (a : ℝ)| ≤ 1.001 * θ := by
    have := abs_le_of_near (2 * (a : ℝ)) (2 * φ)
    rw [abs_of_nonneg (by linarith : 0 ≤ 2 * φ)] at this
    linarith
  have b : |(axis i : ℝ) * (2 * a)| ≤ 1.003 * θ := by
    rw [abs_mul]
    have := mul_le_mul x4 a2 (abs_nonneg _) (by norm_num)
    linarith
  have x5 := rnd (axis i * (2 * a))
  rw [← hw i] at x5
  push_cast at x5
  have x6 := mul_le_mul_of_nonneg_left b hU.le
  have s1 : |(w' i : ℝ) - q.v i / r * (2 * φ)| ≤ 5 * (U * θ) := by
    have e : (w' i : ℝ) - q.v i / r * (2 * φ) = (w' i - axis i * (2 * a)) + (axis i * (2 * a) - q.v i / r * (2 * φ)) := by ring
    rw [e]
    exact (abs_add_le _ _).trans (by linarith)
  -- against the exact vector
  have s2 : |(q.v i : ℝ) / r * (2 * φ - θ)| ≤ 448.1 * (U * θ) := by
    rw [abs_mul]
    have := mul_le_mul q1 hφ (abs_nonneg _) (by norm_num)
    linarith
  have s3 : |θ * ((q.v i - r * N i) / r)| ≤ 686.5 * (U * θ) := by
    rw [abs_mul, abs_of_pos hp, abs_div, abs_of_pos rp, ← mul_div_assoc, div_le_iff₀ rp]
    have n1 : |(q.v i : ℝ) - r * N i| ≤ 299 * (U * θ) := by
      have e : (q.v i : ℝ) - r * N i = (q.v i - S * N i) - (r - S) * N i := by ring
      rw [e, sub_eq_add_neg]
      refine (abs_add_le _ _).trans ?_
      rw [abs_neg, abs_mul]
      have := mul_le_mul hr (hN i) (abs_nonneg _) (by positivity)
      linarith [hv i]
    have n2 := mul_le_mul_of_nonneg_left n1 hp.le
    have n3 := mul_le_mul_of_nonneg_left rl (by positivity : 0 ≤ 686.5 * (U * θ))
    have n4 : 0 ≤ U * θ * θ := by positivity
    linarith
  have e : (w' i : ℝ) - θ * N i = (w' i - q.v i / r * (2 * φ)) + (q.v i / r * (2 * φ - θ) + θ * ((q.v i - r * N i) / r)) := by
    field_simp; ring
  rw [e]
  exact (abs_add_le _ _).trans ((add_le_add s1 ((abs_add_le _ _).trans (add_le_add s2 s3))).trans (by linarith))

/-- The computed logarithm of the computed exponential of a small rotation vector is relatively precise. -/
theorem log_rel {w w' : Fin 3 → ℚ} {m : Matrix (Fin 3) (Fin 3) ℚ} (h8 : 8 * U ≤ eucNorm (realVec w)) (h2 : eucNorm (realVec w) ≤ 1.75) (he : ExpSO3 w m) (h : LogSO3 m w') :
    eucNorm (realVec w' - realVec w) ≤ 2280 * U * eucNorm (realVec w) := by
  have hU := U_pos; have hU1 := U_tiny.1; have hU2 := U_tiny.2
  obtain ⟨θ, hθ⟩ : ∃ θ, θ = eucNorm (realVec w) := ⟨_, rfl⟩
  obtain ⟨q, angle, axis, hq, ⟨r, n, hr, hn, hA⟩, hw⟩ := h
  rw [← hθ] at h8 h2 ⊢
  have hp : 0 < θ := by linarith
  have Uθ : U * θ ≤ 1.2e-16 * θ := mul_le_mul_of_nonneg_right hU1 hp.le
  obtain ⟨qw, qv⟩ := quat_rel he hθ h8 h2 hq
  obtain ⟨c1, s1, s2, -, -⟩ := half_angle hp h2
  obtain ⟨N, hN⟩ : ∃ N : V3, N = fun i => (w i : ℝ) / θ := ⟨_, rfl⟩
  have qv' : ∀ i, |(q.v i : ℝ) - Real.sin (θ / 2) * N i| ≤ 99 * (U * θ) := by rw [hN]; exact qv
  have eN : realVec w = θ • N := by
    rw [hN]; ext i
    change (w i : ℝ) = θ * (w i / θ)
    field_simp
  have nN : eucNorm N = 1 := by
    have := eucNorm_smul θ N
    rw [← eN, ← hθ, abs_of_pos hp] at this
    have : θ * eucNorm N = θ * 1 := by linarith
    exact mul_left_cancel₀ hp.ne' this
  have N1 : ∀ i, |N i| ≤ 1 := fun i => nN ▸ abs_entry_le N i
  -- the norm of the vector part
  have d1 : eucNorm (realVec q.v - Real.sin (θ / 2) • N) ≤ 2 * (99 * (U * θ)) := eucNorm_le_of_entries qv'
  have nS : eucNorm (Real.sin (θ / 2) • N) = Real.sin (θ / 2) := by rw [eucNorm_smul, nN, mul_one, abs_of_pos (by linarith)]
  have d2 := eucNorm_le_add (realVec q.v) (Real.sin (θ / 2) • N)
  have d3 := eucNorm_le_add (Real.sin (θ / 2) • N) (realVec q.v)
  rw [show eucNorm (Real.sin (θ / 2) • N - realVec q.v) = eucNorm (realVec q.v - Real.sin (θ / 2) • N) by rw [← eucNorm_neg, neg_sub], nS] at d3
  rw [nS] at d2
  have h500 : (2 : ℝ) ^ (-500 : ℤ) ≤ eucNorm (realVec q.v) := tiny_numbers.1.trans (by linarith)
  have nr := norm_err hr h500
  have vi : ∀ i, |(q.v i : ℝ)| ≤ eucNorm (realVec q.v) := fun i => abs_entry_le (realVec q.v) i
  generalize eucNorm (realVec q.v) = M at *
  have MU : U * M ≤ 0.5001 * (U * θ) := by
    have := mul_le_mul_of_nonneg_left (by linarith : M ≤ 0.5001 * θ) hU.le
    linarith
  have nr' := abs_le.mp nr
  have hrS : |(r : ℝ) - Real.sin (θ / 2)| ≤ 200 * (U * θ) := by rw [abs_le]; constructor <;> linarith
  have hMr : M ≤ 1.0001 * r := by
    have : U * M ≤ 1.2e-16 * M := mul_le_mul_of_nonneg_right hU1 (by linarith)
    linarith
  have rb : 2 * U ≤ (r : ℝ) := by linarith [(abs_le.mp hrS).1]
  have hlt : ¬ r < 2 ^ (-52 : ℤ) := by
    rw [not_lt]
    have e : ((2 ^ (-52 : ℤ) : ℚ) : ℝ) = 2 * U := by rw [Rat.cast_zpow, Rat.cast_ofNat, two_U]
    have : ((2 ^ (-52 : ℤ) : ℚ) : ℝ) ≤ r := by rw [e]; exact rb
    exact_mod_cast this
  rw [if_neg hlt] at hn
  have rp : (0 : ℝ) < r := by linarith
  have rp' : 0 < r := by exact_mod_cast rp
  rw [hn, if_pos rp'.ne'] at hA
  obtain ⟨a, ha, rfl, hax⟩ := hA
  have wp : (0 : ℝ) < q.w := by linarith [(abs_le.mp qw).1]
  have wp' : 0 < q.w := by exact_mod_cast wp
  simp only [if_neg (not_lt.mpr wp'.le)] at hax
  unfold Atan2Of at ha
  rw [Rat.cast_abs, two_U, two_H, abs_of_pos wp] at ha
  have hφ := arg_rel h8 h2 qw hrS
  have g0 := (arg_first wp.le rp).2.1
  rw [abs_of_nonneg g0] at ha
  have fin := vector_rel h8 N1 qv' hrS s1 (fun i => (vi i).trans hMr) g0 hφ ha hax hw
  rw [eN]
  refine (eucNorm_le_of_entries (c := 1140 * (U * θ)) fin).trans (by linarith)

/-! ## Translations -/

/-- The translation of a motion depends on its rotation part with rate at most half the length of the translation part. -/
theorem xexp_lip_half (a b v : V3) : eucNorm ((SE3.xexp (a, v)).2 - (SE3.xexp (b, v)).2) ≤ eucNorm (a - b) * eucNorm v / 2 := by
  set u := (SE3.xexp (a, v)).2 - (SE3.xexp (b, v)).2 with hu
  have hd : ∀ t : ℝ, HasDerivAt (fun s : ℝ => u ⬝ᵥ ((SE3.xexp (s • (a, v))).2 - (SE3.xexp (s • (b, v))).2))
      (u ⬝ᵥ (SO3.exp (t • a) *ᵥ v - SO3.exp (t • b) *ᵥ v)) t := by
    intro t
    simp only [dotProduct, Fin.sum_univ_three, Pi.sub_apply]
    have h := fun i => ((xexp_line_deriv (a, v) t i).sub (xexp_line_deriv (b, v) t i)).const_mul (u i)
    exact ((h 0).add (h 1)).add (h 2)
  have hb : ∀ t ∈ Set.Ico (0 : ℝ) 1, ‖u ⬝ᵥ (SO3.exp (t • a) *ᵥ v - SO3.exp (t • b) *ᵥ v)‖ ≤ eucNorm u * (eucNorm (a - b) * eucNorm v) * t := by
    intro t ht
    rw [Real.norm_eq_abs]
    refine (abs_dot_le _ _).trans ((mul_le_mul_of_nonneg_left (turnsAlike_exp (t • a) (t • b) v) (eucNorm_nonneg u)).trans (le_of_eq ?_))
    rw [← smul_sub, eucNorm_smul, abs_of_nonneg ht.1]
    ring
  have hB : ∀ t : ℝ, HasDerivAt (fun t : ℝ => eucNorm u * (eucNorm (a - b) * eucNorm v) / 2 * t ^ 2) (eucNorm u * (eucNorm (a - b) * eucNorm v) * t) t := by
    intro t
    refine ((hasDerivAt_pow 2 t).const_mul _).congr_deriv ?_
    simp; ring
  have h := image_norm_le_of_norm_deriv_right_le_deriv_boundary (fun t _ => (hd t).continuousAt.continuousWithinAt)
    (fun t _ => (hd t).hasDerivWithinAt) (by simp) hB hb (Set.right_mem_Icc.mpr zero_le_one)
  simp only [one_smul, one_pow, mul_one] at h
  rw [← hu, Real.norm_eq_abs] at h
  have hs : u ⬝ᵥ u = eucNorm u * eucNorm u := by
    rw [eucNorm, Real.mul_self_sqrt (sqNorm_nonneg u)]; rfl
  rw [hs, abs_of_nonneg (mul_nonneg (eucNorm_nonneg u) (eucNorm_nonneg u)), mul_div_assoc] at h
  rcases (eucNorm_nonneg u).eq_or_lt with h0 | h0
  · rw [← h0]; have := eucNorm_nonneg (a - b); have := eucNorm_nonneg v; positivity
  · exact le_of_mul_le_mul_left h h0

/-- Up to 1.76 radians the exponential hardly shortens the translation part. -/
theorem xexp_lower_small {w : V3} (h3 : eucNorm w ≤ 1.76) (v : V3) : eucNorm v ≤ 1.16 * eucNorm (SE3.xexp (w, v)).2 := by
  obtain ⟨A, B, C, hE⟩ := exact_some (eucNorm w)
  have hθ := eucNorm_nonneg w
  have key := xexp_key (h3.trans (by norm_num)) hE v
  have hB : 0.756 ≤ 2 * B := by
    generalize eucNorm w = θ at *
    rcases hθ.eq_or_lt with e | hp
    · obtain ⟨-, rfl, -⟩ := hE.zero e.symm; norm_num
    · obtain ⟨-, rfl, -⟩ := hE.pos hp
      have x0 : 0 < θ / 2 := by linarith
      have s := Real.sin_gt_sub_cube x0
      have e2 : Real.cos θ = 1 - 2 * Real.sin (θ / 2) ^ 2 := by
        have := Real.cos_two_mul (θ / 2)
        rw [show 2 * (θ / 2) = θ by ring] at this
        have := Real.sin_sq_add_cos_sq (θ / 2)
        linarith
      have x2 : (θ / 2) ^ 2 ≤ 0.7744 := by nlinarith
      have s2 : 0.8709 * (θ / 2) ≤ Real.sin (θ / 2) := by nlinarith
      have s3 := mul_le_mul s2 s2 (by positivity) (by linarith)
      rw [e2, ← mul_div_assoc, le_div_iff₀ (by positivity)]
      nlinarith
  have n0 := sqNorm_nonneg v
  refine (sq_le_sq₀ (eucNorm_nonneg _) (by have := eucNorm_nonneg (SE3.xexp (w, v)).2; linarith)).mp ?_
  rw [mul_pow, eucNorm_sq, eucNorm_sq]
  nlinarith

/-- The translation part after exponential and logarithm, where the rotation part has come back. -/
theorem trip_trans {w v w' v' : Fin 3 → ℚ} (h2 : eucNorm (realVec w) ≤ 1.75) {g : Stored} (he : ExpSE3 w v g) (hl : LogSE3 g w' v')
    (hw2 : eucNorm (realVec w' - realVec w) ≤ 3990 * U) : eucNorm (realVec v' - realVec v) ≤ 7450 * U * eucNorm (realVec v) + 1000 * H := by
  have hU := U_pos; have hU1 := U_tiny.1; have hH0 := H_pos
  have hn := eucNorm_nonneg (realVec v)
  have h3 : eucNorm (realVec w') ≤ 1.76 := by
    have := eucNorm_le_add (realVec w') (realVec w)
    linarith
  obtain ⟨u, hu, h1⟩ := log_fine hl (h3.trans (by norm_num))
  have ex := exp_fine he (h2.trans (by norm_num))
  have lip := xexp_lip_half (realVec w) (realVec w') (realVec v)
  rw [show eucNorm (realVec w - realVec w') = eucNorm (realVec w' - realVec w) by rw [← eucNorm_neg, neg_sub]] at lip
  have lip2 := mul_le_mul_of_nonneg_right hw2 hn
  have low := xexp_lower_small h3 (u - realVec v)
  rw [← xexp_sub, hu] at low
  have e1 : realVec g.trans - (SE3.xexp (realVec w', realVec v)).2 =
      (realVec g.trans - (SE3.xexp (realVec w, realVec v)).2) + ((SE3.xexp (realVec w, realVec v)).2 - (SE3.xexp (realVec w', realVec v)).2) := by abel
  have t1 : eucNorm (realVec g.trans - (SE3.xexp (realVec w', realVec v)).2) ≤ 4445 * (U * eucNorm (realVec v)) + 400 * H := by
    rw [e1]
    exact (eucNorm_add_le _ _).trans (by linarith)
  have t2 : eucNorm (realVec g.trans) ≤ 1.0001 * eucNorm (realVec v) + 400 * H := by
    have a1 := (eucNorm_le_add (realVec g.trans) _).trans (add_le_add ex (SE3.xexp_norm (realVec w, realVec v)))
    have a2 := mul_le_mul_of_nonneg_right hU1 hn
    change _ ≤ _ + eucNorm (realVec v) at a1
    linarith
  have t3 := mul_le_mul_of_nonneg_left t2 hU.le
  have t4 : U * H ≤ 1.2e-16 * H := mul_le_mul_of_nonneg_right hU1 hH0.le
  have e2 : realVec v' - realVec v = (realVec v' - u) + (u - realVec v) := by abel
  rw [e2]
  refine (eucNorm_add_le _ _).trans ?_
  have t5 : 0 ≤ U * eucNorm (realVec v) := by positivity
  linarith

/-- Exponential and then logarithm of a rigid motion by up to 1.75 radians. -/
theorem trip_rel {w v w' v' : Fin 3 → ℚ} (h8 : 8 * U ≤ eucNorm (realVec w)) (h2 : eucNorm (realVec w) ≤ 1.75) (h : ExpThenLog w v w' v') :
    eucNorm (realVec w' - realVec w) ≤ 2280 * U * eucNorm (realVec w) ∧ eucNorm (realVec v' - realVec v) ≤ 7450 * U * eucNorm (realVec v) + 1000 * H := by
  obtain ⟨g, he, hl⟩ := h
  have hw := log_rel h8 h2 he.1 hl.1
  refine ⟨hw, trip_trans h2 he hl (hw.trans ?_)⟩
  have := mul_le_mul_of_nonneg_left h2 U_pos.le
  linarith

/-- The same where there is next to no rotation. -/
theorem trip_tiny {w v w' v' : Fin 3 → ℚ} (h8 : eucNorm (realVec w) ≤ 8 * U) (h : ExpThenLog w v w' v') :
    eucNorm (realVec w' - realVec w) ≤ 3750 * U ∧ eucNorm (realVec v' - realVec v) ≤ 7450 * U * eucNorm (realVec v) + 1000 * H := by
  obtain ⟨g, he, hl⟩ := h
  have hU := U_pos; have hU1 := U_tiny.1; have hpi := Real.pi_gt_three
  have h0 := eucNorm_nonneg (realVec w)
  have hδ : (100 + 18 * eucNorm (realVec w)) * U ≤ 100.1 * U := mul_le_mul_of_nonneg_right (by linarith) hU.le
  have hw := log_forward (expSO3_fine he.1) (by linarith) (by linarith) hl.1
  have hw' : eucNorm (realVec w' - realVec w) ≤ 3750 * U := hw.trans (by linarith)
  exact ⟨hw', trip_trans (by linarith) he hl (by linarith)⟩

theorem trip_some (w v : Fin 3 → ℚ) : ∃ w' v', ExpThenLog w v w' v' := by
  obtain ⟨g, hg⟩ := expSE3_some w v
  obtain ⟨w', v', h⟩ := logSE3_some g
  exact ⟨w', v', g, hg, h⟩

/-! ## Approximate equality -/

section
variable {ι : Type} [Fintype ι]

theorem size_le (a b : ι → ℚ) : size a ≤ size b + apart a b := by
  have ha : size a = ‖(WithLp.toLp 2 (fun i => (a i : ℝ)) : EuclideanSpace ℝ ι)‖ := by rw [EuclideanSpace.norm_eq, size]; simp only [Real.norm_eq_abs, sq_abs]
  have hb : size b = ‖(WithLp.toLp 2 (fun i => (b i : ℝ)) : EuclideanSpace ℝ ι)‖ := by rw [EuclideanSpace.norm_eq, size]; simp only [Real.norm_eq_abs, sq_abs]
  have hab : apart a b = ‖(WithLp.toLp 2 (fun i => (a i : ℝ)) : EuclideanSpace ℝ ι) - WithLp.toLp 2 (fun i => (b i : ℝ))‖ := by
    rw [EuclideanSpace.norm_eq, apart]; simp
  rw [ha, hb, hab]
  exact norm_le_norm_add_norm_sub' _ _

/-- Vectors closer to each other than the tolerance are reported approximately equal. -/
theorem agree_of_apart [DecidableEq ι] {a b : ι → ℚ} (hn : Fintype.card ι ≤ 9) (ha : 1e-100 ≤ size a) (hd : apart a b ≤ 9.9e-13 * size a) {r : Bool} (h : ApproxOf a b r) :
    r = true := by
  by_contra hr
  rw [Bool.not_eq_true] at hr
  subst hr
  have s := Props.c117_no hn h
  have k := size_le a b
  have m : 0.99999999 * size a ≤ min (size a) (size b) := le_min (by linarith) (by linarith)
  generalize min (size a) (size b) = M at *
  norm_num at s
  linarith
end

theorem six_size (x : TCurveDouble.Tangent) : size (six x) ^ 2 = eucNorm (realVec x.1) ^ 2 + eucNorm (realVec x.2) ^ 2 := by
  rw [size_sq, Fintype.sum_sum_type, ← sum_sq_vec, ← sum_sq_vec]; rfl

theorem six_apart (x y : TCurveDouble.Tangent) :
    apart (six x) (six y) ^ 2 = eucNorm (realVec y.1 - realVec x.1) ^ 2 + eucNorm (realVec y.2 - realVec x.2) ^ 2 := by
  have e : ∀ a b : V3, eucNorm (a - b) = eucNorm (b - a) := fun a b => by rw [← eucNorm_neg, neg_sub]
  rw [apart_sq, Fintype.sum_sum_type, e (realVec y.1), e (realVec y.2), ← sum_sq_diff, ← sum_sq_diff]; rfl

theorem U_fine : U ≤ 1.1103e-16 := by unfold U; norm_num

/-- Going by exponential and logarithm gives an approximately equal tangent vector. -/
theorem trip_agrees {w v w' v' : Fin 3 → ℚ} (h2 : eucNorm (realVec w) ≤ 1.75) (h8 : 8 * U ≤ eucNorm (realVec w) ∨ 1 ≤ eucNorm (realVec v)) (h : ExpThenLog w v w' v')
    {r : Bool} (hr : ApproxOf (six (w, v)) (six (w', v')) r) : r = true := by
  have hU := U_pos; have hU1 := U_fine; have hU2 := U_tiny.2; have hH0 := H_pos; have hH := tiny_numbers.2
  have hw0 := eucNorm_nonneg (realVec w)
  have hv0 := eucNorm_nonneg (realVec v)
  have sz := six_size (w, v)
  have ap := six_apart (w, v) (w', v')
  simp only at sz ap
  have s0 : 0 ≤ size (six (w, v)) := Real.sqrt_nonneg _
  have a0 : 0 ≤ apart (six (w, v)) (six (w', v')) := Real.sqrt_nonneg _
  have zw : eucNorm (realVec w) ≤ size (six (w, v)) := by nlinarith
  have zv : eucNorm (realVec v) ≤ size (six (w, v)) := by nlinarith
  have dw0 := eucNorm_nonneg (realVec w' - realVec w)
  have dv0 := eucNorm_nonneg (realVec v' - realVec v)
  have key : 1e-100 ≤ size (six (w, v)) ∧ apart (six (w, v)) (six (w', v')) ≤ 9.9e-13 * size (six (w, v)) := by
    rcases le_or_gt (8 * U) (eucNorm (realVec w)) with h | hlt
    · obtain ⟨d1, d2⟩ := trip_rel h h2 ‹_›
      have z8 : 8e-16 ≤ size (six (w, v)) := by linarith
      refine ⟨by linarith, ?_⟩
      have b1 : eucNorm (realVec w' - realVec w) ≤ 2.6e-13 * size (six (w, v)) := by
        have := mul_le_mul hU1 zw hw0 (by norm_num)
        linarith
      have b2 : eucNorm (realVec v' - realVec v) ≤ 8.4e-13 * size (six (w, v)) := by
        have := mul_le_mul hU1 zv hv0 (by norm_num)
        linarith
      refine (sq_le_sq₀ a0 (by positivity)).mp ?_
      rw [ap]
      have c1 := pow_le_pow_left₀ dw0 b1 2
      have c2 := pow_le_pow_left₀ dv0 b2 2
      have c3 := sq_nonneg (size (six (w, v)))
      rw [mul_pow] at c1 c2 ⊢
      norm_num at c1 c2 ⊢
      linarith
    · have hv1 : 1 ≤ eucNorm (realVec v) := by
        rcases h8 with h | h
        · linarith
        · exact h
      obtain ⟨d1, d2⟩ := trip_tiny hlt.le h
      have z1 := hv1.trans zv
      refine ⟨by linarith, ?_⟩
      have b1 : eucNorm (realVec w' - realVec w) ≤ 4.2e-13 * size (six (w, v)) := by linarith
      have b2 : eucNorm (realVec v' - realVec v) ≤ 8.4e-13 * size (six (w, v)) := by
        have := mul_le_mul hU1 zv hv0 (by norm_num)
        linarith
      refine (sq_le_sq₀ a0 (by positivity)).mp ?_
      rw [ap]
      have c1 := pow_le_pow_left₀ dw0 b1 2
      have c2 := pow_le_pow_left₀ dv0 b2 2
      have c3 := sq_nonneg (size (six (w, v)))
      rw [mul_pow] at c1 c2 ⊢
      norm_num at c1 c2 ⊢
      linarith
  exact agree_of_apart (by simp) key.1 key.2 hr

end Verif.TripDouble
