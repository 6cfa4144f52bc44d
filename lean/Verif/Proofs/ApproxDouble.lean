import Verif.Model.ApproxDouble
import Verif.Spec.ApproxDouble
import Verif.Proofs.MessageDouble
import Verif.Proofs.StatsDouble
/-! # Rounding errors of approximate equality -/
namespace Verif.ApproxDouble
open SampleIntervalDouble TransformDouble ExpDouble LogDouble Verif.Spec Matrix SO3

variable {ι : Type} [DecidableEq ι] [Fintype ι]

theorem pow9 : (1 + U) ^ 9 ≤ 1 + 9.01 * U := by
  have hU := U_pos; have hU1 := U_tiny.1
  have p2 : (1 + U) ^ 2 ≤ 1 + 2.001 * U := by nlinarith
  have p4 : (1 + U) ^ 4 ≤ 1 + 4.003 * U := by
    have e : (1 + U) ^ 4 = (1 + U) ^ 2 * (1 + U) ^ 2 := by ring
    have := mul_le_mul p2 p2 (by positivity) (by positivity)
    rw [e]; nlinarith
  have p8 : (1 + U) ^ 8 ≤ 1 + 8.007 * U := by
    have e : (1 + U) ^ 8 = (1 + U) ^ 4 * (1 + U) ^ 4 := by ring
    have := mul_le_mul p4 p4 (by positivity) (by positivity)
    rw [e]; nlinarith
  have e : (1 + U) ^ 9 = (1 + U) ^ 8 * (1 + U) := by ring
  have := mul_le_mul_of_nonneg_right p8 (by positivity : 0 ≤ 1 + U)
  rw [e]; nlinarith

/-- A computed sum of up to nine squares. -/
theorem evaluates_sq {x : ι → ℚ} {r : ℚ} (hn : Fintype.card ι ≤ 9) (h : Evaluates x x Finset.univ r) :
    |(r : ℝ) - ∑ i, (x i : ℝ) ^ 2| ≤ 9.01 * U * (∑ i, (x i : ℝ) ^ 2) + 18 * H := by
  have hU := U_pos; have hU1 := U_tiny.1; have hH := H_pos
  have h1 := evaluates_error h
  have e1 : ∑ i, |x i * x i| = ∑ i, x i ^ 2 := Finset.sum_congr rfl fun i _ => by rw [abs_of_nonneg (mul_self_nonneg _), sq]
  have e2 : ∑ i, x i * x i = ∑ i, x i ^ 2 := Finset.sum_congr rfl fun i _ => by rw [sq]
  rw [e1, e2, Finset.card_univ] at h1
  have h2 : ((|r - ∑ i, x i ^ 2| : ℚ) : ℝ) ≤ (((1 + u) ^ Fintype.card ι - 1) * (∑ i, x i ^ 2) + (2 * Fintype.card ι - 1) * (1 + u) ^ Fintype.card ι * η : ℚ) :=
    Rat.cast_le.mpr h1
  push_cast at h2
  rw [u_cast, η_cast] at h2
  have hS : 0 ≤ ∑ i, (x i : ℝ) ^ 2 := Finset.sum_nonneg fun i _ => sq_nonneg _
  have p : (1 + U) ^ Fintype.card ι ≤ 1 + 9.01 * U := (pow_le_pow_right₀ (by linarith) hn).trans pow9
  have p0 : 0 ≤ (1 + U) ^ Fintype.card ι := by positivity
  have c : (Fintype.card ι : ℝ) ≤ 9 := by exact_mod_cast hn
  have c1 : (1 : ℝ) ≤ Fintype.card ι := by exact_mod_cast h.card_pos
  have q := mul_le_mul_of_nonneg_right p hS
  have q2 : (2 * (Fintype.card ι : ℝ) - 1) * (1 + U) ^ Fintype.card ι * H ≤ 18 * H := by
    refine mul_le_mul_of_nonneg_right ?_ hH.le
    have := mul_le_mul (by linarith : 2 * (Fintype.card ι : ℝ) - 1 ≤ 17) p p0 (by norm_num)
    linarith
  linarith

/-- The square of a rounded number. -/
theorem rounded_sq {x : ℝ} {e : ℝ} (h : |x - e| ≤ U * |e| + H) : |x ^ 2 - e ^ 2| ≤ 4 * U * e ^ 2 + H := by
  have hU := U_pos; have hU1 := U_tiny.1; have hH := H_pos; have hHU := H_tiny
  have he := abs_nonneg e
  have s : x ^ 2 - e ^ 2 = (x - e) * ((x - e) + 2 * e) := by ring
  have a : |(x - e) + 2 * e| ≤ (U * |e| + H) + 2 * |e| := by
    refine (abs_add_le _ _).trans (add_le_add h ?_)
    rw [abs_mul, abs_two]
  rw [s, abs_mul]
  refine (mul_le_mul h a (abs_nonneg _) (by positivity)).trans ?_
  rw [← sq_abs e]
  generalize |e| = y at *
  -- (U y + H) (U y + H + 2 y) ≤ 4 U y² + H
  have k : 2 * H * y ≤ U * y ^ 2 + H * (H / U) := by
    have : 0 ≤ (U * y - H) ^ 2 / U := by positivity
    have e2 : (U * y - H) ^ 2 / U = U * y ^ 2 - 2 * H * y + H * (H / U) := by field_simp; ring
    linarith
  have k2 : H / U ≤ 1 / 1000 := by rw [div_le_iff₀ hU]; linarith
  have k3 : H * (H / U) ≤ H * (1 / 1000) := mul_le_mul_of_nonneg_left k2 hH.le
  have k4 : U * y ^ 2 * U ≤ U * y ^ 2 * 1.2e-16 := mul_le_mul_of_nonneg_left hU1 (by positivity)
  have k5 : U * (2 * H * y) ≤ 1.2e-16 * (2 * H * y) := mul_le_mul_of_nonneg_right hU1 (by positivity)
  have k6 : H * H ≤ H * 1e-10 := mul_le_mul_of_nonneg_left (by linarith) hH.le
  have k7 : 0 ≤ U * y ^ 2 := by positivity
  linarith

/-- The computed squared distance. -/
theorem distance_sq {a b : ι → ℚ} {d : ℚ} (hn : Fintype.card ι ≤ 9)
    (h : Evaluates (fun i => round64 (a i - b i)) (fun i => round64 (a i - b i)) Finset.univ d) :
    |(d : ℝ) - ∑ i, ((a i : ℝ) - b i) ^ 2| ≤ 14 * U * (∑ i, ((a i : ℝ) - b i) ^ 2) + 28 * H := by
  have hU := U_pos; have hU1 := U_tiny.1; have hH := H_pos; have hHU := H_tiny
  have h1 := evaluates_sq hn h
  have h2 : |∑ i, ((round64 (a i - b i) : ℚ) : ℝ) ^ 2 - ∑ i, ((a i : ℝ) - b i) ^ 2| ≤ 4 * U * (∑ i, ((a i : ℝ) - b i) ^ 2) + 9 * H := by
    rw [← Finset.sum_sub_distrib]
    refine (Finset.abs_sum_le_sum_abs _ _).trans ?_
    have : ∀ i ∈ Finset.univ, |((round64 (a i - b i) : ℚ) : ℝ) ^ 2 - ((a i : ℝ) - b i) ^ 2| ≤ 4 * U * ((a i : ℝ) - b i) ^ 2 + H := fun i _ => by
      refine rounded_sq ?_
      have := rnd (a i - b i)
      push_cast at this
      exact this
    refine (Finset.sum_le_sum this).trans ?_
    rw [Finset.sum_add_distrib, ← Finset.mul_sum, Finset.sum_const, Finset.card_univ, nsmul_eq_mul]
    have c : (Fintype.card ι : ℝ) ≤ 9 := by exact_mod_cast hn
    have := mul_le_mul_of_nonneg_right c hH.le
    linarith
  have hS : 0 ≤ ∑ i, ((a i : ℝ) - b i) ^ 2 := Finset.sum_nonneg fun i _ => sq_nonneg _
  generalize ∑ i, ((a i : ℝ) - b i) ^ 2 = S at *
  generalize ∑ i, ((round64 (a i - b i) : ℚ) : ℝ) ^ 2 = T at *
  have t : T ≤ (1 + 4 * U) * S + 9 * H := by have := (abs_le.mp h2).2; linarith
  have t2 := mul_le_mul_of_nonneg_left t hU.le
  have u0 : 0 ≤ U * S := by positivity
  have u1 : U * (U * S) ≤ 1.2e-16 * (U * S) := mul_le_mul_of_nonneg_right hU1 u0
  have u2 : U * H ≤ 1.2e-16 * H := mul_le_mul_of_nonneg_right hU1 hH.le
  have e : (d : ℝ) - S = (d - T) + (T - S) := by ring
  rw [e]
  refine (abs_add_le _ _).trans ?_
  linarith

/-- The computed square of the precision. -/
theorem prec_sq : |((round64 (round64 1e-12 * round64 1e-12) : ℚ) : ℝ) - 1e-24| ≤ 4 * U * 1e-24 := by
  have hU := U_pos; have hU1 := U_tiny.1; have hH := H_pos; have hH2 := tiny_numbers.2
  have a := rnd 1e-12
  have b := rnd (round64 1e-12 * round64 1e-12)
  generalize round64 (round64 1e-12 * round64 1e-12) = q at *
  generalize round64 1e-12 = p at *
  push_cast at a b
  rw [abs_of_pos (by norm_num : (0 : ℝ) < 1e-12)] at a
  have hU2 := U_tiny.2
  have a' : |(p : ℝ) - 1e-12| ≤ 1.001 * U * 1e-12 := a.trans (by linarith)
  have a2 := abs_le.mp a'
  have p0 : (0 : ℝ) < p := by linarith
  have p1 : (p : ℝ) ≤ 1.0001e-12 := by linarith
  have s : |(p : ℝ) * p - 1e-24| ≤ 2.01 * U * 1e-24 := by
    have e : (p : ℝ) * p - 1e-24 = (p - 1e-12) * (p + 1e-12) := by ring
    rw [e, abs_mul, abs_of_pos (by linarith : 0 < (p : ℝ) + 1e-12)]
    refine (mul_le_mul a' (by linarith : (p : ℝ) + 1e-12 ≤ 2.0001e-12) (by linarith) (by positivity)).trans ?_
    linarith
  have s2 := abs_le.mp s
  have pp : |(p : ℝ) * p| ≤ 1.01e-24 := by rw [abs_le]; constructor <;> linarith
  have b2 := b.trans (add_le_add (mul_le_mul_of_nonneg_left pp hU.le) le_rfl)
  have e : (q : ℝ) - 1e-24 = (q - p * p) + (p * p - 1e-24) := by ring
  rw [e]
  refine (abs_add_le _ _).trans ?_
  linarith

theorem near_min {x y α β e c : ℝ} (he1 : e ≤ 1) (hx : |x - α| ≤ e * α + c) (hy : |y - β| ≤ e * β + c) :
    |min x y - min α β| ≤ e * min α β + c := by
  have hx := abs_le.mp hx
  have hy := abs_le.mp hy
  rw [abs_le]
  constructor
  · have m1 := min_le_left α β
    have m2 := min_le_right α β
    rcases min_cases x y with ⟨h, -⟩ | ⟨h, -⟩ <;> rw [h] <;> nlinarith
  · rcases min_cases α β with ⟨h, -⟩ | ⟨h, -⟩ <;> rw [h]
    · have := min_le_left x y; linarith
    · have := min_le_right x y; linarith

/-- The computed right hand side of the comparison. -/
theorem threshold {a b : ι → ℚ} {sa sb : ℚ} (hn : Fintype.card ι ≤ 9) (ha : Evaluates a a Finset.univ sa) (hb : Evaluates b b Finset.univ sb) :
    |((round64 (round64 (round64 1e-12 * round64 1e-12) * min sa sb) : ℚ) : ℝ) - 1e-24 * min (∑ i, (a i : ℝ) ^ 2) (∑ i, (b i : ℝ) ^ 2)| ≤
      15 * U * (1e-24 * min (∑ i, (a i : ℝ) ^ 2) (∑ i, (b i : ℝ) ^ 2)) + 2 * H := by
  have hU := U_pos; have hU1 := U_tiny.1; have hH := H_pos
  have m := near_min (by linarith) (evaluates_sq hn ha) (evaluates_sq hn hb)
  have p := prec_sq
  have hS : 0 ≤ min (∑ i, (a i : ℝ) ^ 2) (∑ i, (b i : ℝ) ^ 2) :=
    le_min (Finset.sum_nonneg fun i _ => sq_nonneg _) (Finset.sum_nonneg fun i _ => sq_nonneg _)
  have r := rnd (round64 (round64 1e-12 * round64 1e-12) * min sa sb)
  generalize round64 (round64 (round64 1e-12 * round64 1e-12) * min sa sb) = T at *
  generalize round64 (round64 1e-12 * round64 1e-12) = q at *
  generalize min (∑ i, (a i : ℝ) ^ 2) (∑ i, (b i : ℝ) ^ 2) = μ at *
  push_cast at r
  rw [show min (sa : ℝ) (sb : ℝ) = ((min sa sb : ℚ) : ℝ) from (Rat.cast_min sa sb).symm] at m r
  generalize ((min sa sb : ℚ) : ℝ) = s at *
  have q1 : |(q : ℝ)| ≤ 1.001e-24 := by have := abs_le.mp p; rw [abs_le]; constructor <;> linarith
  have pe := prod_err p m q1 ((abs_of_nonneg hS).le)
  have u0 : 0 ≤ U * μ := by positivity
  have x : |(q : ℝ) * s| ≤ 1.001e-24 * μ + 1e-20 * H := by
    have := abs_le_of_near ((q : ℝ) * s) (1e-24 * μ)
    rw [abs_of_nonneg (by positivity : 0 ≤ 1e-24 * μ)] at this
    have : U * μ ≤ 1.2e-16 * μ := mul_le_mul_of_nonneg_right hU1 hS
    linarith
  have x2 := mul_le_mul_of_nonneg_left x hU.le
  have u2 : U * H ≤ 1.2e-16 * H := mul_le_mul_of_nonneg_right hU1 hH.le
  have e : (T : ℝ) - 1e-24 * μ = (T - q * s) + (q * s - 1e-24 * μ) := by ring
  rw [e]
  refine (abs_add_le _ _).trans ?_
  linarith

/-- What a positive and what a negative answer mean, in squares. -/
theorem approx_sq {a b : ι → ℚ} {r : Bool} (hn : Fintype.card ι ≤ 9) (h : ApproxOf a b r) :
    (r = true → ∑ i, ((a i : ℝ) - b i) ^ 2 ≤ (1 + 30 * U) * (1e-24 * min (∑ i, (a i : ℝ) ^ 2) (∑ i, (b i : ℝ) ^ 2)) + 31 * H) ∧
    (r = false → (1 - 30 * U) * (1e-24 * min (∑ i, (a i : ℝ) ^ 2) (∑ i, (b i : ℝ) ^ 2)) < ∑ i, ((a i : ℝ) - b i) ^ 2 + 31 * H) := by
  have hU := U_pos; have hU1 := U_tiny.1; have hH := H_pos
  obtain ⟨d, sa, sb, hd, ha, hb, hr⟩ := h
  have x := distance_sq hn hd
  have y := threshold hn ha hb
  have hS : 0 ≤ 1e-24 * min (∑ i, (a i : ℝ) ^ 2) (∑ i, (b i : ℝ) ^ 2) :=
    mul_nonneg (by norm_num) (le_min (Finset.sum_nonneg fun i _ => sq_nonneg _) (Finset.sum_nonneg fun i _ => sq_nonneg _))
  have hD : 0 ≤ ∑ i, ((a i : ℝ) - b i) ^ 2 := Finset.sum_nonneg fun i _ => sq_nonneg _
  generalize round64 (round64 (round64 1e-12 * round64 1e-12) * min sa sb) = T at *
  generalize 1e-24 * min (∑ i, (a i : ℝ) ^ 2) (∑ i, (b i : ℝ) ^ 2) = μ at *
  generalize ∑ i, ((a i : ℝ) - b i) ^ 2 = Δ at *
  have x := abs_le.mp x
  have y := abs_le.mp y
  have u0 : 0 ≤ U * μ := by positivity
  have u1 : U * (U * μ) ≤ 1.2e-16 * (U * μ) := mul_le_mul_of_nonneg_right hU1 u0
  have u2 : U * H ≤ 1.2e-16 * H := mul_le_mul_of_nonneg_right hU1 hH.le
  refine ⟨fun e => ?_, fun e => ?_⟩
  · rw [e] at hr
    have k : (d : ℝ) ≤ T := by exact_mod_cast of_decide_eq_true hr.symm
    have k2 : (1 - 14 * U) * Δ ≤ (1 + 15 * U) * μ + 30 * H := by linarith
    by_contra hc
    have hc := not_le.mp hc
    have := mul_lt_mul_of_pos_left hc (by linarith : 0 < 1 - 14 * U)
    linarith
  · rw [e] at hr
    have k : (T : ℝ) < d := by exact_mod_cast not_le.mp (of_decide_eq_false hr.symm)
    have k2 : (1 - 15 * U) * μ < (1 + 14 * U) * Δ + 30 * H := by linarith
    by_contra hc
    have hc := not_lt.mp hc
    have := mul_le_mul_of_nonneg_left hc (by linarith : 0 ≤ 1 + 14 * U)
    have u3 : 0 ≤ U * (U * μ) := by positivity
    have u4 : 0 ≤ U * H := by positivity
    linarith

end Verif.ApproxDouble
