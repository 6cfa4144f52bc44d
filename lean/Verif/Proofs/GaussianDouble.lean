import Verif.Model.GaussianDouble
import Verif.Proofs.StatsDouble
import Verif.Proofs.ExpDoubleTrans
import Verif.Spec.GaussianDouble
/-! # The Gaussian sampler in doubles: the estimates -/
namespace Verif.GaussianDouble
open Verif.Spec SampleIntervalDouble TransformDouble ExpDouble StatsDouble Matrix

theorem sample_arith {A W M d e u h : ℝ} (hA : 0 ≤ A) (hW : 0 ≤ W) (hM : 0 ≤ M) (hd : 0 ≤ d) (hu : 0 < u) (hdu : d * u ≤ 1e-6) (hu1 : u ≤ 1e-6) (hh : 0 < h)
    (he : e ≤ 1.001 * d * u * ((1 + u) * A + h * W) + 2 * d * 1.001 * h + (u * A + h * W)) :
    u * (A + e + M) + h + e ≤ 1.01 * (d + 2) * u * (M + A) + (2 * W + 3 * d + 1) * h := by
  have a1 : 0 ≤ d * u * A := by positivity
  have a2 : 0 ≤ u * A := by positivity
  have a3 : 0 ≤ u * M := by positivity
  have a4 : 0 ≤ h * W := by positivity
  have a5 : 0 ≤ d * h := by positivity
  have b1 : d * u * (u * A) ≤ 1e-6 * (d * u * A) := by
    have := mul_le_mul_of_nonneg_right hu1 a1
    linarith
  have b2 : d * u * (h * W) ≤ 1e-6 * (h * W) := mul_le_mul_of_nonneg_right hdu a4
  have c : e ≤ 1.002 * (d * u * A) + 2.002 * (d * h) + u * A + 1.01 * (h * W) := by linarith
  have c0 : 0 ≤ 1.002 * (d * u * A) + 2.002 * (d * h) + u * A + 1.01 * (h * W) := by positivity
  have c1 : u * e ≤ 1e-6 * (1.002 * (d * u * A) + 2.002 * (d * h) + u * A + 1.01 * (h * W)) := by
    have := mul_le_mul_of_nonneg_left c hu.le
    exact this.trans (mul_le_mul_of_nonneg_right hu1 c0)
  have c2 : 0 ≤ d * u * M := by positivity
  have e1 : 1.01 * (d + 2) * u * (M + A) = 1.01 * (d * u * M) + 1.01 * (d * u * A) + 2.02 * (u * M) + 2.02 * (u * A) := by ring
  rw [e1]
  linarith

theorem sample_close {d : ℕ} (hd : d < 2 ^ 32) {vectors : Matrix (Fin d) (Fin d) ℚ} {roots mu z r : Fin d → ℚ} (h : Sample vectors roots mu z r) (j : Fin d) :
    |(r j : ℝ) - (mu j + ∑ k, (vectors j k : ℝ) * (roots k * z k))| ≤
      1.01 * (d + 2) * U * (|(mu j : ℝ)| + ∑ k, |(vectors j k : ℝ) * (roots k * z k)|) + (2 * (∑ k, |(vectors j k : ℝ)|) + 3 * d + 1) * H := by
  obtain ⟨c, hc, hr⟩ := h
  obtain ⟨p, hp, hr⟩ := hr j
  have hU := U_pos; have hU1 := U_tiny.1; have hH := H_pos
  have h1 := evaluates_error hp
  rw [Finset.card_univ, Fintype.card_fin] at h1
  have h2 : ((|p - ∑ k, c k * vectors j k| : ℚ) : ℝ) ≤ (((1 + u) ^ d - 1) * (∑ k, |c k * vectors j k|) + (2 * d - 1) * (1 + u) ^ d * η : ℚ) := by exact_mod_cast h1
  push_cast at h2
  rw [u_cast, η_cast] at h2
  have hq := powers hd
  have k1 : ∀ k, |(c k : ℝ) * vectors j k - vectors j k * (roots k * z k)| ≤ U * |(vectors j k : ℝ) * (roots k * z k)| + H * |(vectors j k : ℝ)| := fun k => by
    have e := rnd (z k * roots k)
    rw [← hc k] at e
    push_cast at e
    have e2 : (c k : ℝ) * vectors j k - vectors j k * (roots k * z k) = vectors j k * (c k - z k * roots k) := by ring
    rw [e2, abs_mul, abs_mul, mul_comm (roots k : ℝ)]
    have := mul_le_mul_of_nonneg_left e (abs_nonneg (vectors j k : ℝ))
    linarith
  have s1 : |(∑ k, (c k : ℝ) * vectors j k) - ∑ k, (vectors j k : ℝ) * (roots k * z k)| ≤
      U * (∑ k, |(vectors j k : ℝ) * (roots k * z k)|) + H * ∑ k, |(vectors j k : ℝ)| := by
    rw [← Finset.sum_sub_distrib, Finset.mul_sum, Finset.mul_sum, ← Finset.sum_add_distrib]
    exact (Finset.abs_sum_le_sum_abs _ _).trans (Finset.sum_le_sum fun k _ => k1 k)
  have s2 : ∑ k, |(c k : ℝ) * vectors j k| ≤ (1 + U) * (∑ k, |(vectors j k : ℝ) * (roots k * z k)|) + H * ∑ k, |(vectors j k : ℝ)| := by
    rw [Finset.mul_sum, Finset.mul_sum, ← Finset.sum_add_distrib]
    refine Finset.sum_le_sum fun k _ => ?_
    have a := abs_sub_abs_le_abs_sub ((c k : ℝ) * vectors j k) (vectors j k * (roots k * z k))
    have b := k1 k
    linarith
  have s3 : |∑ k, (vectors j k : ℝ) * (roots k * z k)| ≤ ∑ k, |(vectors j k : ℝ) * (roots k * z k)| := Finset.abs_sum_le_sum_abs _ _
  have p0 : 0 ≤ ∑ k, |(vectors j k : ℝ) * (roots k * z k)| := Finset.sum_nonneg fun _ _ => abs_nonneg _
  have p1 : 0 ≤ ∑ k, |(vectors j k : ℝ)| := Finset.sum_nonneg fun _ _ => abs_nonneg _
  have p2 : 0 ≤ ∑ k, |(c k : ℝ) * vectors j k| := Finset.sum_nonneg fun _ _ => abs_nonneg _
  have e1 := rnd (p + mu j)
  rw [← hr] at e1
  push_cast at e1
  generalize ∑ k, |(vectors j k : ℝ) * (roots k * z k)| = A at *
  generalize ∑ k, |(vectors j k : ℝ)| = W at *
  generalize ∑ k, (vectors j k : ℝ) * (roots k * z k) = Q at *
  generalize ∑ k, |(c k : ℝ) * vectors j k| = A' at *
  generalize ∑ k, (c k : ℝ) * vectors j k = P at *
  have dR : (d : ℝ) ≤ 2 ^ 32 := by exact_mod_cast hd.le
  have d0 : (0 : ℝ) ≤ d := Nat.cast_nonneg d
  have hdu : (d : ℝ) * U ≤ 1e-6 := by
    have := mul_le_mul dR hU1 hU.le (by norm_num)
    exact this.trans (by norm_num)
  have t1 : ((1 + U) ^ d - 1) * A' ≤ 1.001 * d * U * ((1 + U) * A + H * W) := mul_le_mul hq.1 s2 p2 (by positivity)
  have t2 : (2 * d - 1) * (1 + U) ^ d * H ≤ 2 * d * 1.001 * H := by
    refine mul_le_mul_of_nonneg_right ?_ hH.le
    refine le_trans (mul_le_mul_of_nonneg_right (by linarith : (2 * d - 1 : ℝ) ≤ 2 * d) (by positivity)) (mul_le_mul_of_nonneg_left hq.2.1 (by positivity))
  have t3 : |(p : ℝ) - Q| ≤ 1.001 * d * U * ((1 + U) * A + H * W) + 2 * d * 1.001 * H + (U * A + H * W) := by
    have : (p : ℝ) - Q = (p - P) + (P - Q) := by ring
    rw [this]
    refine (abs_add_le _ _).trans (add_le_add (h2.trans (add_le_add t1 t2)) s1)
  have key := sample_arith p0 p1 (abs_nonneg (mu j : ℝ)) d0 hU hdu (by linarith) hH t3
  refine le_trans ?_ key
  have f1 : |(p : ℝ) + mu j| ≤ A + |(p : ℝ) - Q| + |(mu j : ℝ)| := by
    have : (p : ℝ) + mu j = Q + (p - Q) + mu j := by ring
    rw [this]
    exact (abs_add_le _ _).trans (add_le_add ((abs_add_le _ _).trans (add_le_add s3 le_rfl)) le_rfl)
  have f2 := mul_le_mul_of_nonneg_left f1 hU.le
  have f3 : |(r j : ℝ) - (mu j + Q)| ≤ |(r j : ℝ) - (p + mu j)| + |(p : ℝ) - Q| := by
    have : (r j : ℝ) - (mu j + Q) = (r j - (p + mu j)) + (p - Q) := by ring
    rw [this]
    exact abs_add_le _ _
  linarith

theorem root_sq {x r : ℚ} (hx : 0 ≤ x) (h : SqrtOf x r) : 0 ≤ r ∧ |(r : ℝ) ^ 2 - x| ≤ 2.001 * U * x := by
  have hU := U_pos; have hU1 := U_tiny.1
  have h' : |(r : ℝ) - Real.sqrt x| ≤ U * Real.sqrt x := h
  have hx' : (0 : ℝ) ≤ x := by exact_mod_cast hx
  have e := Real.sq_sqrt hx'
  have s0 := Real.sqrt_nonneg (x : ℝ)
  generalize Real.sqrt (x : ℝ) = s at *
  have b := abs_le.mp h'
  have b1 : U * s ≤ 0.0001 * s := mul_le_mul_of_nonneg_right (by linarith) s0
  constructor
  · have : (0 : ℝ) ≤ r := by linarith
    exact_mod_cast this
  · have e2 : (r : ℝ) ^ 2 - x = (r - s) * (r + s) := by rw [← e]; ring
    rw [e2, abs_mul]
    have c : |(r : ℝ) + s| ≤ 2.001 * s := abs_le.mpr ⟨by linarith, by linarith⟩
    refine (mul_le_mul h' c (abs_nonneg _) (by positivity)).trans (le_of_eq ?_)
    rw [← e]; ring

theorem factor_close {d : ℕ} [NeZero d] {cov vectors : Matrix (Fin d) (Fin d) ℚ} {values roots : Fin d → ℚ} (h : Roots cov values roots) {ε Λ : ℝ}
    (hs : ∀ i j, |(∑ k, (vectors i k : ℝ) * values k * vectors j k) - cov i j| ≤ ε) (hv : ∀ i, ∑ k, (vectors i k : ℝ) ^ 2 ≤ 1.01) (hΛ : ∀ k, (values k : ℝ) ≤ Λ)
    (h0 : 0 ≤ Λ) (i j : Fin d) :
    |(∑ k, ((vectors i k : ℝ) * roots k) * (vectors j k * roots k)) - cov i j| ≤ ε + 1.01 * (2.001 * U * Λ + tol cov) := by
  have hU := U_pos
  have htol : (0 : ℝ) ≤ tol cov := by
    have : tolBase ≤ tol cov := le_max_right _ _
    have h0 : (0 : ℚ) ≤ tolBase := by
      have := round64_mono (by norm_num : (0 : ℚ) ≤ 1 / 10 ^ 15)
      rwa [round64_zero] at this
    exact_mod_cast h0.trans this
  have k1 : ∀ k, |((vectors i k : ℝ) * roots k) * (vectors j k * roots k) - vectors i k * values k * vectors j k| ≤
      |(vectors i k : ℝ) * vectors j k| * (2.001 * U * Λ + tol cov) := fun k => by
    have e : ((vectors i k : ℝ) * roots k) * (vectors j k * roots k) - vectors i k * values k * vectors j k =
        (vectors i k * vectors j k) * ((roots k) ^ 2 - values k) := by ring
    rw [e, abs_mul]
    refine mul_le_mul_of_nonneg_left ?_ (abs_nonneg _)
    have r := (root_sq (le_max_right (values k) 0) (h.2 k)).2
    have t : -(tol cov : ℝ) < values k := by
      have : ((-tol cov : ℚ) : ℝ) < values k := Rat.cast_lt.mpr (h.1 k)
      rwa [Rat.cast_neg] at this
    rw [Rat.cast_max, Rat.cast_zero] at r
    have hm : max (values k : ℝ) 0 ≤ Λ := max_le (hΛ k) h0
    have r2 := mul_le_mul_of_nonneg_left hm (by positivity : 0 ≤ 2.001 * U)
    have m1 : |max (values k : ℝ) 0 - values k| ≤ tol cov := by
      rcases le_total (values k : ℝ) 0 with c | c
      · rw [max_eq_right c]; exact abs_le.mpr ⟨by linarith, by linarith⟩
      · rw [max_eq_left c, sub_self, abs_zero]; exact htol
    have e2 : (roots k : ℝ) ^ 2 - values k = ((roots k : ℝ) ^ 2 - max (values k : ℝ) 0) + (max (values k : ℝ) 0 - values k) := by ring
    rw [e2]
    exact (abs_add_le _ _).trans (add_le_add (r.trans r2) m1)
  have s1 : |(∑ k, ((vectors i k : ℝ) * roots k) * (vectors j k * roots k)) - ∑ k, (vectors i k : ℝ) * values k * vectors j k| ≤
      (∑ k, |(vectors i k : ℝ) * vectors j k|) * (2.001 * U * Λ + tol cov) := by
    rw [← Finset.sum_sub_distrib, Finset.sum_mul]
    exact (Finset.abs_sum_le_sum_abs _ _).trans (Finset.sum_le_sum fun k _ => k1 k)
  have s2 : ∑ k, |(vectors i k : ℝ) * vectors j k| ≤ 1.01 := by
    have : ∀ k, |(vectors i k : ℝ) * vectors j k| ≤ ((vectors i k : ℝ) ^ 2 + (vectors j k : ℝ) ^ 2) / 2 := fun k => by
      rw [abs_mul, ← sq_abs (vectors i k : ℝ), ← sq_abs (vectors j k : ℝ)]
      nlinarith [sq_nonneg (|(vectors i k : ℝ)| - |(vectors j k : ℝ)|)]
    refine (Finset.sum_le_sum fun k _ => this k).trans ?_
    rw [← Finset.sum_div, Finset.sum_add_distrib]
    linarith [hv i, hv j]
  have s3 := mul_le_mul_of_nonneg_right s2 (by positivity : 0 ≤ 2.001 * U * Λ + (tol cov : ℝ))
  have e : (∑ k, ((vectors i k : ℝ) * roots k) * (vectors j k * roots k)) - cov i j =
      ((∑ k, ((vectors i k : ℝ) * roots k) * (vectors j k * roots k)) - ∑ k, (vectors i k : ℝ) * values k * vectors j k) +
      ((∑ k, (vectors i k : ℝ) * values k * vectors j k) - cov i j) := by ring
  rw [e]
  refine (abs_add_le _ _).trans ?_
  linarith [hs i j]

theorem sample_some {d : ℕ} [NeZero d] (vectors : Matrix (Fin d) (Fin d) ℚ) (roots mu z : Fin d → ℚ) : ∃ r, Sample vectors roots mu z r := by
  choose p hp using fun j => Evaluates.some (fun k => round64 (z k * roots k)) (vectors j) (Finset.univ_nonempty (α := Fin d))
  exact ⟨fun j => round64 (p j + mu j), _, fun _ => rfl, fun j => ⟨p j, hp j, rfl⟩⟩

theorem roots_some {d : ℕ} [NeZero d] {cov : Matrix (Fin d) (Fin d) ℚ} {values : Fin d → ℚ} (h : ∀ k, -tol cov < values k) : ∃ roots, Roots cov values roots := by
  choose r hr using fun k => sqrtOf_some (max (values k) 0)
  exact ⟨r, h, hr⟩

theorem entryRange_nonneg {d : ℕ} [NeZero d] (cov : Matrix (Fin d) (Fin d) ℚ) : 0 ≤ entryRange cov := by
  unfold entryRange
  have h1 := Finset.le_sup' (fun p : Fin d × Fin d => cov p.1 p.2) (Finset.mem_univ (0, 0))
  have h2 := Finset.inf'_le (fun p : Fin d × Fin d => cov p.1 p.2) (Finset.mem_univ (0, 0))
  exact sub_nonneg.mpr (h2.trans h1)

theorem tol_close {d : ℕ} [NeZero d] (cov : Matrix (Fin d) (Fin d) ℚ) :
    |(tol cov : ℝ) - 1e-15 * max (entryRange cov : ℝ) 1| ≤ 4 * U * (1e-15 * max (entryRange cov : ℝ) 1) := by
  have hU := U_pos; have hU1 := U_tiny.1; have hH := H_pos; have hHH := tiny_numbers.2; have hU2 := U_tiny.2
  have h0 : (0 : ℝ) ≤ entryRange cov := by exact_mod_cast entryRange_nonneg cov
  have t1 := rnd (1 / 10 ^ 15)
  change |(tolBase : ℝ) - _| ≤ _ at t1
  push_cast at t1
  rw [abs_of_pos (by norm_num : (0 : ℝ) < 1 / 10 ^ 15)] at t1
  have t2 : |(tolBase : ℝ) - 1e-15| ≤ 1.001 * U * 1e-15 := by
    rw [show (1e-15 : ℝ) = 1 / 10 ^ 15 by norm_num]
    refine t1.trans ?_
    have : H ≤ 0.001 * U * (1 / 10 ^ 15) := by
      have : (1e-60 : ℝ) ≤ 0.001 * 1e-16 * (1 / 10 ^ 15) := by norm_num
      nlinarith
    linarith
  have e : tol cov = max (round64 (round64 (entryRange cov) * tolBase)) tolBase := rfl
  rw [e, Rat.cast_max]
  have t3 := rnd (entryRange cov)
  have t4 := rnd (round64 (entryRange cov) * tolBase)
  push_cast at t4
  rw [abs_of_nonneg h0] at t3
  generalize (tolBase : ℝ) = b at *
  generalize ((round64 (entryRange cov) : ℚ) : ℝ) = q at *
  generalize ((round64 (round64 (entryRange cov) * tolBase) : ℚ) : ℝ) = x at *
  generalize (entryRange cov : ℝ) = R at *
  set m := max R 1 with hm
  have m1 : 1 ≤ m := le_max_right _ _
  have mR : R ≤ m := le_max_left _ _
  have b2 := abs_le.mp t2
  have q2 := abs_le.mp t3
  have bU : 1.001 * U * 1e-15 ≤ 1e-25 := by linarith
  have b0 : 0 < b := by linarith
  have hHm : H ≤ 0.001 * (U * (1e-15 * m)) := by
    have : (1e-60 : ℝ) ≤ 0.001 * (1e-16 * 1e-15) := by norm_num
    nlinarith
  have hHq : H ≤ 0.001 * (U * m) := by nlinarith
  have key : |q * b - R * 1e-15| ≤ 2.01 * (U * (1e-15 * m)) := by
    have e : q * b - R * 1e-15 = (q - R) * b + R * (b - 1e-15) := by ring
    rw [e]
    refine (abs_add_le _ _).trans ?_
    rw [abs_mul, abs_mul, abs_of_pos b0, abs_of_nonneg h0]
    have c1 : |q - R| * b ≤ (1.001 * (U * m)) * (1.001 * 1e-15) := by
      refine mul_le_mul (t3.trans ?_) (by linarith) b0.le (by positivity)
      have := mul_le_mul_of_nonneg_left mR hU.le
      linarith
    have c2 : R * |b - 1e-15| ≤ m * (1.001 * U * 1e-15) := mul_le_mul mR t2 (abs_nonneg _) (by linarith)
    have c3 : 0 ≤ U * m := by positivity
    linarith
  have k2 := abs_le.mp key
  have xb : |x - R * 1e-15| ≤ 3.1 * (U * (1e-15 * m)) := by
    have qb : |q * b| ≤ 1.001 * (1e-15 * m) := by
      have : U * (1e-15 * m) ≤ 0.0001 * (1e-15 * m) := mul_le_mul_of_nonneg_right (by linarith) (by positivity)
      have c0 : 0 ≤ R * 1e-15 := by positivity
      have cm : R * 1e-15 ≤ m * 1e-15 := mul_le_mul_of_nonneg_right mR (by norm_num)
      exact abs_le.mpr ⟨by linarith, by linarith⟩
    have c := mul_le_mul_of_nonneg_left qb hU.le
    have k3 := abs_le.mp t4
    exact abs_le.mpr ⟨by linarith, by linarith⟩
  have k4 := abs_le.mp xb
  have pm : 0 ≤ U * (1e-15 * m) := by positivity
  have pb : U * 1e-15 ≤ U * (1e-15 * m) := mul_le_mul_of_nonneg_left (by linarith) hU.le
  rw [abs_le]
  constructor
  · rcases le_total R 1 with c | c
    · rw [hm, max_eq_right c] at *
      linarith [le_max_right x b]
    · rw [hm, max_eq_left c] at *
      linarith [le_max_left x b]
  · have : max x b ≤ 1e-15 * m + 4 * U * (1e-15 * m) := max_le (by linarith) (by linarith)
    linarith

end Verif.GaussianDouble
