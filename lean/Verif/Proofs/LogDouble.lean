import Verif.Model.LogDouble
import Verif.Proofs.QuatMetric
import Verif.Proofs.ExpDouble
/-! # Rounding errors of the rotation logarithm -/
namespace Verif.LogDouble
open SampleIntervalDouble TransformDouble ExpDouble Verif.Spec Matrix SO3

theorem entry_of_turnsAlike {a b : M3} {e : ℝ} (h : TurnsAlike e a b) (i j : Fin 3) : |a i j - b i j| ≤ e := by
  have := h (Pi.single j 1)
  have h1 : eucNorm (Pi.single j 1 : V3) = 1 := by
    rw [eucNorm, sqNorm_eq]
    fin_cases j <;> simp
  rw [h1, mul_one] at this
  have h2 := (abs_entry_le _ i).trans this
  simpa using h2

theorem rotation_entry {R : M3} (h : IsRotation R) (i j : Fin 3) : |R i j| ≤ 1 := by
  have h1 : eucNorm (R *ᵥ Pi.single j 1) = 1 := by
    rw [eucNorm, sqNorm_mulVec h, sqNorm_eq]
    fin_cases j <;> simp
  have := abs_entry_le (R *ᵥ Pi.single j 1) i
  rw [h1] at this
  simpa using this

/-- Errors of the square root of a trace and of half its reciprocal. -/
theorem half_err {s t : ℚ} {T τ x : ℝ} (hτ : 0 < τ) (hT : τ ^ 2 = T) (h0 : 0.99 ≤ T) (h4 : T ≤ 4) (hs : |(s : ℝ) - T| ≤ x) (hx : x ≤ 1 / 100)
    (ht : SqrtOf s t) :
    |((round64 (1 / 2 * t) : ℚ) : ℝ) - 1 / 2 * τ| ≤ 0.26 * x + 3 * U ∧ |((round64 (1 / 2 / t) : ℚ) : ℝ) - 1 / 2 / τ| ≤ 0.27 * x + 3 * U ∧
    1 / 2 / τ ≤ 0.503 := by
  obtain ⟨hU, -⟩ := U_tiny
  have hU0 := U_pos
  have hH := H_tiny
  have hH0 := H_pos
  have hs' := abs_le.mp hs
  have hx0 : 0 ≤ x := (abs_nonneg _).trans hs
  have hsp : (0.98 : ℝ) ≤ s := by linarith
  have hs4 : (s : ℝ) ≤ 4.01 := by linarith
  obtain ⟨r, hr⟩ : ∃ r, r = Real.sqrt s := ⟨_, rfl⟩
  have hr0 : 0 ≤ r := hr ▸ Real.sqrt_nonneg _
  have hr2 : r ^ 2 = s := by rw [hr]; exact Real.sq_sqrt (by linarith)
  have hr1 : 0.989 ≤ r := by nlinarith
  have hr3 : r ≤ 2.01 := by nlinarith
  have hτ1 : 0.9949 ≤ τ := by nlinarith
  have hτ2 : τ ≤ 2 := by nlinarith
  unfold SqrtOf at ht
  rw [← hr] at ht
  change |(t : ℝ) - r| ≤ U * r at ht
  have d1 : |r - τ| ≤ 0.51 * x := by
    have : (r - τ) * (r + τ) = s - T := by rw [← hr2, ← hT]; ring
    have e : |r - τ| * (r + τ) = |(s : ℝ) - T| := by rw [← this, abs_mul, abs_of_pos (by linarith : 0 < r + τ)]
    have hn := abs_nonneg (r - τ)
    nlinarith
  have d2 : |(t : ℝ) - τ| ≤ 0.51 * x + 2.01 * U := by
    have : (t : ℝ) - τ = (t - r) + (r - τ) := by ring
    rw [this]
    refine (abs_add_le _ _).trans ?_
    nlinarith
  have d2' := abs_le.mp d2
  have ht1 : 0.98 ≤ (t : ℝ) := by linarith
  have ht2 : (t : ℝ) ≤ 2.02 := by linarith
  have hi : 1 / 2 / τ ≤ 0.503 := by rw [div_le_iff₀ hτ]; linarith
  refine ⟨?_, ?_, hi⟩
  · have := rnd (1 / 2 * t)
    push_cast at this
    have e : ((round64 (1 / 2 * t) : ℚ) : ℝ) - 1 / 2 * τ = (((round64 (1 / 2 * t) : ℚ) : ℝ) - 1 / 2 * t) + 1 / 2 * (t - τ) := by ring
    rw [e]
    refine (abs_add_le _ _).trans ?_
    rw [abs_mul (1 / 2 : ℝ), abs_of_pos (by norm_num : (0 : ℝ) < 1 / 2)]
    rw [abs_of_pos (by linarith : (0 : ℝ) < 1 / 2 * t)] at this
    have : U * (1 / 2 * (t : ℝ)) ≤ U * 1.01 := mul_le_mul_of_nonneg_left (by linarith) hU0.le
    linarith
  · have := rnd (1 / 2 / t)
    push_cast at this
    have htp : (0 : ℝ) < t := by linarith
    have e : ((round64 (1 / 2 / t) : ℚ) : ℝ) - 1 / 2 / τ = (((round64 (1 / 2 / t) : ℚ) : ℝ) - 1 / 2 / t) + (1 / 2 / t - 1 / 2 / τ) := by ring
    have e2 : (1 / 2 / t - 1 / 2 / τ : ℝ) = (τ - t) * (1 / 2 / t * (1 / τ)) := by field_simp
    have b1 : (1 / 2 / t : ℝ) ≤ 0.511 := by rw [div_le_iff₀ htp]; linarith
    have b2 : (1 / τ : ℝ) ≤ 1.006 := by rw [div_le_iff₀ hτ]; linarith
    have b3 : (0 : ℝ) ≤ 1 / 2 / t := by positivity
    have b4 : (0 : ℝ) ≤ 1 / τ := by positivity
    have b5 : (1 / 2 / t * (1 / τ) : ℝ) ≤ 0.515 := by
      have := mul_le_mul b1 b2 b4 (by norm_num)
      linarith
    rw [e, e2]
    refine (abs_add_le _ _).trans ?_
    rw [abs_mul (τ - (t : ℝ)), abs_of_nonneg (mul_nonneg b3 b4), abs_sub_comm τ]
    rw [abs_of_nonneg b3] at this
    have c1 : U * (1 / 2 / (t : ℝ)) ≤ U * 0.511 := mul_le_mul_of_nonneg_left b1 hU0.le
    have c2 := mul_le_mul d2 b5 (mul_nonneg b3 b4) (by linarith)
    linarith

/-- Error of a component that is a sum or difference of two entries times the factor. -/
theorem part_err {d r : ℚ} {D ρ x y : ℝ} (hd : |((d : ℚ) : ℝ) - D| ≤ x) (hD : |D| ≤ 2) (hr : |(r : ℝ) - ρ| ≤ y) (hρ0 : 0 ≤ ρ) (hρ : ρ ≤ 0.503)
    (hx : x ≤ 1 / 100) (hy : y ≤ 1 / 100) :
    |((round64 (round64 d * r) : ℚ) : ℝ) - D * ρ| ≤ 0.503 * x + 2.02 * y + 3 * U := by
  obtain ⟨hU, -⟩ := U_tiny
  have hU0 := U_pos
  have hH := H_tiny
  have hH0 := H_pos
  have hx0 := (abs_nonneg _).trans hd
  have hy0 := (abs_nonneg _).trans hr
  have hd' := abs_le.mp hd
  have hD' := abs_le.mp hD
  have hda : |(d : ℝ)| ≤ 2.01 := by rw [abs_le]; constructor <;> linarith
  have r1 := rnd d
  have r1' : |((round64 d : ℚ) : ℝ) - d| ≤ 2.011 * U := by nlinarith
  have r1'' := abs_le.mp r1'
  have hda' := abs_le.mp hda
  have r2 : |((round64 d : ℚ) : ℝ)| ≤ 2.011 := by rw [abs_le]; constructor <;> linarith
  have hr' := abs_le.mp hr
  have hrr : |(r : ℝ)| ≤ 0.52 := by rw [abs_le]; constructor <;> linarith
  have r3 := rnd (round64 d * r)
  push_cast at r3
  have p1 : |((round64 d : ℚ) : ℝ) * r| ≤ 1.05 := by
    rw [abs_mul]
    have := mul_le_mul r2 hrr (abs_nonneg _) (by norm_num)
    linarith
  have e1 : |((round64 d : ℚ) : ℝ) - D| ≤ x + 2.011 * U := by
    have : ((round64 d : ℚ) : ℝ) - D = (((round64 d : ℚ) : ℝ) - d) + (d - D) := by ring
    rw [this]; exact (abs_add_le _ _).trans (by linarith)
  have p2 := prod_err e1 hr r2 ((abs_of_nonneg hρ0).trans_le hρ)
  have p3 : U * |((round64 d : ℚ) : ℝ) * r| ≤ U * 1.05 := mul_le_mul_of_nonneg_left p1 hU0.le
  have : ((round64 (round64 d * r) : ℚ) : ℝ) - D * ρ = (((round64 (round64 d * r) : ℚ) : ℝ) - ((round64 d : ℚ) : ℝ) * r) + (((round64 d : ℚ) : ℝ) * r - D * ρ) := by ring
  rw [this]
  refine (abs_add_le _ _).trans ?_
  linarith

theorem largest_max (m : Matrix (Fin 3) (Fin 3) ℚ) (l : Fin 3) : m l l ≤ m (largest m) (largest m) := by
  unfold largest
  by_cases h1 : m 1 1 > m 0 0
  · by_cases h2 : m 2 2 > m 1 1
    · fin_cases l <;> simp [h1, h2] <;> linarith
    · fin_cases l <;> simp [h1, h2] <;> linarith
  · by_cases h2 : m 2 2 > m 0 0
    · fin_cases l <;> simp [h1, h2] <;> linarith
    · fin_cases l <;> simp [h1, h2] <;> linarith

/-- The computed quaternion is close to one of the two unit quaternions of the rotation. -/
theorem quat_err {m : Matrix (Fin 3) (Fin 3) ℚ} {R : M3} {δ : ℝ} (hR : IsRotation R) (hm : TurnsAlike δ (realRot m) R) (hδ : δ ≤ 1 / 1000)
    {q : Quat64} (h : QuatOf m q) :
    ∃ Q : Quat, quatMatrix Q = R ∧ qsq Q = 1 ∧ |(q.w : ℝ) - Q.w| ≤ 2.7 * δ + 19 * U ∧ ∀ i, |(q.v i : ℝ) - Q.v i| ≤ 2.7 * δ + 19 * U := by
  obtain ⟨hU, -⟩ := U_tiny
  have hU0 := U_pos
  have hH := H_tiny
  have hH0 := H_pos
  have hδ0 := turnsAlike_nonneg hm
  have ent : ∀ i j, |(m i j : ℝ) - R i j| ≤ δ := entry_of_turnsAlike hm
  have one := rotation_entry hR
  have one' := fun i j => abs_le.mp (one i j)
  have ent' := fun i j => abs_le.mp (ent i j)
  have big : ∀ i j, |(m i j : ℝ)| ≤ 1.001 := fun i j => by
    rw [abs_le]; constructor <;> linarith [ent' i j, one' i j]
  have dif : ∀ i j k l, |((m i j - m k l : ℚ) : ℝ) - (R i j - R k l)| ≤ 2 * δ := fun i j k l => by
    push_cast; rw [abs_le]; constructor <;> linarith [ent' i j, ent' k l]
  have sum : ∀ i j k l, |((m i j + m k l : ℚ) : ℝ) - (R i j + R k l)| ≤ 2 * δ := fun i j k l => by
    push_cast; rw [abs_le]; constructor <;> linarith [ent' i j, ent' k l]
  have dif2 : ∀ i j k l, |R i j - R k l| ≤ 2 := fun i j k l => by rw [abs_le]; constructor <;> linarith [one' i j, one' k l]
  have sum2 : ∀ i j k l, |R i j + R k l| ≤ 2 := fun i j k l => by rw [abs_le]; constructor <;> linarith [one' i j, one' k l]
  obtain ⟨tr, htr, h⟩ := h
  have ht := eval3 htr
  have ht1 : |(tr : ℝ) - (m 0 0 + m 1 1 + m 2 2)| ≤ 10 * U := by
    have b0 := big 0 0
    have b1 := big 1 1
    have b2 := big 2 2
    push_cast at ht
    simp only [one_mul] at ht
    have := mul_le_mul_of_nonneg_left (by linarith : |(m 0 0 : ℝ)| + |(m 1 1 : ℝ)| + |(m 2 2 : ℝ)| ≤ 3.003) hU0.le
    linarith
  have ht2 := abs_le.mp ht1
  split_ifs at h with hp
  · obtain ⟨t, hst, rfl⟩ := h
    have hpr : (0 : ℝ) < tr := by exact_mod_cast hp
    have hs := rnd (tr + 1)
    have hs1 : |((round64 (tr + 1) : ℚ) : ℝ) - (R 0 0 + R 1 1 + R 2 2 + 1)| ≤ 3 * δ + 15 * U := by
      push_cast at hs
      have b : |(tr : ℝ) + 1| ≤ 4.1 := by
        rw [abs_le]; constructor <;> linarith [ent' 0 0, ent' 1 1, ent' 2 2, one' 0 0, one' 1 1, one' 2 2]
      have := abs_le.mp (hs.trans (by have := mul_le_mul_of_nonneg_left b hU0.le; linarith : _ ≤ 4.2 * U))
      rw [abs_le]; constructor <;> linarith [ent' 0 0, ent' 1 1, ent' 2 2]
    have hT : 0.99 ≤ R 0 0 + R 1 1 + R 2 2 + 1 := by linarith [ent' 0 0, ent' 1 1, ent' 2 2]
    have hT4 : R 0 0 + R 1 1 + R 2 2 + 1 ≤ 4 := by linarith [one' 0 0, one' 1 1, one' 2 2]
    have hsq := Real.sq_sqrt (by linarith : 0 ≤ R 0 0 + R 1 1 + R 2 2 + 1)
    have hpos := Real.sqrt_pos.mpr (by linarith : 0 < R 0 0 + R 1 1 + R 2 2 + 1)
    obtain ⟨h1, h2, h3⟩ := half_err hpos hsq hT hT4 hs1 (by linarith) hst
    generalize Real.sqrt (R 0 0 + R 1 1 + R 2 2 + 1) = τ at *
    have hρ : 0 ≤ 1 / 2 / τ := by positivity
    obtain ⟨k1, k2⟩ := quat_main_branch hR hsq hpos ⟨1 / 2 * τ, ![(R 2 1 - R 1 2) * (1 / 2 / τ), (R 0 2 - R 2 0) * (1 / 2 / τ), (R 1 0 - R 0 1) * (1 / 2 / τ)]⟩
      rfl rfl rfl rfl
    have P := fun i j k l => part_err (dif i j k l) (dif2 i j k l) h2 hρ h3 (by linarith) (by linarith)
    refine ⟨_, k1, k2, h1.trans (by linarith), ?_⟩
    intro i
    fin_cases i
    · exact (P 2 1 1 2).trans (by linarith)
    · exact (P 0 2 2 0).trans (by linarith)
    · exact (P 1 0 0 1).trans (by linarith)
  · obtain ⟨i, hi⟩ : ∃ i, i = largest m := ⟨_, rfl⟩
    have hmax := largest_max m
    rw [← hi] at hmax h
    have hpr : (tr : ℝ) ≤ 0 := by exact_mod_cast not_lt.mp hp
    have e12 : i + 1 + 1 = i + 2 := by rw [add_assoc]; rfl
    have n1 : i + 1 ≠ i := by simp
    have n2 : i + 2 ≠ i := by simp
    have n3 : i + 2 ≠ i + 1 := by simp
    have hsum : R i i + R (i + 1) (i + 1) + R (i + 2) (i + 2) = R 0 0 + R 1 1 + R 2 2 := by
      clear hi hmax h e12 n1 n2 n3
      fin_cases i <;> simp [show (1 : Fin 3) + 1 = 2 from rfl, show (2 : Fin 3) + 1 = 0 from rfl, show (1 : Fin 3) + 2 = 0 from rfl, show (2 : Fin 3) + 2 = 1 from rfl] <;> ring
    simp only [e12] at h
    obtain ⟨t, hst, rfl⟩ := h
    have m1 : (m (i + 1) (i + 1) : ℝ) ≤ m i i := by exact_mod_cast hmax (i + 1)
    have m2 : (m (i + 2) (i + 2) : ℝ) ≤ m i i := by exact_mod_cast hmax (i + 2)
    have hT : 0.99 ≤ R i i - R (i + 1) (i + 1) - R (i + 2) (i + 2) + 1 := by
      linarith [ent' 0 0, ent' 1 1, ent' 2 2, ent' i i, ent' (i + 1) (i + 1), ent' (i + 2) (i + 2)]
    have hT4 : R i i - R (i + 1) (i + 1) - R (i + 2) (i + 2) + 1 ≤ 4 := by
      linarith [one' i i, one' (i + 1) (i + 1), one' (i + 2) (i + 2)]
    have hs1 : |((round64 (round64 (round64 (m i i - m (i + 1) (i + 1)) - m (i + 2) (i + 2)) + 1) : ℚ) : ℝ) -
        (R i i - R (i + 1) (i + 1) - R (i + 2) (i + 2) + 1)| ≤ 3 * δ + 15 * U := by
      have ea := ent' i i
      have eb := ent' (i + 1) (i + 1)
      have ec := ent' (i + 2) (i + 2)
      have oa := one' i i
      have ob := one' (i + 1) (i + 1)
      have oc := one' (i + 2) (i + 2)
      generalize m i i = a at *
      generalize m (i + 1) (i + 1) = b at *
      generalize m (i + 2) (i + 2) = c at *
      have r1 := rnd (a - b)
      have r2 := rnd (round64 (a - b) - c)
      have r3 := rnd (round64 (round64 (a - b) - c) + 1)
      generalize round64 (round64 (round64 (a - b) - c) + 1) = z at *
      generalize round64 (round64 (a - b) - c) = y at *
      generalize round64 (a - b) = x at *
      push_cast at r1 r2 r3
      have b1 : |(a : ℝ) - b| ≤ 2.01 := by rw [abs_le]; constructor <;> linarith
      have r1' := abs_le.mp (r1.trans (by have := mul_le_mul_of_nonneg_left b1 hU0.le; linarith : _ ≤ 2.1 * U))
      have b2 : |(x : ℝ) - c| ≤ 3.02 := by rw [abs_le]; constructor <;> linarith
      have r2' := abs_le.mp (r2.trans (by have := mul_le_mul_of_nonneg_left b2 hU0.le; linarith : _ ≤ 3.1 * U))
      have b3 : |(y : ℝ) + 1| ≤ 4.1 := by rw [abs_le]; constructor <;> linarith
      have r3' := abs_le.mp (r3.trans (by have := mul_le_mul_of_nonneg_left b3 hU0.le; linarith : _ ≤ 4.2 * U))
      rw [abs_le]; constructor <;> linarith
    have hsq := Real.sq_sqrt (by linarith : 0 ≤ R i i - R (i + 1) (i + 1) - R (i + 2) (i + 2) + 1)
    have hpos := Real.sqrt_pos.mpr (by linarith : 0 < R i i - R (i + 1) (i + 1) - R (i + 2) (i + 2) + 1)
    obtain ⟨h1, h2, h3⟩ := half_err hpos hsq hT hT4 hs1 (by linarith) hst
    generalize Real.sqrt (R i i - R (i + 1) (i + 1) - R (i + 2) (i + 2) + 1) = τ at *
    have hρ : 0 ≤ 1 / 2 / τ := by positivity
    generalize hq : Quat.mk ((R (i + 2) (i + 1) - R (i + 1) (i + 2)) * (1 / 2 / τ)) (fun l => if l = i then 1 / 2 * τ else
      if l = i + 1 then (R (i + 1) i + R i (i + 1)) * (1 / 2 / τ) else (R (i + 2) i + R i (i + 2)) * (1 / 2 / τ)) = Q
    have key := quat_other_branch (isRotation_shift hR i) (t := τ) (by simpa using hsq) hpos ⟨Q.w, fun l => Q.v (i + l)⟩
      (by rw [← hq]; simp) (by rw [← hq]; simp) (by rw [← hq]; simp) (by rw [← hq]; simp [n2])
    rw [qsq_shift, quatMatrix_shift] at key
    have P := fun i j k l => part_err (dif i j k l) (dif2 i j k l) h2 hρ h3 (by linarith) (by linarith)
    have S := fun i j k l => part_err (sum i j k l) (sum2 i j k l) h2 hρ h3 (by linarith) (by linarith)
    refine ⟨Q, shift_injective i key.1, key.2, ?_, ?_⟩
    · rw [← hq]
      exact (P (i + 2) (i + 1) (i + 1) (i + 2)).trans (by linarith)
    · intro l
      rw [← hq]
      simp only
      split_ifs with c1 c2
      · exact h1.trans (by linarith)
      · exact (S (i + 1) i i (i + 1)).trans (by linarith)
      · exact (S (i + 2) i i (i + 2)).trans (by linarith)

end Verif.LogDouble
