import Verif.Proofs.StatsDoubleGaussian
import Verif.Props.Stats
/-! # C114: sample mean and covariance in doubles -/
namespace Verif.Props
open Verif.Spec Verif.Spec.Stats Verif.Stats Verif.StatsDouble SampleIntervalDouble TransformDouble Matrix

/-- In whatever order the additions are made, the computed mean of each column is within its allowance of the exact one; some mean is computed. -/
theorem c114_mean {n d : ℕ} (hn : n < 2 ^ 32) (h0 : n ≠ 0) (s : Matrix (Fin n) (Fin d) ℚ) :
    (∃ m, MeanOf s m) ∧ ∀ m, MeanOf s m → ∀ j, |(m j : ℝ) - average (reals s) j| ≤ meanError (reals s) j :=
  ⟨mean_exists h0 s, fun m h j => mean_close hn h0 s m h j⟩

/-- The covariance of fewer than two rows is refused; otherwise some covariance is computed, each computed entry is close to the exact one (the error of the
mean enters only through a product of two such errors), and computed variances are not negative. -/
theorem c114_covariance {n d : ℕ} (hn : n < 2 ^ 32) (s : Matrix (Fin n) (Fin d) ℚ) (hs : ∀ i j, IsDouble (s i j)) :
    ((∃ c, CovarianceOf s c) ↔ 2 ≤ n) ∧ ∀ c, CovarianceOf s c → (∀ j, 0 ≤ c j j) ∧ ∀ j k, |(c j k : ℝ) - unbiased (reals s) j k| ≤
      1.001 * (n + 3) * 2 ^ (-53 : ℤ) *
        ((deviation (reals s) j + 1.5 * meanError (reals s) j) * (deviation (reals s) k + 1.5 * meanError (reals s) k)) +
      2 * meanError (reals s) j * meanError (reals s) k + 5 * 2 ^ (-1075 : ℤ) := by
  have en : sampleCount n = n := Nat.mod_eq_of_lt hn
  refine ⟨⟨fun ⟨c, h⟩ => ?_, fun h2 => covariance_exists hn h2 s⟩, fun c h => ⟨fun j => ?_, fun j k => covariance_close hn s hs c h j k⟩⟩
  · have := h.1
    rw [en] at this
    exact this
  · obtain ⟨-, m, -, hc⟩ := h
    obtain ⟨p, hp, e⟩ := hc j j
    rw [e]
    exact round64_nonneg (div_nonneg (evaluates_self_nonneg hp) (Nat.cast_nonneg _))

/-- Four samples around the origin. -/
def crossed : Matrix (Fin 4) (Fin 2) ℚ := !![1, 0; -1, 0; 0, 1; 0, -1]

/-- They are doubles with covariance 2/3 times the identity. -/
theorem crossed_meets : (∀ i j, IsDouble (crossed i j)) ∧ (∀ j k, unbiased (reals crossed) j k = if j = k then 2 / 3 else 0) ∧
    (∀ j, averageAbs (reals crossed) j = 1 / 2) := by
  refine ⟨fun i j => ⟨![![1, 0], ![-1, 0], ![0, 1], ![0, -1]] i j, 0, ?_, by norm_num, by norm_num, ?_⟩, fun j k => ?_, fun j => ?_⟩
  · fin_cases i <;> fin_cases j <;> simp
  · fin_cases i <;> fin_cases j <;> simp [crossed]
  · fin_cases j <;> fin_cases k <;> simp [unbiased, average, reals, crossed, Fin.sum_univ_four] <;> norm_num
  · fin_cases j <;> simp [averageAbs, reals, crossed, Fin.sum_univ_four] <;> norm_num

/-- So every computed covariance of these samples is close to that. -/
example : ∃ c, CovarianceOf crossed c ∧ |(c 0 1 : ℝ)| ≤ 1e-14 := by
  have t := c114_covariance (by norm_num) crossed crossed_meets.1
  obtain ⟨c, hc⟩ := t.1.mpr (by norm_num)
  refine ⟨c, hc, ?_⟩
  have h := (t.2 c hc).2 0 1
  have dev : ∀ j, deviation (reals crossed) j ≤ 1 := fun j => by
    unfold deviation
    rw [crossed_meets.2.1 j j, if_pos rfl]
    exact Real.sqrt_le_one.mpr (by norm_num)
  have H0 : (2 : ℝ) ^ (-1075 : ℤ) ≤ 1e-18 := (zpow_le_zpow_right₀ (by norm_num) (by norm_num : (-1075 : ℤ) ≤ -60)).trans (by norm_num)
  have Hn : (0 : ℝ) < 2 ^ (-1075 : ℤ) := zpow_pos (by norm_num) _
  obtain ⟨v, hv⟩ : ∃ v, v = (2 : ℝ) ^ (-1075 : ℤ) := ⟨_, rfl⟩
  rw [← hv] at H0 Hn h
  have me : ∀ j, meanError (reals crossed) j ≤ 1e-15 := fun j => by
    unfold meanError
    rw [crossed_meets.2.2 j, ← hv]
    have e : (1.002 : ℝ) * (((4 : ℕ) : ℝ) + 1) * 2 ^ (-53 : ℤ) * (1 / 2) + 4 * 1e-18 ≤ 1e-15 := by norm_num
    linarith only [e, H0]
  have m0 := me 0
  have m1 := me 1
  have p0 := meanError_nonneg (reals crossed) 0
  have p1 := meanError_nonneg (reals crossed) 1
  have d0 := dev 0
  have d1 := dev 1
  have q0 : 0 ≤ deviation (reals crossed) 0 := Real.sqrt_nonneg _
  have q1 : 0 ≤ deviation (reals crossed) 1 := Real.sqrt_nonneg _
  rw [crossed_meets.2.1 0 1, if_neg (by decide), sub_zero] at h
  have a : (deviation (reals crossed) 0 + 1.5 * meanError (reals crossed) 0) * (deviation (reals crossed) 1 + 1.5 * meanError (reals crossed) 1) ≤ 1.1 * 1.1 :=
    mul_le_mul (by linarith) (by linarith) (by linarith) (by norm_num)
  have b := mul_le_mul m0 m1 p1 (by norm_num)
  have e : (2 : ℝ) ^ (-53 : ℤ) ≤ 1.2e-16 := by norm_num
  have z : (0 : ℝ) < 2 ^ (-53 : ℤ) := zpow_pos (by norm_num) _
  have f : 1.001 * (((4 : ℕ) : ℝ) + 3) * 2 ^ (-53 : ℤ) *
      ((deviation (reals crossed) 0 + 1.5 * meanError (reals crossed) 0) * (deviation (reals crossed) 1 + 1.5 * meanError (reals crossed) 1)) ≤
      1.001 * (((4 : ℕ) : ℝ) + 3) * 1.2e-16 * (1.1 * 1.1) :=
    mul_le_mul (mul_le_mul_of_nonneg_left e (by norm_num)) a (mul_nonneg (by linarith) (by linarith)) (by norm_num)
  have g : (1.001 : ℝ) * (((4 : ℕ) : ℝ) + 3) * 1.2e-16 * (1.1 * 1.1) + 2 * (1e-15 * 1e-15) + 5 * 1e-18 ≤ 1e-14 := by norm_num
  linarith only [g, h, f, b, H0]

/-- Samples whose columns are spread out (the number of samples times the average magnitude is below 2^26 standard deviations) and not close to a hyperplane
(the exact covariance exceeds a small multiple of the total variance in every direction): whatever covariance is computed, a solver that works makes the
constructor of `Gaussian` accept it. -/
theorem c114_accepted {n d : ℕ} (hn : n < 2 ^ 32) (hd : d ≠ 0) (s : Matrix (Fin n) (Fin d) ℚ) (hs : ∀ i j, IsDouble (s i j)) (c : Matrix (Fin d) (Fin d) ℚ)
    (h : CovarianceOf s c) (ha : ∀ j, (n + 1) * averageAbs (reals s) j ≤ 2 ^ 26 * deviation (reals s) j) (hb : ∀ j, 2 ^ (-500 : ℤ) ≤ deviation (reals s) j)
    (hsize : (n + 5) ^ 2 * d ≤ 19000000)
    (hdef : ∀ x, lengthSq x = 1 →
      1.002 * (n + 5) * 2 ^ (-53 : ℤ) * totalVariance (reals s) ≤ quadratic (Matrix.of fun j k => unbiased (reals s) j k) x)
    (solver : Matrix (Fin d) (Fin d) ℝ → Solved d) (hw : Works solver) (mu : Fin d → ℝ) : ∃ g, Gaussian.make solver mu (reals c) = .ok g :=
  accepted hn hd s hs c h ha hb hsize hdef solver hw mu

/-- For example those four samples. -/
theorem crossed_accepted (solver : Matrix (Fin 2) (Fin 2) ℝ → Solved 2) (hw : Works solver) (mu : Fin 2 → ℝ) :
    ∃ c, CovarianceOf crossed c ∧ ∃ g, Gaussian.make solver mu (reals c) = .ok g := by
  obtain ⟨h1, h2, h3⟩ := crossed_meets
  obtain ⟨c, hc⟩ := (c114_covariance (by norm_num) crossed h1).1.mpr (by norm_num)
  have dev : ∀ j, 1 / 2 ≤ deviation (reals crossed) j := fun j => by
    unfold deviation
    rw [h2 j j, if_pos rfl]
    exact Real.le_sqrt_of_sq_le (by norm_num)
  refine ⟨c, hc, c114_accepted (by norm_num) (by norm_num) crossed h1 c hc (fun j => ?_) (fun j => ?_) (by norm_num) (fun x hx => ?_) solver hw mu⟩
  · rw [h3 j]
    have := dev j
    norm_num at this ⊢
    linarith
  · refine le_trans ?_ (dev j)
    have : (2 : ℝ) ^ (-500 : ℤ) ≤ 2 ^ (-1 : ℤ) := zpow_le_zpow_right₀ (by norm_num) (by norm_num)
    exact this.trans (by norm_num)
  · have e : quadratic (Matrix.of fun j k => unbiased (reals crossed) j k) x = 2 / 3 * lengthSq x := by
      simp only [quadratic, lengthSq, Fin.sum_univ_two, Matrix.of_apply, h2]
      norm_num
      ring
    have t : totalVariance (reals crossed) = 4 / 3 := by
      simp only [totalVariance, Fin.sum_univ_two, h2]
      norm_num
    rw [e, hx, t]
    norm_num

/-! ## What does not hold in doubles -/

/-- The double nearest to one tenth. -/
def tenth : ℚ := 3602879701896397 / 2 ^ 55

/-- Three samples that are all the double nearest to one tenth: however the sums are evaluated, the computed mean is a larger number and the computed variance
is positive. -/
theorem c114_constant (m : Fin 1 → ℚ) (hm : MeanOf (Matrix.of fun (_ : Fin 3) (_ : Fin 1) => tenth) m) (c : Matrix (Fin 1) (Fin 1) ℚ)
    (hc : CovarianceOf (Matrix.of fun (_ : Fin 3) (_ : Fin 1) => tenth) c) : IsDouble tenth ∧ tenth < m 0 ∧ 0 < c 0 0 := by
  have hmean : ∀ m : Fin 1 → ℚ, MeanOf (Matrix.of fun (_ : Fin 3) (_ : Fin 1) => tenth) m → m 0 = 7205759403792795 / 2 ^ 56 := by
    intro m hm
    obtain ⟨t, ht, e⟩ := hm 0
    have := (evaluates_equal (a := tenth) (b := 3602879701896397 / 2 ^ 54) (c := 2702159776422298 / 2 ^ 53) (by decide +kernel) (by decide +kernel) (by decide +kernel) ht).2.2 rfl
    rw [e, this]
    decide +kernel
  refine ⟨⟨3602879701896397, -55, by norm_num, by norm_num, by norm_num, by norm_num [tenth]⟩, ?_, ?_⟩
  · rw [hmean m hm]
    norm_num [tenth]
  · obtain ⟨-, m', hm', hp⟩ := hc
    obtain ⟨p, hp, e⟩ := hp 0 0
    have z : ∀ i, StatsDouble.zeroMean (Matrix.of fun (_ : Fin 3) (_ : Fin 1) => tenth) m' i 0 = -1 / 2 ^ 56 := by
      intro i
      change round64 (tenth - m' 0) = _
      rw [hmean m' hm']
      decide +kernel
    simp only [z] at hp
    have err := inner_error hp
    have pos : (2 : ℝ) ^ (-112 : ℤ) ≤ p := by
      simp only [Finset.sum_const, Finset.card_univ, Fintype.card_fin, nsmul_eq_mul] at err
      have l := (abs_le.mp err).1
      have hH : H ≤ 2 ^ (-200 : ℤ) := by
        unfold H
        exact zpow_le_zpow_right₀ (by norm_num) (by norm_num)
      have eU : U = 1 / 2 ^ 53 := by unfold U; norm_num
      rw [eU] at l
      norm_num at l hH ⊢
      linarith
    rw [e]
    have := ExpDouble.rnd (p / (sampleCount 3 - 1 : ℕ))
    have l := (abs_le.mp this).1
    have e2 : ((p / (sampleCount 3 - 1 : ℕ) : ℚ) : ℝ) = p / 2 := by
      have : sampleCount 3 - 1 = 2 := by decide
      rw [this]
      norm_num
    have p0 : (0 : ℝ) < p := lt_of_lt_of_le (zpow_pos (by norm_num) _) pos
    rw [e2, abs_of_pos (by linarith)] at l
    have hH : H ≤ 2 ^ (-200 : ℤ) := by
      unfold H
      exact zpow_le_zpow_right₀ (by norm_num) (by norm_num)
    have eU : U = 1 / 2 ^ 53 := by unfold U; norm_num
    rw [eU] at l
    have : (0 : ℝ) < ((round64 (p / (sampleCount 3 - 1 : ℕ)) : ℚ) : ℝ) := by
      norm_num at l hH pos
      linarith
    exact_mod_cast this

/-- Two samples on a line through the origin, nearly along the diagonal. -/
def line : Matrix (Fin 2) (Fin 2) ℚ := !![0, 0; 203251845, 203251846]

/-- However their covariance is evaluated, it is this one. -/
theorem line_covariance (c : Matrix (Fin 2) (Fin 2) ℚ) (hc : CovarianceOf line c) :
    c = !![20655656247952012, 20655656349577936; 20655656349577936, 20655656451203856] := by
  obtain ⟨-, m, hm, hp⟩ := hc
  have m0 : m 0 = 203251845 / 2 := by
    obtain ⟨t, ht, e⟩ := hm 0
    have : t = 203251845 := by
      rcases evaluates_two ht with r | r | r <;> (rw [r]; simp only [line]; decide +kernel)
    rw [e, this]
    decide +kernel
  have m1 : m 1 = 101625923 := by
    obtain ⟨t, ht, e⟩ := hm 1
    have : t = 203251846 := by
      rcases evaluates_two ht with r | r | r <;> (rw [r]; simp only [line]; decide +kernel)
    rw [e, this]
    decide +kernel
  have z00 : StatsDouble.zeroMean line m 0 0 = -203251845 / 2 := by
    change round64 (0 - m 0) = _
    rw [m0]
    decide +kernel
  have z10 : StatsDouble.zeroMean line m 1 0 = 203251845 / 2 := by
    change round64 (203251845 - m 0) = _
    rw [m0]
    decide +kernel
  have z01 : StatsDouble.zeroMean line m 0 1 = -101625923 := by
    change round64 (0 - m 1) = _
    rw [m1]
    decide +kernel
  have z11 : StatsDouble.zeroMean line m 1 1 = 101625923 := by
    change round64 (203251846 - m 1) = _
    rw [m1]
    decide +kernel
  ext j k
  obtain ⟨p, hp, e⟩ := hp j k
  rw [e]
  fin_cases j <;> fin_cases k <;> rcases evaluates_two hp with r | r | r <;> rw [r] <;>
    simp only [Fin.zero_eta, Fin.mk_one, z00, z10, z01, z11] <;> decide +kernel

/-- So a Gaussian cannot be constructed from these two samples: the computed covariance has an eigenvalue of -2 or less, and the check allows only 1e-15 times
the largest difference of two entries, which is small here though the entries are large. -/
theorem c114_rejected (c : Matrix (Fin 2) (Fin 2) ℚ) (hc : CovarianceOf line c) (solver : Matrix (Fin 2) (Fin 2) ℝ → Solved 2) (hw : Works solver)
    (mu : Fin 2 → ℝ) : ∃ msg, Gaussian.make solver mu (reals c) = .throw msg := by
  have e : reals c = !![20655656247952012, 20655656349577936; 20655656349577936, 20655656451203856] := by
    rw [line_covariance c hc]
    ext i j
    fin_cases i <;> fin_cases j <;> simp [reals]
  rw [e]
  have sym : (!![20655656247952012, 20655656349577936; 20655656349577936, 20655656451203856] : Matrix (Fin 2) (Fin 2) ℝ)ᵀ =
      !![20655656247952012, 20655656349577936; 20655656349577936, 20655656451203856] := by
    ext i j
    fin_cases i <;> fin_cases j <;> rfl
  have spread : IsSpread (!![20655656247952012, 20655656349577936; 20655656349577936, 20655656451203856] : Matrix (Fin 2) (Fin 2) ℝ) 203251844 := by
    refine ⟨fun i j k l => ?_, 1, 1, 0, 0, by norm_num⟩
    fin_cases i <;> fin_cases j <;> fin_cases k <;> fin_cases l <;> simp <;> norm_num
  obtain ⟨h1, h2⟩ := c69_accepted_iff (by norm_num) solver hw mu _ sym _ spread
  refine h2.resolve_left fun acc => ?_
  have := h1.mp acc ![Real.sqrt (1 / 2), -Real.sqrt (1 / 2)] (by
    simp only [lengthSq, Fin.sum_univ_two, cons_val_zero, cons_val_one, neg_sq]
    rw [Real.sq_sqrt (by norm_num)]
    norm_num)
  have q : Real.sqrt (1 / 2) * Real.sqrt (1 / 2) = 1 / 2 := Real.mul_self_sqrt (by norm_num)
  have s : slack 203251844 ≤ 1 := by unfold slack; norm_num
  have e : quadratic (!![20655656247952012, 20655656349577936; 20655656349577936, 20655656451203856] : Matrix (Fin 2) (Fin 2) ℝ)
      ![Real.sqrt (1 / 2), -Real.sqrt (1 / 2)] = -4 * (Real.sqrt (1 / 2) * Real.sqrt (1 / 2)) := by
    simp only [quadratic, Fin.sum_univ_two, cons_val_zero, cons_val_one, of_apply]
    ring
  rw [e, q] at this
  linarith

/-- The samples are doubles and have a computed covariance, and the exact covariance would have been accepted. -/
example : (∀ i j, IsDouble (line i j)) ∧ (∃ c, CovarianceOf line c) ∧ ∀ (solver : Matrix (Fin 2) (Fin 2) ℝ → Solved 2), Works solver → ∀ mu,
    ∃ g, Gaussian.make solver mu (Matrix.of fun j k => unbiased (reals line) j k) = .ok g := by
  refine ⟨fun i j => ⟨![![0, 0], ![203251845, 203251846]] i j, 0, ?_, by norm_num, by norm_num, ?_⟩, covariance_exists (by norm_num) (by norm_num) line, ?_⟩
  · fin_cases i <;> fin_cases j <;> simp
  · fin_cases i <;> fin_cases j <;> simp [line]
  · intro solver hw mu
    refine c69_semidefinite_accepted (by norm_num) solver hw mu _ ?_ fun x => ?_
    · ext j k
      exact unbiased_comm _ _ _
    · have : quadratic (Matrix.of fun j k => unbiased (reals line) j k) x = (203251845 * x 0 + 203251846 * x 1) ^ 2 / 2 := by
        simp [quadratic, unbiased, average, reals, line, Fin.sum_univ_two]
        ring
      rw [this]
      positivity

end Verif.Props
