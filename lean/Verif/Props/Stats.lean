import Verif.Proofs.Stats
import Mathlib.Tactic.NormNum
import Mathlib.Tactic.FinCases
/-! # C68, C69: sample statistics and Gaussian sampling -/
namespace Verif.Props
open Matrix Verif.Stats Verif.Spec.Stats

/-! ## C68 -/

/-- `mean` is the average of each column, unless there is no sample. -/
theorem c68_mean {n d : Nat} (s : Matrix (Fin n) (Fin d) ℝ) : (n ≠ 0 → mean s = .ok (average s)) ∧ (n = 0 → ∃ why, mean s = .ub why) := by
  unfold mean
  constructor
  · intro h; rw [if_neg h]; rfl
  · intro h; rw [if_pos h]; exact ⟨_, rfl⟩

/-- With fewer than 2^32 samples `covariance` throws exactly if there are fewer than two, and is the unbiased sample covariance otherwise.  Missing: more
samples; see `c68_row_count_wraps`. -/
theorem c68_covariance_partial {n d : Nat} (hn : n < 2 ^ 32) (s : Matrix (Fin n) (Fin d) ℝ) :
    (n < 2 → ∃ msg, covariance s = .throw msg) ∧ (2 ≤ n → covariance s = .ok (Matrix.of (unbiased s))) := by
  have hc : sampleCount n = n := Nat.mod_eq_of_lt hn
  constructor
  · intro h
    unfold covariance
    rw [Outcome.reassert_false (by rw [hc]; omega)]
    exact ⟨_, rfl⟩
  · intro h
    rw [covariance_ok, hc]
    refine ⟨h, ?_⟩
    ext j k
    simp only [Matrix.of_apply, Matrix.smul_apply, smul_eq_mul, Matrix.mul_apply, transpose_apply, zeroMean, unbiased]
    rw [Nat.cast_sub (by omega), Nat.cast_one, div_eq_inv_mul]
    rfl

/-- For 2^32 samples it throws although there are enough: the number of samples is stored in 32 bits. -/
theorem c68_row_count_wraps {d : Nat} (s : Matrix (Fin (2 ^ 32)) (Fin d) ℝ) : ∃ msg, covariance s = .throw msg := by
  unfold covariance
  rw [Outcome.reassert_false (by decide)]
  exact ⟨_, rfl⟩

/-- Whatever `covariance` returns is symmetric and positive semidefinite. -/
theorem c68_semidefinite {n d : Nat} (s : Matrix (Fin n) (Fin d) ℝ) (c : Matrix (Fin d) (Fin d) ℝ) (h : covariance s = .ok c) :
    cᵀ = c ∧ ∀ x, 0 ≤ quadratic c x := by
  rw [covariance_ok] at h
  obtain ⟨h1, rfl⟩ := h
  constructor
  · rw [Matrix.transpose_smul, Matrix.transpose_mul, Matrix.transpose_transpose]
  · intro x
    have e : quadratic (((sampleCount n - 1 : Nat) : ℝ)⁻¹ • ((zeroMean s)ᵀ * zeroMean s)) x =
        ((sampleCount n - 1 : Nat) : ℝ)⁻¹ * quadratic ((zeroMean s)ᵀ * zeroMean s) x := by
      simp only [quadratic_eq, Matrix.smul_mulVec, dotProduct_smul, smul_eq_mul]
    rw [e, quadratic_gram]
    exact mul_nonneg (inv_nonneg.mpr (Nat.cast_nonneg _)) (Finset.sum_nonneg fun i _ => sq_nonneg _)

/-- Mapping every sample by `x ↦ A x + b` maps the mean in the same way and the covariance to `A C Aᵀ`; with the identity for `A`, adding a constant to all
samples does not change the covariance. -/
theorem c68_affine {n d e : Nat} (s : Matrix (Fin n) (Fin d) ℝ) (a : Matrix (Fin e) (Fin d) ℝ) (b : Fin e → ℝ) :
    (∀ m, mean s = .ok m → mean (affine s a b) = .ok (a *ᵥ m + b)) ∧ (∀ c, covariance s = .ok c → covariance (affine s a b) = .ok (a * c * aᵀ)) := by
  refine ⟨fun m h => ?_, fun c h => covariance_affine s a b c h⟩
  unfold mean at h ⊢
  by_cases hn : n = 0
  · rw [if_pos hn] at h; cases h
  · rw [if_neg hn] at h ⊢
    rw [Outcome.ok.injEq] at h ⊢
    rw [colMean_affine hn, h]

/-- Adding a constant to all samples. -/
theorem c68_shift {n d : Nat} (s : Matrix (Fin n) (Fin d) ℝ) (b : Fin d → ℝ) : covariance (Matrix.of fun i j => s i j + b j) = covariance s := by
  have e : (Matrix.of fun i j => s i j + b j) = affine s (1 : Matrix (Fin d) (Fin d) ℝ) b := by
    ext i j
    simp [affine]
  have hz : zeroMean (Matrix.of fun i j => s i j + b j) = zeroMean s := by
    rw [e, zeroMean_affine, Matrix.transpose_one, Matrix.mul_one]
  unfold covariance
  rw [hz]

/-- A variance is zero exactly if that coordinate is the same in all samples. -/
theorem c68_zero_variance {n d : Nat} (s : Matrix (Fin n) (Fin d) ℝ) (c : Matrix (Fin d) (Fin d) ℝ) (h : covariance s = .ok c) (j : Fin d) :
    c j j = 0 ↔ ∀ i i', s i j = s i' j := by
  rw [covariance_ok] at h
  obtain ⟨h1, rfl⟩ := h
  have hpos : (0 : ℝ) < ((sampleCount n - 1 : Nat) : ℝ) := by exact_mod_cast Nat.sub_pos_of_lt h1
  have hn : n ≠ 0 := by rintro rfl; simp [sampleCount] at h1
  have e : (((sampleCount n - 1 : Nat) : ℝ)⁻¹ • ((zeroMean s)ᵀ * zeroMean s)) j j = ((sampleCount n - 1 : Nat) : ℝ)⁻¹ * ∑ i, (s i j - colMean s j) ^ 2 := by
    simp only [Matrix.smul_apply, smul_eq_mul, Matrix.mul_apply, transpose_apply, zeroMean, Matrix.of_apply, sq]
  rw [e, mul_eq_zero, or_iff_right (inv_ne_zero hpos.ne'), Finset.sum_eq_zero_iff_of_nonneg fun i _ => sq_nonneg _]
  constructor
  · intro h i i'
    have h1 := pow_eq_zero_iff (two_ne_zero) |>.mp (h i (Finset.mem_univ _))
    have h2 := pow_eq_zero_iff (two_ne_zero) |>.mp (h i' (Finset.mem_univ _))
    linarith
  · intro h i _
    have : colMean s j = s i j := by
      unfold colMean
      rw [Finset.sum_congr rfl fun i' _ => h i' i]
      have hn' : (n : ℝ) ≠ 0 := by exact_mod_cast hn
      simp [mul_div_cancel_left₀ _ hn']
    rw [this, sub_self]
    norm_num

/-- Five samples with mean zero and covariance the identity. -/
noncomputable def whitened : Matrix (Fin 5) (Fin 2) ℝ := !![1, 1; 1, -1; -1, 1; -1, -1; 0, 0]

/-- They are as said. -/
theorem whitened_meets : mean whitened = .ok 0 ∧ covariance whitened = .ok 1 := by
  have hm : ∀ j, average whitened j = 0 := by
    intro j
    fin_cases j <;> simp [average, whitened, Fin.sum_univ_succ]
  constructor
  · rw [(c68_mean whitened).1 (by decide)]
    congr 1
    funext j
    exact hm j
  · rw [(c68_covariance_partial (by decide) whitened).2 (by decide)]
    congr 1
    ext j k
    simp only [Matrix.of_apply, unbiased, hm, sub_zero]
    fin_cases j <;> fin_cases k <;> simp [whitened, Fin.sum_univ_succ] <;> norm_num

/-! ## C69 -/

/-- Eigen's solver reports an iteration that did not converge as `NoConvergence`, which the constructor does not check: it goes on with whatever the solver
left, here with eigenvalues that have nothing to do with the covariance. -/
theorem c69_no_convergence_accepted : ∃ solver : Matrix (Fin 1) (Fin 1) ℝ → Solved 1, ∃ g : Gaussian 1,
    (∀ m, (solver m).info = .noConvergence) ∧ Gaussian.make solver 0 (1 : Matrix (Fin 1) (Fin 1) ℝ) = .ok g ∧ ∀ i, g.eigenvalues i = 5 := by
  obtain ⟨g, hg⟩ := make_accepts (d := 1) (by decide) (fun _ => ⟨.noConvergence, fun _ => 5, 1⟩) 0 1
    (by simp [approxSymmetric, sumSquares]; positivity) (by simp) (tolerance_spread 1) (fun i => by
      have := slack_pos (maxCoeff (1 : Matrix (Fin 1) (Fin 1) ℝ) - minCoeff (1 : Matrix (Fin 1) (Fin 1) ℝ))
      change _ < (5 : ℝ)
      linarith)
  refine ⟨_, g, fun _ => rfl, hg, fun i => ?_⟩
  rw [(make_ok _ _ _ _ hg).2.2.2.2]
  norm_num

/-- A mean and a covariance of different dimensions are rejected. -/
theorem c69_dimensions {d r c : Nat} (solver : Matrix (Fin d) (Fin d) ℝ → Solved d) (mu : Fin d → ℝ) (cov : Matrix (Fin r) (Fin c) ℝ) (h : r ≠ d ∨ c ≠ d) :
    ∃ msg, Gaussian.make solver mu cov = .throw msg := by
  unfold Gaussian.make
  rw [dif_neg (by rintro ⟨h1, h2⟩; rcases h with h | h <;> exact h (by assumption))]
  exact ⟨_, rfl⟩

/-- A covariance that is not symmetric up to 1e-12 of its size is rejected. -/
theorem c69_asymmetric_rejected {d : Nat} (solver : Matrix (Fin d) (Fin d) ℝ → Solved d) (mu : Fin d → ℝ) (cov : Matrix (Fin d) (Fin d) ℝ)
    (h : (1e-12) ^ 2 * ∑ i, ∑ j, cov i j ^ 2 < ∑ i, ∑ j, (cov i j - cov j i) ^ 2) : ∃ msg, Gaussian.make solver mu cov = .throw msg := by
  have hs : ¬approxSymmetric cov := by
    intro hs
    have h1 : sumSquares (cov - covᵀ) = ∑ i, ∑ j, (cov i j - cov j i) ^ 2 := rfl
    have h2 := hs.trans (mul_le_mul_of_nonneg_left (min_le_left (sumSquares cov) _) (by positivity))
    rw [h1] at h2
    exact absurd h (not_lt.mpr h2)
  rw [make_square]
  unfold Gaussian.ofSquare
  rw [Outcome.reassert_false hs]
  exact ⟨_, rfl⟩

/-- A matrix of this kind. -/
example : (1e-12 : ℝ) ^ 2 * ∑ i, ∑ j, (!![2, 1; 0, 2] : Matrix (Fin 2) (Fin 2) ℝ) i j ^ 2 <
    ∑ i, ∑ j, ((!![2, 1; 0, 2] : Matrix (Fin 2) (Fin 2) ℝ) i j - (!![2, 1; 0, 2] : Matrix (Fin 2) (Fin 2) ℝ) j i) ^ 2 := by
  norm_num [Fin.sum_univ_two]

/-- Symmetric covariances of at least one dimension: accepted exactly if the quadratic form is above minus the slack on unit vectors, that is, if no
eigenvalue is that far below zero; rejected by an exception otherwise. -/
theorem c69_accepted_iff {d : Nat} (hd : d ≠ 0) (solver : Matrix (Fin d) (Fin d) ℝ → Solved d) (hw : Works solver) (mu : Fin d → ℝ)
    (cov : Matrix (Fin d) (Fin d) ℝ) (hsym : covᵀ = cov) (w : ℝ) (hspread : IsSpread cov w) :
    ((∃ g, Gaussian.make solver mu cov = .ok g) ↔ ∀ x, lengthSq x = 1 → -slack w < quadratic cov x) ∧
    ((∃ g, Gaussian.make solver mu cov = .ok g) ∨ ∃ msg, Gaussian.make solver mu cov = .throw msg) := by
  obtain ⟨hi, hv, hdec⟩ := hw cov
  rw [lower_of_symmetric hsym] at hdec
  have hb := eigen_bound hv (solver cov).eigenvalues (-slack w)
  rw [hdec] at hb
  refine ⟨⟨?_, ?_⟩, ?_⟩
  · rintro ⟨g, hg⟩
    exact hb.mp ((make_ok solver mu cov g hg).2.2.2.1 w hspread)
  · intro h
    refine make_accepts hd solver mu cov ?_ (by rw [hi]; decide) hspread (hb.mpr h)
    unfold approxSymmetric
    rw [hsym, sub_self, min_self]
    have h1 : sumSquares (0 : Matrix (Fin d) (Fin d) ℝ) = 0 := by simp [sumSquares]
    have h2 : 0 ≤ sumSquares cov := Finset.sum_nonneg fun i _ => Finset.sum_nonneg fun j _ => sq_nonneg _
    rw [h1]
    positivity
  · cases h : Gaussian.make solver mu cov with
    | ok g => exact Or.inl ⟨g, rfl⟩
    | throw m => exact Or.inr ⟨m, rfl⟩
    | ub m => exact (make_not_ub hd solver mu cov m h).elim

/-- In particular every positive semidefinite covariance is accepted. -/
theorem c69_semidefinite_accepted {d : Nat} (hd : d ≠ 0) (solver : Matrix (Fin d) (Fin d) ℝ → Solved d) (hw : Works solver) (mu : Fin d → ℝ)
    (cov : Matrix (Fin d) (Fin d) ℝ) (hsym : covᵀ = cov) (hpsd : ∀ x, 0 ≤ quadratic cov x) : ∃ g, Gaussian.make solver mu cov = .ok g := by
  have : NeZero d := ⟨hd⟩
  refine (c69_accepted_iff hd solver hw mu cov hsym _ (tolerance_spread cov)).1.mpr fun x _ => ?_
  have := hpsd x
  have := slack_pos (maxCoeff cov - minCoeff cov)
  linarith

/-- For a positive semidefinite covariance the sampler maps each standard sample `z` to `M z + mu` with `M Mᵀ = cov`.  So samples of mean zero and identity
covariance become samples with exactly the requested mean and covariance. -/
theorem c69_reproduces {d : Nat} (solver : Matrix (Fin d) (Fin d) ℝ → Solved d) (hw : Works solver) (mu : Fin d → ℝ) (cov : Matrix (Fin d) (Fin d) ℝ)
    (hsym : covᵀ = cov) (hpsd : ∀ x, 0 ≤ quadratic cov x) (g : Gaussian d) (hg : Gaussian.make solver mu cov = .ok g) :
    (∃ m : Matrix (Fin d) (Fin d) ℝ, m * mᵀ = cov ∧ ∀ (n : Nat) (z : Matrix (Fin n) (Fin d) ℝ), g.samples z = affine z m mu) ∧
    ∀ (n : Nat) (z : Matrix (Fin n) (Fin d) ℝ), (mean z = .ok 0 → mean (g.samples z) = .ok mu) ∧ (covariance z = .ok 1 → covariance (g.samples z) = .ok cov) := by
  obtain ⟨hsq, hmu⟩ := map_lower solver hw mu cov (by rw [lower_of_symmetric hsym]; exact hpsd) g hg
  rw [lower_of_symmetric hsym] at hsq
  refine ⟨⟨g.map, hsq, fun n z => by rw [samples_affine, hmu]⟩, fun n z => ⟨fun hz => ?_, fun hz => ?_⟩⟩
  · rw [samples_affine, (c68_affine z g.map g.mu).1 0 hz, Matrix.mulVec_zero, zero_add, hmu]
  · rw [samples_affine, (c68_affine z g.map g.mu).2 1 hz, Matrix.mul_one, hsq]

/-- If an accepted symmetric covariance has eigenvalues slightly below zero they are replaced by zero: the sampler's map squares to a positive semidefinite
matrix whose quadratic form exceeds the requested one by less than the slack on unit vectors. -/
theorem c69_clamped {d : Nat} (solver : Matrix (Fin d) (Fin d) ℝ → Solved d) (hw : Works solver) (mu : Fin d → ℝ) (cov : Matrix (Fin d) (Fin d) ℝ)
    (hsym : covᵀ = cov) (w : ℝ) (hspread : IsSpread cov w) (g : Gaussian d) (hg : Gaussian.make solver mu cov = .ok g) :
    (∀ i, 0 ≤ g.eigenvalues i ∧ g.eigenvalues i = if (solver cov).eigenvalues i < 0 then 0 else (solver cov).eigenvalues i) ∧
    ∃ m : Matrix (Fin d) (Fin d) ℝ, (∀ (n : Nat) (z : Matrix (Fin n) (Fin d) ℝ), g.samples z = affine z m mu) ∧
      ∀ x, lengthSq x = 1 → 0 ≤ quadratic (m * mᵀ) x ∧ quadratic cov x ≤ quadratic (m * mᵀ) x ∧ quadratic (m * mᵀ) x < quadratic cov x + slack w := by
  obtain ⟨hi, hv, hdec⟩ := hw cov
  rw [lower_of_symmetric hsym] at hdec
  obtain ⟨-, -, -, ht, e⟩ := make_ok solver mu cov g hg
  have ht := ht w hspread
  have hpos := slack_pos w
  have hmu : g.mu = mu := by rw [e]
  have hsq : g.map * g.mapᵀ = (solver cov).eigenvectors * Matrix.diagonal (fun i => max ((solver cov).eigenvalues i) 0) * (solver cov).eigenvectorsᵀ := by
    rw [map_square g (fun i => max ((solver cov).eigenvalues i) 0) (fun i => le_max_right _ _) (by rw [e]), e]
  refine ⟨fun i => ?_, g.map, fun n z => by rw [samples_affine, hmu], fun x hx => ?_⟩
  · rw [e]
    refine ⟨le_max_right _ _, ?_⟩
    simp only
    split
    · exact max_eq_right (by linarith)
    · exact max_eq_left (by linarith)
  · have hq : quadratic cov x = ∑ i, (solver cov).eigenvalues i * ((solver cov).eigenvectorsᵀ *ᵥ x) i ^ 2 := by rw [← quadratic_decomp, hdec]
    rw [hsq, hq, quadratic_decomp]
    refine ⟨Finset.sum_nonneg fun i _ => mul_nonneg (le_max_right _ _) (sq_nonneg _),
      Finset.sum_le_sum fun i _ => mul_le_mul_of_nonneg_right (le_max_left _ _) (sq_nonneg _), ?_⟩
    have hb := (eigen_bound hv (fun i => slack w + (solver cov).eigenvalues i - max ((solver cov).eigenvalues i) 0) 0).mp (fun i => by
      have := ht i
      rcases max_cases ((solver cov).eigenvalues i) 0 with ⟨h1, h2⟩ | ⟨h1, h2⟩ <;> rw [h1] <;> linarith) x hx
    rw [quadratic_decomp] at hb
    have hl := length_decomp hv x
    rw [hx] at hl
    have e2 : ∑ i, (slack w + (solver cov).eigenvalues i - max ((solver cov).eigenvalues i) 0) * ((solver cov).eigenvectorsᵀ *ᵥ x) i ^ 2 =
        slack w * ∑ i, ((solver cov).eigenvectorsᵀ *ᵥ x) i ^ 2 + ∑ i, (solver cov).eigenvalues i * ((solver cov).eigenvectorsᵀ *ᵥ x) i ^ 2 -
        ∑ i, max ((solver cov).eigenvalues i) 0 * ((solver cov).eigenvectorsᵀ *ᵥ x) i ^ 2 := by
      rw [Finset.mul_sum, ← Finset.sum_add_distrib, ← Finset.sum_sub_distrib]
      exact Finset.sum_congr rfl fun i _ => by ring
    rw [e2, hl] at hb
    linarith

/-- An accepted covariance need not be exactly symmetric: what is sampled is then the symmetric matrix with the same lower part, which differs from the
requested one by at most 1e-12 of its size. -/
theorem c69_nearly_symmetric {d : Nat} (solver : Matrix (Fin d) (Fin d) ℝ → Solved d) (hw : Works solver) (mu : Fin d → ℝ) (cov : Matrix (Fin d) (Fin d) ℝ)
    (hpsd : ∀ x, 0 ≤ quadratic (lower cov) x) (g : Gaussian d) (hg : Gaussian.make solver mu cov = .ok g) :
    (∀ (n : Nat) (z : Matrix (Fin n) (Fin d) ℝ), covariance z = .ok 1 → covariance (g.samples z) = .ok (lower cov)) ∧
    ∑ i, ∑ j, (lower cov i j - cov i j) ^ 2 ≤ (1e-12) ^ 2 * ∑ i, ∑ j, cov i j ^ 2 := by
  obtain ⟨hsq, hmu⟩ := map_lower solver hw mu cov hpsd g hg
  refine ⟨fun n z hz => by rw [samples_affine, (c68_affine z g.map g.mu).2 1 hz, Matrix.mul_one, hsq], ?_⟩
  obtain ⟨-, hs, -⟩ := make_ok solver mu cov g hg
  unfold approxSymmetric at hs
  calc ∑ i, ∑ j, (lower cov i j - cov i j) ^ 2 ≤ sumSquares (cov - covᵀ) := by
        refine Finset.sum_le_sum fun i _ => Finset.sum_le_sum fun j _ => ?_
        simp only [lower, Matrix.of_apply, Matrix.sub_apply, transpose_apply]
        split
        · rw [sub_self]
          simpa using sq_nonneg _
        · exact le_of_eq (by ring)
    _ ≤ _ := hs.trans (mul_le_mul_of_nonneg_left (min_le_left _ _) (by positivity))

/-- A covariance in two dimensions meets the hypotheses: symmetric, positive semidefinite, of spread 1, with a solver that works and standard samples. -/
example : ∃ solver : Matrix (Fin 2) (Fin 2) ℝ → Solved 2, Works solver ∧ (!![2, 1; 1, 2] : Matrix (Fin 2) (Fin 2) ℝ)ᵀ = !![2, 1; 1, 2] ∧
    (∀ x, 0 ≤ quadratic (!![2, 1; 1, 2] : Matrix (Fin 2) (Fin 2) ℝ) x) ∧ IsSpread (!![2, 1; 1, 2] : Matrix (Fin 2) (Fin 2) ℝ) 1 ∧
    ∃ g, Gaussian.make solver ![5, 7] (!![2, 1; 1, 2] : Matrix (Fin 2) (Fin 2) ℝ) = .ok g ∧ mean (g.samples whitened) = .ok ![5, 7] ∧
      covariance (g.samples whitened) = .ok !![2, 1; 1, 2] := by
  obtain ⟨solver, hw⟩ := works_exists 2
  have hsym : (!![2, 1; 1, 2] : Matrix (Fin 2) (Fin 2) ℝ)ᵀ = !![2, 1; 1, 2] := by
    ext i j; fin_cases i <;> fin_cases j <;> rfl
  have hpsd : ∀ x, 0 ≤ quadratic (!![2, 1; 1, 2] : Matrix (Fin 2) (Fin 2) ℝ) x := by
    intro x
    simp only [quadratic, Fin.sum_univ_two]
    simp
    nlinarith [sq_nonneg (x 0 + x 1), sq_nonneg (x 0), sq_nonneg (x 1)]
  obtain ⟨g, hg⟩ := c69_semidefinite_accepted (by decide) solver hw ![5, 7] _ hsym hpsd
  have h := (c69_reproduces solver hw _ _ hsym hpsd g hg).2 5 whitened
  refine ⟨solver, hw, hsym, hpsd, ⟨?_, 0, 0, 0, 1, by norm_num⟩, g, hg, h.1 whitened_meets.1, h.2 whitened_meets.2⟩
  intro i j k l
  fin_cases i <;> fin_cases j <;> fin_cases k <;> fin_cases l <;> norm_num

/-- A covariance that is rejected: its quadratic form is -1 at a unit vector. -/
example : ∃ x : Fin 2 → ℝ, lengthSq x = 1 ∧ ¬-slack 2 < quadratic (!![1, 0; 0, -1] : Matrix (Fin 2) (Fin 2) ℝ) x := by
  refine ⟨![0, 1], by simp [lengthSq], ?_⟩
  have : quadratic (!![1, 0; 0, -1] : Matrix (Fin 2) (Fin 2) ℝ) ![0, 1] = -1 := by
    simp [quadratic]
  rw [this]
  norm_num [slack]

/-! ## Instances of the theorems above -/

/-- C68 for the five samples: their mean and covariance, which is symmetric and semidefinite; neither coordinate is constant. -/
example : mean whitened = .ok (average whitened) ∧ covariance whitened = .ok (Matrix.of (unbiased whitened)) ∧
    (1 : Matrix (Fin 2) (Fin 2) ℝ)ᵀ = 1 ∧ ¬∀ i i', whitened i 0 = whitened i' 0 := by
  refine ⟨(c68_mean whitened).1 (by decide), (c68_covariance_partial (by decide) whitened).2 (by decide), (c68_semidefinite whitened 1 whitened_meets.2).1, ?_⟩
  rw [← c68_zero_variance whitened 1 whitened_meets.2 0]
  simp

/-- Stretching, shearing and shifting them, and one sample alone, of which there is no covariance. -/
example : mean (affine whitened !![2, 0; 1, 3] ![5, 7]) = .ok ![5, 7] ∧ covariance (affine whitened !![2, 0; 1, 3] ![5, 7]) = .ok !![4, 2; 2, 10] ∧
    covariance (Matrix.of fun i j => whitened i j + ![5, 7] j) = .ok 1 ∧ ∃ msg, covariance (!![1, 2] : Matrix (Fin 1) (Fin 2) ℝ) = .throw msg := by
  have h := c68_affine whitened !![2, 0; 1, 3] ![5, 7]
  refine ⟨?_, ?_, (c68_shift whitened ![5, 7]).trans whitened_meets.2, (c68_covariance_partial (by decide) _).1 (by decide)⟩
  · rw [h.1 0 whitened_meets.1]
    simp
  · rw [h.2 1 whitened_meets.2]
    congr 1
    ext i j
    fin_cases i <;> fin_cases j <;> norm_num [Matrix.mul_apply, Fin.sum_univ_two]

/-- C69: a mean of three and a covariance of two dimensions. -/
example (solver : Matrix (Fin 3) (Fin 3) ℝ → Solved 3) : ∃ msg, Gaussian.make solver ![1, 2, 3] (!![2, 1; 1, 2] : Matrix (Fin 2) (Fin 2) ℝ) = .throw msg :=
  c69_dimensions solver _ _ (.inl (by decide))

/-- A spread of two values of a diagonal matrix. -/
theorem indefinite_spread : (!![1, 0; 0, -1] : Matrix (Fin 2) (Fin 2) ℝ)ᵀ = !![1, 0; 0, -1] ∧ IsSpread (!![1, 0; 0, -1] : Matrix (Fin 2) (Fin 2) ℝ) 2 := by
  refine ⟨by ext i j; fin_cases i <;> fin_cases j <;> rfl, ?_, 0, 0, 1, 1, by norm_num⟩
  intro i j k l
  fin_cases i <;> fin_cases j <;> fin_cases k <;> fin_cases l <;> norm_num

/-- An indefinite covariance is rejected by an exception. -/
example : ∃ solver : Matrix (Fin 2) (Fin 2) ℝ → Solved 2, Works solver ∧
    ∃ msg, Gaussian.make solver ![5, 7] (!![1, 0; 0, -1] : Matrix (Fin 2) (Fin 2) ℝ) = .throw msg := by
  obtain ⟨solver, hw⟩ := works_exists 2
  have h := c69_accepted_iff (by decide) solver hw ![5, 7] !![1, 0; 0, -1] indefinite_spread.1 2 indefinite_spread.2
  refine ⟨solver, hw, h.2.resolve_left fun hg => ?_⟩
  have := h.1.mp hg ![0, 1] (by simp [lengthSq])
  have e : quadratic (!![1, 0; 0, -1] : Matrix (Fin 2) (Fin 2) ℝ) ![0, 1] = -1 := by simp [quadratic]
  rw [e] at this
  norm_num [slack] at this

/-- A covariance with an eigenvalue just below zero is accepted and gives no negative eigenvalue. -/
example : ∃ (solver : Matrix (Fin 2) (Fin 2) ℝ → Solved 2) (g : Gaussian 2), Works solver ∧
    Gaussian.make solver ![5, 7] (!![1, 0; 0, -1e-16] : Matrix (Fin 2) (Fin 2) ℝ) = .ok g ∧ ∀ i, 0 ≤ g.eigenvalues i := by
  obtain ⟨solver, hw⟩ := works_exists 2
  have hsym : (!![1, 0; 0, -1e-16] : Matrix (Fin 2) (Fin 2) ℝ)ᵀ = !![1, 0; 0, -1e-16] := by ext i j; fin_cases i <;> fin_cases j <;> rfl
  have hs : IsSpread (!![1, 0; 0, -1e-16] : Matrix (Fin 2) (Fin 2) ℝ) (1 + 1e-16) := by
    refine ⟨?_, 0, 0, 1, 1, by norm_num⟩
    intro i j k l
    fin_cases i <;> fin_cases j <;> fin_cases k <;> fin_cases l <;> norm_num
  obtain ⟨g, hg⟩ := (c69_accepted_iff (by decide) solver hw ![5, 7] _ hsym _ hs).1.mpr (by
    intro x hx
    simp only [lengthSq, Fin.sum_univ_two] at hx
    simp only [quadratic, Fin.sum_univ_two]
    norm_num [slack]
    nlinarith [sq_nonneg (x 0), sq_nonneg (x 1)])
  exact ⟨solver, g, hw, hg, fun i => ((c69_clamped solver hw _ _ hsym _ hs g hg).1 i).1⟩

end Verif.Props
