import Verif.Spec.Stats
import Mathlib.LinearAlgebra.Matrix.NonsingularInverse
import Mathlib.Analysis.Matrix.Spectrum
import Mathlib.Data.Matrix.Mul
import Mathlib.Tactic.Ring
import Mathlib.Tactic.Linarith
import Mathlib.Tactic.FieldSimp
import Mathlib.Tactic.Positivity
import Mathlib.Algebra.Order.BigOperators.Ring.Finset
import Mathlib.Algebra.BigOperators.Ring.Finset
/-! # Statistics: lemmas -/
namespace Verif.Stats
open Matrix Verif.Spec.Stats

theorem affine_apply {n d e : Nat} (s : Matrix (Fin n) (Fin d) ℝ) (a : Matrix (Fin e) (Fin d) ℝ) (b : Fin e → ℝ) (i : Fin n) (j : Fin e) :
    affine s a b i j = ∑ k, a j k * s i k + b j := rfl

theorem colMean_affine {n d e : Nat} (hn : n ≠ 0) (s : Matrix (Fin n) (Fin d) ℝ) (a : Matrix (Fin e) (Fin d) ℝ) (b : Fin e → ℝ) :
    colMean (affine s a b) = a *ᵥ colMean s + b := by
  have hn' : (n : ℝ) ≠ 0 := by exact_mod_cast hn
  funext j
  simp only [colMean, affine_apply, Pi.add_apply, mulVec, dotProduct]
  rw [Finset.sum_add_distrib, Finset.sum_comm]
  simp only [Finset.sum_const, Finset.card_univ, Fintype.card_fin, nsmul_eq_mul, add_div, mul_div_cancel_left₀ _ hn']
  congr 1
  rw [Finset.sum_div]
  refine Finset.sum_congr rfl fun k _ => ?_
  rw [← Finset.mul_sum]
  ring

theorem zeroMean_affine {n d e : Nat} (s : Matrix (Fin n) (Fin d) ℝ) (a : Matrix (Fin e) (Fin d) ℝ) (b : Fin e → ℝ) :
    zeroMean (affine s a b) = zeroMean s * aᵀ := by
  by_cases hn : n = 0
  · subst hn
    ext i
    exact i.elim0
  · ext i j
    simp only [zeroMean, Matrix.of_apply, colMean_affine hn, affine_apply, Pi.add_apply, mulVec, dotProduct, Matrix.mul_apply, transpose_apply]
    rw [add_sub_add_right_eq_sub, ← Finset.sum_sub_distrib]
    refine Finset.sum_congr rfl fun k _ => ?_
    ring

theorem covariance_ok {n d : Nat} (s : Matrix (Fin n) (Fin d) ℝ) (c : Matrix (Fin d) (Fin d) ℝ) :
    covariance s = .ok c ↔ sampleCount n > 1 ∧ c = ((sampleCount n - 1 : Nat) : ℝ)⁻¹ • ((zeroMean s)ᵀ * zeroMean s) := by
  unfold covariance
  by_cases h : sampleCount n > 1
  · rw [Outcome.reassert_true h]
    simp [h, eq_comm]
  · rw [Outcome.reassert_false h]
    simp [h]

theorem covariance_affine {n d e : Nat} (s : Matrix (Fin n) (Fin d) ℝ) (a : Matrix (Fin e) (Fin d) ℝ) (b : Fin e → ℝ) (c : Matrix (Fin d) (Fin d) ℝ)
    (h : covariance s = .ok c) : covariance (affine s a b) = .ok (a * c * aᵀ) := by
  rw [covariance_ok] at h ⊢
  refine ⟨h.1, ?_⟩
  rw [h.2, zeroMean_affine, Matrix.transpose_mul, Matrix.transpose_transpose]
  simp only [Matrix.mul_smul, Matrix.smul_mul, Matrix.mul_assoc]

theorem quadratic_eq {d : Nat} (m : Matrix (Fin d) (Fin d) ℝ) (x : Fin d → ℝ) : quadratic m x = x ⬝ᵥ m *ᵥ x := by
  simp only [quadratic, dotProduct, mulVec, Finset.mul_sum]
  exact Finset.sum_congr rfl fun i _ => Finset.sum_congr rfl fun j _ => by ring

theorem lengthSq_eq {d : Nat} (x : Fin d → ℝ) : lengthSq x = x ⬝ᵥ x := by
  simp only [lengthSq, dotProduct, sq]

theorem quadratic_gram {n d : Nat} (z : Matrix (Fin n) (Fin d) ℝ) (x : Fin d → ℝ) : quadratic (zᵀ * z) x = ∑ i, (z *ᵥ x) i ^ 2 := by
  rw [quadratic_eq, ← Matrix.mulVec_mulVec, Matrix.dotProduct_mulVec, Matrix.vecMul_transpose]
  simp only [dotProduct, sq]

theorem quadratic_decomp {d : Nat} (v : Matrix (Fin d) (Fin d) ℝ) (l : Fin d → ℝ) (x : Fin d → ℝ) :
    quadratic (v * Matrix.diagonal l * vᵀ) x = ∑ i, l i * (vᵀ *ᵥ x) i ^ 2 := by
  rw [quadratic_eq, Matrix.mul_assoc, ← Matrix.mulVec_mulVec, Matrix.dotProduct_mulVec, ← Matrix.mulVec_transpose, ← Matrix.mulVec_mulVec]
  simp only [dotProduct, Matrix.mulVec_diagonal]
  exact Finset.sum_congr rfl fun i _ => by ring

theorem length_decomp {d : Nat} {v : Matrix (Fin d) (Fin d) ℝ} (hv : vᵀ * v = 1) (x : Fin d → ℝ) : ∑ i, (vᵀ *ᵥ x) i ^ 2 = lengthSq x := by
  have h : v * vᵀ = 1 := mul_eq_one_comm.mp hv
  rw [lengthSq_eq]
  have : ∑ i, (vᵀ *ᵥ x) i ^ 2 = (vᵀ *ᵥ x) ⬝ᵥ (vᵀ *ᵥ x) := by simp only [dotProduct, sq]
  rw [this, Matrix.dotProduct_mulVec, Matrix.vecMul_transpose, Matrix.mulVec_mulVec, h, Matrix.one_mulVec]

/-- The eigenvalue is the value of the quadratic form at the eigenvector, a unit vector. -/
theorem eigen_quadratic {d : Nat} {v : Matrix (Fin d) (Fin d) ℝ} (hv : vᵀ * v = 1) (l : Fin d → ℝ) (k : Fin d) :
    quadratic (v * Matrix.diagonal l * vᵀ) (v *ᵥ Pi.single k 1) = l k ∧ lengthSq (v *ᵥ Pi.single k 1) = 1 := by
  have h : vᵀ *ᵥ (v *ᵥ Pi.single k 1) = Pi.single k 1 := by rw [Matrix.mulVec_mulVec, hv, Matrix.one_mulVec]
  constructor
  · rw [quadratic_decomp, h]
    simp [Pi.single_apply]
  · rw [← length_decomp hv, h]
    simp [Pi.single_apply]

theorem lower_of_symmetric {d : Nat} {m : Matrix (Fin d) (Fin d) ℝ} (h : mᵀ = m) : lower m = m := by
  ext i j
  simp only [lower, Matrix.of_apply]
  split
  · rfl
  · exact congrFun (congrFun h i) j

theorem lower_symmetric {d : Nat} (m : Matrix (Fin d) (Fin d) ℝ) : (lower m)ᵀ = lower m := by
  ext i j
  simp only [lower, transpose_apply, Matrix.of_apply]
  rcases lt_trichotomy i j with h | h | h
  · rw [if_pos h.le, if_neg (not_le.mpr h)]
  · subst h; rfl
  · rw [if_neg (not_le.mpr h), if_pos h.le]

theorem tolerance_spread {d : Nat} [NeZero d] (m : Matrix (Fin d) (Fin d) ℝ) : IsSpread m (maxCoeff m - minCoeff m) := by
  constructor
  · intro i j k l
    have h1 : m i j ≤ maxCoeff m := Finset.le_sup' (fun p : Fin d × Fin d => m p.1 p.2) (Finset.mem_univ (i, j))
    have h2 : minCoeff m ≤ m k l := Finset.inf'_le (fun p : Fin d × Fin d => m p.1 p.2) (Finset.mem_univ (k, l))
    linarith
  · obtain ⟨p, -, hp⟩ := Finset.exists_mem_eq_sup' (s := Finset.univ) Finset.univ_nonempty (fun p : Fin d × Fin d => m p.1 p.2)
    obtain ⟨q, -, hq⟩ := Finset.exists_mem_eq_inf' (s := Finset.univ) Finset.univ_nonempty (fun p : Fin d × Fin d => m p.1 p.2)
    exact ⟨p.1, p.2, q.1, q.2, by unfold maxCoeff minCoeff; rw [hp, hq]⟩

theorem spread_unique {d : Nat} {m : Matrix (Fin d) (Fin d) ℝ} {w w' : ℝ} (h : IsSpread m w) (h' : IsSpread m w') : w = w' := by
  obtain ⟨i, j, k, l, e⟩ := h.2
  obtain ⟨i', j', k', l', e'⟩ := h'.2
  have h1 := h'.1 i j k l
  have h2 := h.1 i' j' k' l'
  linarith

theorem slack_pos (w : ℝ) : 0 < slack w := lt_of_lt_of_le (by norm_num) (le_max_right _ _)

theorem minEntry_gt {d : Nat} [NeZero d] (v : Fin d → ℝ) (t : ℝ) : minEntry v > t ↔ ∀ i, t < v i := by
  unfold minEntry
  rw [gt_iff_lt, Finset.lt_inf'_iff]
  simp

/-- All eigenvalues are above `-t` exactly if the quadratic form is above `-t` on unit vectors. -/
theorem eigen_bound {d : Nat} {v : Matrix (Fin d) (Fin d) ℝ} (hv : vᵀ * v = 1) (l : Fin d → ℝ) (t : ℝ) :
    (∀ i, t < l i) ↔ ∀ x, lengthSq x = 1 → t < quadratic (v * Matrix.diagonal l * vᵀ) x := by
  constructor
  · intro h x hx
    rw [quadratic_decomp]
    have hl := length_decomp hv x
    rw [hx] at hl
    have : t = ∑ i, t * (vᵀ *ᵥ x) i ^ 2 := by rw [← Finset.mul_sum, hl, mul_one]
    rw [this]
    refine Finset.sum_lt_sum (fun i _ => mul_le_mul_of_nonneg_right (h i).le (sq_nonneg _)) ?_
    by_contra hne
    have hz : ∀ i, (vᵀ *ᵥ x) i ^ 2 = 0 := by
      intro i
      by_contra hi
      exact hne ⟨i, Finset.mem_univ _, mul_lt_mul_of_pos_right (h i) (lt_of_le_of_ne (sq_nonneg _) (Ne.symm hi))⟩
    rw [Finset.sum_eq_zero fun i _ => hz i] at hl
    norm_num at hl
  · intro h i
    have := eigen_quadratic hv l i
    rw [← this.1]
    exact h _ this.2

theorem make_square {d : Nat} (solver : Matrix (Fin d) (Fin d) ℝ → Solved d) (mu : Fin d → ℝ) (cov : Matrix (Fin d) (Fin d) ℝ) :
    Gaussian.make solver mu cov = Gaussian.ofSquare solver mu cov := by
  unfold Gaussian.make
  rw [dif_pos ⟨rfl, rfl⟩]
  rfl

/-- Everything about a constructed Gaussian. -/
theorem make_ok {d : Nat} (solver : Matrix (Fin d) (Fin d) ℝ → Solved d) (mu : Fin d → ℝ) (cov : Matrix (Fin d) (Fin d) ℝ) (g : Gaussian d)
    (h : Gaussian.make solver mu cov = .ok g) :
    d ≠ 0 ∧ approxSymmetric cov ∧ (solver cov).info ≠ .numericalIssue ∧ (∀ w, IsSpread cov w → ∀ i, -slack w < (solver cov).eigenvalues i) ∧
    g = ⟨mu, cov, fun i => max ((solver cov).eigenvalues i) 0, (solver cov).eigenvectors, fun i => Real.sqrt (max ((solver cov).eigenvalues i) 0)⟩ := by
  rw [make_square] at h
  unfold Gaussian.ofSquare at h
  by_cases hs : approxSymmetric cov
  · rw [Outcome.reassert_true hs] at h
    by_cases hi : (solver cov).info ≠ .numericalIssue
    · simp only [Outcome.ok_bind] at h
      rw [Outcome.reassert_true hi] at h
      by_cases hd : d = 0
      · rw [Outcome.ok_bind, dif_pos hd] at h
        cases h
      · rw [Outcome.ok_bind, dif_neg hd] at h
        have : NeZero d := ⟨hd⟩
        unfold sanitize at h
        by_cases ht : minEntry (solver cov).eigenvalues > -tolerance (maxCoeff cov) (minCoeff cov)
        · rw [Outcome.reassert_true ht] at h
          simp only [Outcome.ok_bind, Outcome.pure_eq, Outcome.ok.injEq] at h
          refine ⟨hd, hs, hi, fun w hw => ?_, h.symm⟩
          rw [minEntry_gt] at ht
          rw [spread_unique hw (tolerance_spread cov)]
          exact ht
        · rw [Outcome.reassert_false ht] at h
          simp at h
    · simp only [Outcome.ok_bind] at h
      rw [Outcome.reassert_false hi] at h
      simp at h
  · rw [Outcome.reassert_false hs] at h
    simp at h

theorem make_accepts {d : Nat} (hd : d ≠ 0) (solver : Matrix (Fin d) (Fin d) ℝ → Solved d) (mu : Fin d → ℝ) (cov : Matrix (Fin d) (Fin d) ℝ)
    (hs : approxSymmetric cov) (hi : (solver cov).info ≠ .numericalIssue) {w : ℝ} (hw : IsSpread cov w)
    (ht : ∀ i, -slack w < (solver cov).eigenvalues i) : ∃ g, Gaussian.make solver mu cov = .ok g := by
  have : NeZero d := ⟨hd⟩
  have ht' : minEntry (solver cov).eigenvalues > -tolerance (maxCoeff cov) (minCoeff cov) := by
    rw [minEntry_gt]
    rw [spread_unique hw (tolerance_spread cov)] at ht
    exact ht
  rw [make_square]
  unfold Gaussian.ofSquare
  rw [Outcome.reassert_true hs, Outcome.ok_bind, Outcome.reassert_true hi, Outcome.ok_bind, dif_neg hd]
  unfold sanitize
  rw [Outcome.reassert_true ht']
  exact ⟨_, rfl⟩

/-- It never is undefined if there is a dimension. -/
theorem make_not_ub {d r c : Nat} (hd : d ≠ 0) (solver : Matrix (Fin d) (Fin d) ℝ → Solved d) (mu : Fin d → ℝ) (cov : Matrix (Fin r) (Fin c) ℝ) (why : String) :
    Gaussian.make solver mu cov ≠ .ub why := by
  unfold Gaussian.make
  by_cases h : r = d ∧ c = d
  · rw [dif_pos h]
    generalize cov.submatrix (Fin.cast h.1.symm) (Fin.cast h.2.symm) = cov
    unfold Gaussian.ofSquare
    by_cases hs : approxSymmetric cov
    · rw [Outcome.reassert_true hs, Outcome.ok_bind]
      by_cases hi : (solver cov).info ≠ .numericalIssue
      · rw [Outcome.reassert_true hi, Outcome.ok_bind, dif_neg hd]
        unfold sanitize Outcome.reassert
        split <;> simp
      · rw [Outcome.reassert_false hi]
        simp
    · rw [Outcome.reassert_false hs]
      simp
  · rw [dif_neg h]
    simp

/-- The matrix the sampler applies. -/
noncomputable def Gaussian.map {d : Nat} (g : Gaussian d) : Matrix (Fin d) (Fin d) ℝ := g.eigenvectors * Matrix.diagonal g.sqrtEigenvalues

theorem samples_affine {n d : Nat} (g : Gaussian d) (z : Matrix (Fin n) (Fin d) ℝ) : g.samples z = affine z g.map g.mu := by
  ext i j
  simp only [Gaussian.samples, Matrix.of_apply, affine_apply, Gaussian.map]
  congr 1
  rw [Matrix.mul_assoc, Matrix.mul_apply]
  refine Finset.sum_congr rfl fun k _ => ?_
  rw [Matrix.diagonal_mul, Matrix.mul_diagonal, transpose_apply]
  ring

theorem map_square {d : Nat} (g : Gaussian d) (l : Fin d → ℝ) (hl : ∀ i, 0 ≤ l i) (h : g.sqrtEigenvalues = fun i => Real.sqrt (l i)) :
    g.map * g.mapᵀ = g.eigenvectors * Matrix.diagonal l * g.eigenvectorsᵀ := by
  unfold Gaussian.map
  rw [Matrix.transpose_mul, Matrix.diagonal_transpose, Matrix.mul_assoc, ← Matrix.mul_assoc (Matrix.diagonal _), Matrix.diagonal_mul_diagonal, ← Matrix.mul_assoc]
  congr 3
  funext i
  rw [h]
  exact Real.mul_self_sqrt (hl i)

theorem map_lower {d : Nat} (solver : Matrix (Fin d) (Fin d) ℝ → Solved d) (hw : Works solver) (mu : Fin d → ℝ) (cov : Matrix (Fin d) (Fin d) ℝ)
    (hpsd : ∀ x, 0 ≤ quadratic (lower cov) x) (g : Gaussian d) (hg : Gaussian.make solver mu cov = .ok g) :
    g.map * g.mapᵀ = lower cov ∧ g.mu = mu := by
  obtain ⟨hi, hv, hdec⟩ := hw cov
  obtain ⟨-, -, -, -, e⟩ := make_ok solver mu cov g hg
  have hnn : ∀ i, 0 ≤ (solver cov).eigenvalues i := by
    intro i
    have := (eigen_quadratic hv (solver cov).eigenvalues i).1
    rw [← this, hdec]
    exact hpsd _
  refine ⟨?_, by rw [e]⟩
  rw [map_square g (fun i => max ((solver cov).eigenvalues i) 0) (fun i => le_max_right _ _) (by rw [e])]
  have hl : (fun i => max ((solver cov).eigenvalues i) 0) = (solver cov).eigenvalues := funext fun i => max_eq_left (hnn i)
  rw [hl, e]
  exact hdec

/-- There are solvers that work. -/
theorem works_exists (d : Nat) : ∃ solver : Matrix (Fin d) (Fin d) ℝ → Solved d, Works solver := by
  have H : ∀ m : Matrix (Fin d) (Fin d) ℝ, (lower m).IsHermitian := fun m => by
    rw [Matrix.IsHermitian, Matrix.conjTranspose_eq_transpose_of_trivial]
    exact lower_symmetric m
  refine ⟨fun m => ⟨.success, (H m).eigenvalues, (H m).eigenvectorUnitary⟩, fun m => ⟨rfl, ?_, ?_⟩⟩
  · have := (Matrix.mem_unitaryGroup_iff'.mp (H m).eigenvectorUnitary.2)
    rwa [Matrix.star_eq_conjTranspose, Matrix.conjTranspose_eq_transpose_of_trivial] at this
  · have := (H m).spectral_theorem
    rw [Unitary.conjStarAlgAut_apply, Matrix.star_eq_conjTranspose, Matrix.conjTranspose_eq_transpose_of_trivial] at this
    exact this.symm

end Verif.Stats
