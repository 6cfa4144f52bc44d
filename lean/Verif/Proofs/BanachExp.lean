import Mathlib.Analysis.Normed.Algebra.Exponential
import Mathlib.Analysis.SpecialFunctions.Trigonometric.Series
import Mathlib.Tactic.FieldSimp
import Mathlib.Tactic.LinearCombination
/-! # The exponential of an element with `X⁴ = -θ² X²` -/
namespace Verif
open NormedSpace

variable {B : Type*} [NormedRing B] [NormedAlgebra ℝ B]

theorem pow_even (X : B) (q : ℝ) (h : X ^ 4 = (-q) • X ^ 2) (n : ℕ) : X ^ (2 * n + 2) = ((-q) ^ n) • X ^ 2 := by
  induction n with
  | zero => simp
  | succ n ih =>
    have : X ^ (2 * (n + 1) + 2) = X ^ (2 * n + 2) * X ^ 2 := by rw [← pow_add]; congr 1
    rw [this, ih, smul_mul_assoc, ← pow_add, h, smul_smul, ← pow_succ]

theorem pow_odd (X : B) (q : ℝ) (h : X ^ 4 = (-q) • X ^ 2) (n : ℕ) : X ^ (2 * n + 3) = ((-q) ^ n) • X ^ 3 := by
  have : X ^ (2 * n + 3) = X ^ (2 * n + 2) * X := by rw [← pow_succ]
  rw [this, pow_even X q h, smul_mul_assoc, ← pow_succ]

theorem hasSum_even_part (X : B) (θ : ℝ) (hθ : θ ≠ 0) (h : X ^ 4 = (-(θ ^ 2)) • X ^ 2) :
    HasSum (fun k : ℕ => (((2 * k).factorial : ℝ)⁻¹) • X ^ (2 * k))
      ((-(θ ^ 2)⁻¹ * Real.cos θ) • X ^ 2 + (1 + (θ ^ 2)⁻¹ • X ^ 2)) := by
  have hc := (Real.hasSum_cos θ).mul_left (-(θ ^ 2)⁻¹)
  have h1 := (hc.smul_const (X ^ 2)).add (hasSum_ite_eq (0 : ℕ) (1 + (θ ^ 2)⁻¹ • X ^ 2))
  convert h1 using 1
  funext k
  cases k with
  | zero => simp
  | succ k =>
    have e : 2 * (k + 1) = 2 * k + 2 := by ring
    rw [e, pow_even X _ h, smul_smul]
    simp only [Nat.add_eq_zero_iff, one_ne_zero, and_false, if_false, add_zero]
    congr 1
    rw [show (-θ ^ 2) ^ k = (-1) ^ k * θ ^ (2 * k) by rw [neg_pow, pow_mul], pow_succ (-1 : ℝ) k, pow_add]
    field_simp

theorem hasSum_odd_part (X : B) (θ : ℝ) (hθ : θ ≠ 0) (h : X ^ 4 = (-(θ ^ 2)) • X ^ 2) :
    HasSum (fun k : ℕ => (((2 * k + 1).factorial : ℝ)⁻¹) • X ^ (2 * k + 1))
      ((-(θ ^ 3)⁻¹ * Real.sin θ) • X ^ 3 + (X + (θ ^ 2)⁻¹ • X ^ 3)) := by
  have hc := (Real.hasSum_sin θ).mul_left (-(θ ^ 3)⁻¹)
  have h1 := (hc.smul_const (X ^ 3)).add (hasSum_ite_eq (0 : ℕ) (X + (θ ^ 2)⁻¹ • X ^ 3))
  convert h1 using 1
  funext k
  cases k with
  | zero =>
    have : (θ ^ 3)⁻¹ * θ = (θ ^ 2)⁻¹ := by field_simp
    simp [this]
  | succ k =>
    have e : 2 * (k + 1) + 1 = 2 * k + 3 := by ring
    rw [e, pow_odd X _ h, smul_smul]
    simp only [Nat.add_eq_zero_iff, one_ne_zero, and_false, if_false, add_zero]
    congr 1
    rw [show (-θ ^ 2) ^ k = (-1) ^ k * θ ^ (2 * k) by rw [neg_pow, pow_mul], pow_succ (-1 : ℝ) k, pow_add]
    field_simp

/-- Closed form of the exponential. -/
theorem exp_closed_form [CompleteSpace B] (X : B) (θ : ℝ) (hθ : θ ≠ 0) (h : X ^ 4 = (-(θ ^ 2)) • X ^ 2) :
    exp X = 1 + X + ((1 - Real.cos θ) / θ ^ 2) • X ^ 2 + ((θ - Real.sin θ) / θ ^ 3) • X ^ 3 := by
  have hs : HasSum (fun n => ((n.factorial : ℝ)⁻¹) • X ^ n) (exp X) := exp_series_hasSum_exp' X
  have he := hasSum_even_part X θ hθ h
  have ho := hasSum_odd_part X θ hθ h
  have := hs.unique (HasSum.even_add_odd he ho)
  rw [this]
  have e1 : (1 - Real.cos θ) / θ ^ 2 = -(θ ^ 2)⁻¹ * Real.cos θ + (θ ^ 2)⁻¹ := by ring
  have e2 : (θ - Real.sin θ) / θ ^ 3 = -(θ ^ 3)⁻¹ * Real.sin θ + (θ ^ 2)⁻¹ := by field_simp; ring
  rw [e1, e2, add_smul, add_smul]
  abel

/-- The exponential of a square-zero element. -/
theorem exp_sq_zero [CompleteSpace B] (X : B) (h : X ^ 2 = 0) : exp X = 1 + X := by
  have hs : HasSum (fun n => ((n.factorial : ℝ)⁻¹) • X ^ n) (exp X) := exp_series_hasSum_exp' X
  refine hs.unique ?_
  have : HasSum (fun n => ((n.factorial : ℝ)⁻¹) • X ^ n) (∑ n ∈ Finset.range 2, ((n.factorial : ℝ)⁻¹) • X ^ n) := by
    apply hasSum_sum_of_ne_finset_zero
    intro n hn
    simp only [Finset.mem_range, not_lt] at hn
    obtain ⟨m, rfl⟩ := Nat.exists_eq_add_of_le hn
    rw [pow_add, h, zero_mul, smul_zero]
  simpa [Finset.sum_range_succ] using this

end Verif
