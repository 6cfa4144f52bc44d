import Verif.Spec.ShippedExamples
import Mathlib.Tactic.Ring
import Mathlib.Tactic.LinearCombination
import Mathlib.Tactic.NormNum
import Mathlib.Tactic.FinCases
import Mathlib.Tactic.Positivity
import Mathlib.Tactic.Linarith
/-! # Lemmas for the example programs -/
namespace Verif.ShippedExamples
open Matrix Spec.ShippedExamples

theorem records_append : ∀ {a : List Char} (r : List Char), '\n' ∉ a → records (a ++ '\n' :: r) = a :: records r
  | [], _, _ => rfl
  | ch :: a, r, h => by
    have h0 : ch ≠ '\n' := fun e => h (e ▸ List.mem_cons_self)
    have ih := records_append r (fun m => h (List.mem_cons_of_mem ch m))
    rw [records] at ih
    rw [records, List.cons_append, List.foldr_cons, if_neg h0, ih]

theorem fields_line {a b : List Char} (h : ',' ∉ a) : fields (a ++ [',', ' '] ++ b) = (a, b) := by
  have ht : ∀ x ∈ a, (x != ',') = true := fun x hx => by
    rw [bne_iff_ne]; rintro rfl; exact h hx
  rw [fields, List.append_assoc, List.takeWhile_append_of_pos ht, List.dropWhile_append_of_pos ht]
  simp

theorem lines_read {fmt : ℝ → List Char} (hf : Plain fmt) : ∀ l : List (ℝ × ℝ),
    (records (l.flatMap fun p => line fmt p.1 p.2)).map fields = l.map fun p => (fmt p.1, fmt p.2)
  | [] => rfl
  | p :: l => by
    have hn : '\n' ∉ fmt p.1 ++ [',', ' '] ++ fmt p.2 := by simp [(hf p.1).2, (hf p.2).2]
    rw [List.flatMap_cons, line, List.append_assoc, List.singleton_append, records_append _ hn, List.map_cons, fields_line (hf _).1, lines_read hf l, List.map_cons]

theorem file_read {fmt : ℝ → List Char} (hf : Plain fmt) {n : Nat} (s : Matrix (Fin n) (Fin 2) ℝ) :
    (records (file fmt s)).map fields = List.ofFn fun i => (fmt (s i 0), fmt (s i 1)) := by
  have e : file fmt s = ((List.finRange n).map fun i => (s i 0, s i 1)).flatMap fun p => line fmt p.1 p.2 := by rw [file, List.flatMap_map]
  rw [e, lines_read hf, List.map_map, List.ofFn_eq_map]
  rfl

theorem cov_psd (x : Fin 2 → ℝ) : 0 ≤ Spec.Stats.quadratic gaussianCovariance x := by
  simp only [Spec.Stats.quadratic, gaussianCovariance, Fin.sum_univ_two, Matrix.of_apply, Matrix.cons_val', Matrix.cons_val_zero, Matrix.cons_val_one,
    Matrix.cons_val_fin_one]
  nlinarith [sq_nonneg (x 0 - 0.2 * x 1), sq_nonneg (4.8 * x 0 - 0.96 * x 1), sq_nonneg (x 1)]

theorem cov_symm : gaussianCovarianceᵀ = gaussianCovariance := by
  ext i j
  fin_cases i <;> fin_cases j <;> rfl

theorem distance (m : Matrix (Fin 2) (Fin 2) ℝ) (h : m * mᵀ = gaussianCovariance) (z : Fin 2 → ℝ) :
    Spec.Stats.quadratic precision (m *ᵥ z) = Spec.Stats.lengthSq z := by
  have e : ∀ i j, m i 0 * m j 0 + m i 1 * m j 1 = gaussianCovariance i j := fun i j => by
    rw [← h, Matrix.mul_apply, Fin.sum_univ_two, Matrix.transpose_apply, Matrix.transpose_apply]
  have e1 : m 0 0 * m 0 0 + m 0 1 * m 0 1 = 4.8 := e 0 0
  have e2 : m 0 0 * m 1 0 + m 0 1 * m 1 1 = -0.96 := e 0 1
  have e3 : m 1 0 * m 1 0 + m 1 1 * m 1 1 = 0.25 := e 1 1
  have ed : (m 0 0 * m 1 1 - m 0 1 * m 1 0) ^ 2 = 0.2784 := by
    have : (m 0 0 * m 1 1 - m 0 1 * m 1 0) ^ 2 =
        (m 0 0 * m 0 0 + m 0 1 * m 0 1) * (m 1 0 * m 1 0 + m 1 1 * m 1 1) - (m 0 0 * m 1 0 + m 0 1 * m 1 1) ^ 2 := by ring
    rw [this, e1, e2, e3]; norm_num
  simp only [Spec.Stats.quadratic, Spec.Stats.lengthSq, precision, Fin.sum_univ_two, Matrix.of_apply, Matrix.cons_val', Matrix.cons_val_zero, Matrix.cons_val_one,
    Matrix.cons_val_fin_one, Matrix.mulVec, dotProduct]
  set u := m 0 0 * z 0 + m 0 1 * z 1 with hu
  set w := m 1 0 * z 0 + m 1 1 * z 1 with hw
  have key : 0.25 * u ^ 2 + 2 * 0.96 * u * w + 4.8 * w ^ 2 = 0.2784 * (z 0 ^ 2 + z 1 ^ 2) := by
    rw [← ed, ← e1, ← e3, show (0.96 : ℝ) = -(m 0 0 * m 1 0 + m 0 1 * m 1 1) by rw [e2]; norm_num, hu, hw]
    ring
  have : u * (0.25 / 0.2784) * u + u * (0.96 / 0.2784) * w + (w * (0.96 / 0.2784) * u + w * (4.8 / 0.2784) * w) =
      (0.25 * u ^ 2 + 2 * 0.96 * u * w + 4.8 * w ^ 2) / 0.2784 := by ring
  rw [this, key]
  norm_num

end Verif.ShippedExamples
