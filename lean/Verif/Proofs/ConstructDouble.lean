import Verif.Model.ConstructDouble
import Verif.Proofs.ApproxDoubleRelay
import Verif.Proofs.SO3Construct
/-! # Errors of rotations from angles, axes and quaternions -/
namespace Verif.ConstructDouble
open SampleIntervalDouble TransformDouble ExpDouble LogDouble Verif.Spec Matrix SO3

/-! ## Angle and axis -/

theorem trig_exact {ang s c : ℚ} (hs : SinOf ang s) (hc : CosOf ang c) :
    |(s : ℝ) - Real.sin ang| ≤ 2 * U ∧ |(c : ℝ) - Real.cos ang| ≤ 2 * U ∧ |(s : ℝ)| ≤ 1.001 ∧ |(c : ℝ)| ≤ 1.001 := by
  have hU := U_pos; have hU1 := U_tiny.1
  unfold SinOf at hs
  unfold CosOf at hc
  rw [two_U] at hs hc
  have s1 := Real.abs_sin_le_one (ang : ℝ)
  have c1 := Real.abs_cos_le_one (ang : ℝ)
  have s2 := mul_le_mul_of_nonneg_left s1 (by linarith : 0 ≤ 2 * U)
  have c2 := mul_le_mul_of_nonneg_left c1 (by linarith : 0 ≤ 2 * U)
  have s3 : |(s : ℝ) - Real.sin ang| ≤ 2 * U := by linarith
  have c3 : |(c : ℝ) - Real.cos ang| ≤ 2 * U := by linarith
  refine ⟨s3, c3, ?_, ?_⟩
  · rw [abs_le] at s1 s3 ⊢; constructor <;> linarith
  · rw [abs_le] at c1 c3 ⊢; constructor <;> linarith

/-- The matrix of an angle and an axis that is a unit vector up to roundings. -/
theorem angleAxis_err {angle : ℚ} {axis : Fin 3 → ℚ} {m : Matrix (Fin 3) (Fin 3) ℚ} (h : AngleAxisMatrix angle axis m) {N : V3} (hN : eucNorm N = 1)
    (hn : ∀ i, |(axis i : ℝ) - N i| ≤ 3.6 * U) (i j : Fin 3) : |(m i j : ℝ) - angleAxisMatrix angle N i j| ≤ 33 * U := by
  have hU := U_pos; have hU1 := U_tiny.1
  obtain ⟨s, c, hs, hc, k, hk, hd, h01, h10, h02, h20, h12, h21⟩ := h
  obtain ⟨t1, t2, t3, t4⟩ := trig_exact hs hc
  have hN1 : ∀ i, |N i| ≤ 1 := fun i => (abs_entry_le N i).trans hN.le
  have n1 : ∀ i, |(axis i : ℝ)| ≤ 1.0001 := fun i => by
    have a := hn i; have b := hN1 i
    rw [abs_le] at a b ⊢; constructor <;> linarith
  have hsd : ∀ l, |(s : ℝ) * axis l - Real.sin angle * N l| ≤ 3.604 * U + 2 * U := fun l => by
    have := prod_err t1 (hn l) t3 (hN1 l); linarith
  have hsm : ∀ l, |(s : ℝ) * axis l| ≤ 1.003 := fun l => by
    rw [abs_mul]; have := mul_le_mul t3 (n1 l) (abs_nonneg _) (by norm_num); linarith
  have hC := Real.abs_cos_le_one (angle : ℝ)
  have hE : 29 * U + 2 * (2 * U) ≤ 33 * U := by linarith
  have e1 : ∀ i m, Evaluates ![k i, 1] ![axis i, c] Finset.univ m →
      |(m : ℝ) - ((1 - Real.cos angle) * N i * N i + Real.cos angle)| ≤ 33 * U := fun i m hm => by
    refine (entry_err t2 t4 hC (hn i) (hn i) (hN1 i) (hN1 i) (hk i) hm ?_ ?_).trans hE
    · rw [Rat.cast_one, one_mul]; linarith
    · rw [Rat.cast_one, one_mul]; linarith
  have e2 : ∀ i j l m, Evaluates ![k i, s] ![axis j, axis l] Finset.univ m →
      |(m : ℝ) - ((1 - Real.cos angle) * N i * N j + Real.sin angle * N l)| ≤ 33 * U := fun i j l m hm =>
    (entry_err t2 t4 hC (hn i) (hn j) (hN1 i) (hN1 j) (hk i) hm (hsd l) (hsm l)).trans hE
  have e3 : ∀ i j l m, Evaluates ![k i, -s] ![axis j, axis l] Finset.univ m →
      |(m : ℝ) - ((1 - Real.cos angle) * N i * N j - Real.sin angle * N l)| ≤ 33 * U := fun i j l m hm => by
    rw [sub_eq_add_neg]
    refine (entry_err t2 t4 hC (hn i) (hn j) (hN1 i) (hN1 j) (hk i) hm ?_ ?_).trans hE
    · have := hsd l
      rw [← abs_neg] at this
      rw [Rat.cast_neg]
      convert this using 2; ring
    · rw [Rat.cast_neg, neg_mul, abs_neg]; exact hsm l
  unfold SO3.angleAxisMatrix
  fin_cases i <;> fin_cases j <;> simp
  · exact e1 0 _ (hd 0)
  · exact e3 0 1 2 _ h01
  · exact e2 0 2 1 _ h02
  · exact e2 0 1 2 _ h10
  · exact e1 1 _ (hd 1)
  · exact e3 1 2 0 _ h12
  · exact e3 0 2 1 _ h20
  · exact e2 1 2 0 _ h21
  · exact e1 2 _ (hd 2)

/-! ## Quaternions -/

/-- The quaternion of the stored numbers. -/
noncomputable def realQuat (q : Quat64) : Quat := ⟨q.w, realVec q.v⟩

theorem off_err {a b c w r : ℚ} (h : Evaluates ![2 * a, 2 * b] ![c, w] Finset.univ r) {n : ℝ} (hn : (a : ℝ) ^ 2 + (b : ℝ) ^ 2 + (c : ℝ) ^ 2 + (w : ℝ) ^ 2 = n) (h1 : n ≤ 1.1) :
    |(r : ℝ) - (2 * a * c + 2 * b * w)| ≤ 6 * U := by
  have hU := U_pos; have hH := H_tiny; have hH0 := H_pos
  have e := eval2 h
  push_cast at e
  refine e.trans ?_
  have k1 : |2 * (a : ℝ) * c| ≤ (a : ℝ) ^ 2 + (c : ℝ) ^ 2 := by
    rw [abs_le]; constructor <;> nlinarith [sq_nonneg ((a : ℝ) + c), sq_nonneg ((a : ℝ) - c)]
  have k2 : |2 * (b : ℝ) * w| ≤ (b : ℝ) ^ 2 + (w : ℝ) ^ 2 := by
    rw [abs_le]; constructor <;> nlinarith [sq_nonneg ((b : ℝ) + w), sq_nonneg ((b : ℝ) - w)]
  have k3 := mul_le_mul_of_nonneg_left (show |2 * (a : ℝ) * c| + |2 * (b : ℝ) * w| ≤ 1.1 by linarith) (by linarith : 0 ≤ 2.001 * U)
  linarith

theorem diag_err {a b p : ℚ} (h : Evaluates ![2 * a, 2 * b] ![a, b] Finset.univ p) (hn : (a : ℝ) ^ 2 + (b : ℝ) ^ 2 ≤ 1.1) :
    |((round64 (1 - p) : ℚ) : ℝ) - (1 - (2 * a * a + 2 * b * b))| ≤ 6 * U := by
  have hU := U_pos; have hU1 := U_tiny.1; have hH := H_tiny; have hH0 := H_pos
  have e := eval2 h
  push_cast at e
  have a0 : 0 ≤ 2 * (a : ℝ) * a := by nlinarith [mul_self_nonneg (a : ℝ)]
  have b0 : 0 ≤ 2 * (b : ℝ) * b := by nlinarith [mul_self_nonneg (b : ℝ)]
  rw [abs_of_nonneg a0, abs_of_nonneg b0] at e
  have s1 : 2 * (a : ℝ) * a + 2 * b * b ≤ 2.2 := by linarith [sq (a : ℝ), sq (b : ℝ)]
  have k := mul_le_mul_of_nonneg_left s1 (by linarith : 0 ≤ 2.001 * U)
  have r := rnd (1 - p)
  push_cast at r
  have s0 := add_nonneg a0 b0
  have k0 : 0 ≤ 2.001 * U * (2 * (a : ℝ) * a + 2 * b * b) := by positivity
  generalize 2 * (a : ℝ) * a + 2 * b * b = S at *
  have o : |(1 : ℝ) - p| ≤ 1.21 := by rw [abs_le] at e ⊢; constructor <;> linarith
  have k2 := mul_le_mul_of_nonneg_left o hU.le
  rw [abs_le] at e r ⊢
  constructor <;> linarith

theorem fromQuaternion_err {q : Quat64} {m : Matrix (Fin 3) (Fin 3) ℚ} (h : FromQuaternion q m) (hq : qsq (realQuat q) ≤ 1.1) (i j : Fin 3) :
    |(m i j : ℝ) - quatMatrix (realQuat q) i j| ≤ 6 * U := by
  obtain ⟨⟨p0, d0, e0⟩, ⟨p1, d1, e1⟩, ⟨p2, d2, e2⟩, h01, h10, h02, h20, h12, h21⟩ := h
  have hs : (q.w : ℝ) ^ 2 + ((q.v 0 : ℝ) ^ 2 + (q.v 1 : ℝ) ^ 2 + (q.v 2 : ℝ) ^ 2) ≤ 1.1 := by
    have := hq; rw [qsq, sqNorm_eq] at this; exact this
  have w0 := sq_nonneg (q.w : ℝ)
  have x0 := sq_nonneg (q.v 0 : ℝ)
  have y0 := sq_nonneg (q.v 1 : ℝ)
  have z0 := sq_nonneg (q.v 2 : ℝ)
  have neg : ∀ {a b c w r : ℚ}, Evaluates ![2 * a, -(2 * b)] ![c, w] Finset.univ r → (a : ℝ) ^ 2 + (b : ℝ) ^ 2 + (c : ℝ) ^ 2 + (w : ℝ) ^ 2 ≤ 1.1 →
      |(r : ℝ) - (2 * a * c - 2 * b * w)| ≤ 6 * U := fun {a b c w r} h hn => by
    rw [show -(2 * b) = 2 * -b by ring] at h
    have := off_err h rfl (by push_cast; rw [neg_sq]; exact hn)
    push_cast at this
    rw [show 2 * (a : ℝ) * c - 2 * b * w = 2 * a * c + 2 * -b * w by ring]
    exact this
  fin_cases i <;> fin_cases j <;> simp [quatMatrix, realQuat, realVec]
  · rw [e0]; exact diag_err d0 (by linarith)
  · exact neg h01 (by linarith)
  · exact off_err h02 rfl (by linarith)
  · exact off_err h10 rfl (by linarith)
  · rw [e1]; exact diag_err d1 (by linarith)
  · exact neg h12 (by linarith)
  · exact neg h20 (by linarith)
  · exact off_err h21 rfl (by linarith)
  · rw [e2]; exact diag_err d2 (by linarith)

end Verif.ConstructDouble
