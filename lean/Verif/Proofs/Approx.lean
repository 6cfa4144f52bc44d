import Verif.Model.Approx
import Verif.Proofs.LieLaws
import Verif.Proofs.SE3Log
import Verif.Proofs.TwoJet
/-! # Lemmas about approximate comparison -/
namespace Verif.Approx
open Matrix Verif.Spec SO3

theorem matSq_eq (a : M3) : matSq a = (aᵀ * a).trace := by
  simp only [matSq, trace, diag_apply, mul_apply, transpose_apply]
  exact Finset.sum_comm

theorem matSq_nonneg (a : M3) : 0 ≤ matSq a := Finset.sum_nonneg fun _ _ => Finset.sum_nonneg fun _ _ => mul_self_nonneg _

theorem matSq_transpose (a : M3) : matSq aᵀ = matSq a := by
  simp only [matSq, transpose_apply]
  exact Finset.sum_comm

theorem matSq_neg (a : M3) : matSq (-a) = matSq a := by simp [matSq]

theorem matSq_sub_comm (a b : M3) : matSq (a - b) = matSq (b - a) := by rw [← matSq_neg, neg_sub]

theorem matSq_mul {R : M3} (h : IsRotation R) (a : M3) : matSq (R * a) = matSq a := by
  rw [matSq_eq, matSq_eq, transpose_mul, Matrix.mul_assoc, ← Matrix.mul_assoc Rᵀ, h.orth, Matrix.one_mul]

theorem matSq_mul_right {R : M3} (h : IsRotation R) (a : M3) : matSq (a * R) = matSq a := by
  rw [← matSq_transpose, transpose_mul, matSq_mul (isRotation_transpose h), matSq_transpose]

theorem matSq_rotation {R : M3} (h : IsRotation R) : matSq R = 3 := by
  rw [matSq_eq, h.orth, trace_one]
  simp

theorem sqNorm_mulVec_le (a : M3) (v : V3) : sqNorm (a *ᵥ v) ≤ matSq a * sqNorm v := by
  unfold sqNorm matSq
  rw [dotProduct, Finset.sum_mul]
  refine Finset.sum_le_sum fun i _ => ?_
  have := Finset.sum_mul_sq_le_sq_mul_sq Finset.univ (a i) v
  simpa [mulVec, dotProduct, sq] using this

theorem eucNorm_mulVec_le {a : M3} {c : ℝ} (hc : 0 ≤ c) (h : matSq a ≤ c ^ 2) (v : V3) : eucNorm (a *ᵥ v) ≤ c * eucNorm v := by
  refine Real.sqrt_le_iff.mpr ⟨mul_nonneg hc (eucNorm_nonneg v), ?_⟩
  rw [mul_pow, eucNorm_sq]
  exact (sqNorm_mulVec_le a v).trans (mul_le_mul_of_nonneg_right h (sqNorm_nonneg v))

theorem trace_exp (w : V3) : (SO3.exp w).trace = 1 + 2 * Real.cos (eucNorm w) := by
  by_cases h : w = 0
  · subst h
    rw [exp_zero, trace_one, eucNorm_zero]
    norm_num
  · have hn : sqNorm (normalized w) = 1 := normalized_unit h
    simp only [sqNorm, dotProduct, Fin.sum_univ_three] at hn
    simp only [SO3.exp, angleAxisMatrix, trace, diag_apply, Fin.sum_univ_three, of_apply, cons_val_zero, cons_val_one, cons_val, Pi.smul_apply, smul_eq_mul]
    linear_combination (1 - Real.cos (eucNorm w)) * hn

/-- The distance of two rotation matrices in terms of the angle between them. -/
theorem matSq_sub_angle {A B : M3} (ha : IsRotation A) (hb : IsRotation B) :
    matSq (A - B) = 8 * Real.sin (eucNorm (SO3.log (Aᵀ * B)) / 2) ^ 2 := by
  have hr := isRotation_mul (isRotation_transpose ha) hb
  have e : matSq (A - B) = matSq (1 - Aᵀ * B) := by
    rw [← matSq_mul (isRotation_transpose ha) (A - B), Matrix.mul_sub, ha.orth]
  have t := trace_exp (SO3.log (Aᵀ * B))
  rw [(SO3.exp_log hr).1] at t
  have t' : ((Aᵀ * B)ᵀ).trace = (Aᵀ * B).trace := trace_transpose _
  rw [e, matSq_eq]
  have : (1 - Aᵀ * B)ᵀ * (1 - Aᵀ * B) = 1 - Aᵀ * B - (Aᵀ * B)ᵀ + (Aᵀ * B)ᵀ * (Aᵀ * B) := by
    rw [transpose_sub, transpose_one]
    noncomm_ring
  rw [this, hr.orth, trace_add, trace_sub, trace_sub, t', t, trace_one, Real.sin_sq_eq_half_sub]
  simp
  ring_nf

theorem vec_of_sq {p : ℝ} {a b : V3} (h : vec p a b) (hp : 0 ≤ p) : eucNorm (a - b) ≤ p * min (eucNorm a) (eucNorm b) := by
  refine Real.sqrt_le_iff.mpr ⟨mul_nonneg hp (le_min (eucNorm_nonneg _) (eucNorm_nonneg _)), ?_⟩
  unfold vec at h
  rw [mul_pow, sq p]
  have : min (eucNorm a) (eucNorm b) ^ 2 = min (sqNorm a) (sqNorm b) := by
    rcases le_total (sqNorm a) (sqNorm b) with hl | hl
    · rw [min_eq_left hl, min_eq_left (show eucNorm a ≤ eucNorm b from Real.sqrt_le_sqrt hl), eucNorm_sq]
    · rw [min_eq_right hl, min_eq_right (show eucNorm b ≤ eucNorm a from Real.sqrt_le_sqrt hl), eucNorm_sq]
  rwa [this]

end Verif.Approx

namespace Verif.Props
open Verif Verif.Spec Verif.Framed Matrix

theorem sqNorm_sub_comm (a b : V3) : SO3.sqNorm (a - b) = SO3.sqNorm (b - a) := by
  rw [← neg_sub, SO3.sqNorm, neg_dotProduct_neg, SO3.sqNorm]

theorem vec_refl (p : ℝ) (a : V3) : Approx.vec p a a := by
  have h : SO3.sqNorm (a - a) = 0 := by simp [SO3.sqNorm]
  rw [Approx.vec, h, min_self]
  exact mul_nonneg (mul_self_nonneg p) (SO3.sqNorm_nonneg a)

theorem vec_symm {p : ℝ} {a b : V3} (h : Approx.vec p a b) : Approx.vec p b a := by
  rw [Approx.vec, sqNorm_sub_comm, min_comm]
  exact h

theorem mat_refl (a : M3) : Approx.mat a a := by
  have h : Approx.matSq (a - a) = 0 := by simp [Approx.matSq]
  rw [Approx.mat, h, min_self]
  exact mul_nonneg (by norm_num) (Approx.matSq_nonneg a)

theorem mat_symm {a b : M3} (h : Approx.mat a b) : Approx.mat b a := by
  rw [Approx.mat, Approx.matSq_sub_comm, min_comm]
  exact h

theorem twist_refl (a : Twist) : Approx.twist a a := by
  have h : Approx.twistSq (a - a) = 0 := by simp [Approx.twistSq, SO3.sqNorm]
  rw [Approx.twist, h, min_self]
  exact mul_nonneg (by norm_num) (add_nonneg (SO3.sqNorm_nonneg _) (SO3.sqNorm_nonneg _))

theorem twist_symm {a b : Twist} (h : Approx.twist a b) : Approx.twist b a := by
  rw [Approx.twist, min_comm]
  unfold Approx.twist at h
  have e : Approx.twistSq (b - a) = Approx.twistSq (a - b) := by
    simp only [Approx.twistSq, Prod.fst_sub, Prod.snd_sub]
    rw [sqNorm_sub_comm, sqNorm_sub_comm b.2]
  rwa [e]

theorem verifyFrames_iff {G H : Type} (a : Framed G) (b : Framed H) :
    a.verifyFrames b.into b.src = true ↔ a.into = b.into ∧ a.src = b.src := by
  simp [verifyFrames, verifyInto, verifyFrom]

theorem mat_rotation_iff {a b : M3} (ha : IsRotation a) (hb : IsRotation b) : Approx.mat a b ↔ Approx.matSq (a - b) ≤ 3e-24 := by
  rw [Approx.mat, Approx.matSq_rotation ha, Approx.matSq_rotation hb, min_self]
  norm_num

theorem mat_bound {a b : M3} (ha : IsRotation a) (hb : IsRotation b) (h : Approx.mat a b) (v : V3) :
    SO3.eucNorm (a *ᵥ v - b *ᵥ v) ≤ 1.8e-12 * SO3.eucNorm v := by
  rw [← sub_mulVec]
  exact Approx.eucNorm_mulVec_le (by norm_num) (((mat_rotation_iff ha hb).mp h).trans (by norm_num)) v

theorem mat_mul_left {c a b : M3} (hc : IsRotation c) : Approx.mat (c * a) (c * b) ↔ Approx.mat a b := by
  rw [Approx.mat, ← Matrix.mul_sub, Approx.matSq_mul hc, Approx.matSq_mul hc, Approx.matSq_mul hc, Approx.mat]

theorem mat_mul_right {c a b : M3} (hc : IsRotation c) : Approx.mat (a * c) (b * c) ↔ Approx.mat a b := by
  rw [Approx.mat, ← Matrix.sub_mul, Approx.matSq_mul_right hc, Approx.matSq_mul_right hc, Approx.matSq_mul_right hc, Approx.mat]

theorem mul_frames {R G A V : Type} {L : LieOps R G A V} {a b a' b' x y : Framed G} (h1 : a.into = a'.into) (h2 : a.src = a'.src) (h3 : b.into = b'.into)
    (h4 : b.src = b'.src) (hx : Framed.mul L a b = .ok x) (hy : Framed.mul L a' b' = .ok y) : x.into = y.into ∧ x.src = y.src := by
  unfold Framed.mul isFramed at hx hy
  rw [h1, h2, h3, h4] at hx
  split_ifs at hx hy
  · cases hx; cases hy; exact ⟨rfl, rfl⟩
  · obtain ⟨-, rfl⟩ := mk'_eq_ok_iff.mp hx
    obtain ⟨-, rfl⟩ := mk'_eq_ok_iff.mp hy
    exact ⟨rfl, rfl⟩

/-- A rotation about the z axis by an angle whose half has tangent `t`. -/
noncomputable def turn (t : ℝ) : M3 :=
  !![(1 - t ^ 2) / (1 + t ^ 2), -(2 * t / (1 + t ^ 2)), 0; 2 * t / (1 + t ^ 2), (1 - t ^ 2) / (1 + t ^ 2), 0; 0, 0, 1]

theorem isRotation_turn (t : ℝ) : IsRotation (turn t) := by
  have h : (1 + t ^ 2) ≠ 0 := by positivity
  constructor
  · ext i j
    fin_cases i <;> fin_cases j <;> simp [turn, mul_apply, Fin.sum_univ_three] <;> field_simp <;> ring
  · simp [turn, det_fin_three]
    field_simp
    ring

end Verif.Props
