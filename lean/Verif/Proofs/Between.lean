import Verif.Model.LieGuide
import Verif.Spec.Turn
import Verif.Proofs.Shadow
import Verif.Proofs.Approx
import Mathlib.Geometry.Euclidean.Angle.Unoriented.TriangleInequality
/-! # Lemmas on interpolation between two transforms -/
namespace Verif
open Matrix

namespace SE3
open SO3

theorem xexp_sub (w u v : V3) : (xexp (w, u)).2 - (xexp (w, v)).2 = (xexp (w, u - v)).2 := by
  simp only [xexp, mulVec_sub, smul_sub]
  abel

theorem dot_cross_cross (w u : V3) : u ⬝ᵥ (w ⨯₃ (w ⨯₃ u)) = -((w ⨯₃ u) ⬝ᵥ (w ⨯₃ u)) := by
  simp only [cross_apply, dotProduct, Fin.sum_univ_three, cons_val_zero, cons_val_one, cons_val]
  ring

theorem sq_cross_cross (w u : V3) : (w ⨯₃ (w ⨯₃ u)) ⬝ᵥ (w ⨯₃ (w ⨯₃ u)) = sqNorm w * ((w ⨯₃ u) ⬝ᵥ (w ⨯₃ u)) := by
  simp only [cross_apply, sqNorm, dotProduct, Fin.sum_univ_three, cons_val_zero, cons_val_one, cons_val]
  ring

/-- A screw motion moves the origin by at most the length of its translation part. -/
theorem xexp_norm (x : Twist) : eucNorm (xexp x).2 ≤ eucNorm x.2 := by
  rw [xexp_cross]
  by_cases h0 : x.1 = 0
  · rw [h0]; simp
  have hp := eucNorm_pos h0
  refine Real.sqrt_le_sqrt ?_
  generalize hw : x.1 = w at *
  generalize x.2 = u
  have e : sqNorm (u + ((1 - Real.cos (eucNorm w)) / eucNorm w ^ 2) • (w ⨯₃ u) + ((eucNorm w - Real.sin (eucNorm w)) / eucNorm w ^ 3) • (w ⨯₃ (w ⨯₃ u))) =
      sqNorm u + ((w ⨯₃ u) ⬝ᵥ (w ⨯₃ u)) * ((2 - 2 * Real.cos (eucNorm w) - eucNorm w ^ 2) / eucNorm w ^ 4) := by
    have d1 : u ⬝ᵥ (w ⨯₃ u) = 0 := by rw [dot_cross_self]
    have d2 : (w ⨯₃ u) ⬝ᵥ (w ⨯₃ (w ⨯₃ u)) = 0 := by rw [dot_cross_self]
    have d3 := dot_cross_cross w u
    have d4 := sq_cross_cross w u
    have d5 : (w ⨯₃ u) ⬝ᵥ u = 0 := by rw [dotProduct_comm, d1]
    have d6 : (w ⨯₃ (w ⨯₃ u)) ⬝ᵥ (w ⨯₃ u) = 0 := by rw [dotProduct_comm, d2]
    have d7 : (w ⨯₃ (w ⨯₃ u)) ⬝ᵥ u = -((w ⨯₃ u) ⬝ᵥ (w ⨯₃ u)) := by rw [dotProduct_comm, d3]
    have hs := Real.sin_sq_add_cos_sq (eucNorm w)
    rw [← eucNorm_sq] at d4
    rw [sqNorm, sqNorm]
    simp only [add_dotProduct, dotProduct_add, smul_dotProduct, dotProduct_smul, smul_eq_mul, d1, d2, d3, d4, d5, d6, d7]
    generalize (w ⨯₃ u) ⬝ᵥ (w ⨯₃ u) = q
    generalize Real.sin (eucNorm w) = S at *
    generalize Real.cos (eucNorm w) = C at *
    field_simp
    linear_combination eucNorm w * q * hs
  rw [e]
  have k : 0 ≤ (w ⨯₃ u) ⬝ᵥ (w ⨯₃ u) := sqNorm_nonneg _
  have c : (2 - 2 * Real.cos (eucNorm w) - eucNorm w ^ 2) / eucNorm w ^ 4 ≤ 0 := by
    refine div_nonpos_of_nonpos_of_nonneg ?_ (by positivity)
    linarith [Real.one_sub_sq_div_two_le_cos (x := eucNorm w)]
  nlinarith

/-- The interpolation of the code against the exact screw, at every fraction. -/
theorem interp_near {g : Pose} (h : PoseValid g) (s : ℝ) : Near (SE3.exp (s • SE3.log g)) (xexp (s • xlog g)) (2e-15 * (|s| * eucNorm (xlog g).2)) := by
  obtain ⟨l1, l2⟩ := log_shadow h
  obtain ⟨e1, e2⟩ := exp_near (s • SE3.log g)
  have hw : (s • SE3.log g).1 = (s • xlog g).1 := by rw [Prod.smul_fst, Prod.smul_fst, l1]
  refine ⟨by rw [e1]; exact congrArg SO3.exp hw, ?_⟩
  have t : (SE3.exp (s • SE3.log g)).2 - (xexp (s • xlog g)).2 = ((SE3.exp (s • SE3.log g)).2 - (xexp (s • SE3.log g)).2) +
      (xexp ((s • xlog g).1, (s • SE3.log g).2 - (s • xlog g).2)).2 := by
    rw [← xexp_sub]
    have : s • SE3.log g = ((s • xlog g).1, (s • SE3.log g).2) := Prod.ext hw rfl
    rw [← this]
    abel
  rw [t]
  refine (eucNorm_add_le _ _).trans ((add_le_add e2 (xexp_norm _)).trans ?_)
  have n : eucNorm (SE3.log g).2 ≤ eucNorm (xlog g).2 + 1e-15 * eucNorm (xlog g).2 := by
    have : (SE3.log g).2 = (xlog g).2 + ((SE3.log g).2 - (xlog g).2) := by abel
    rw [this]
    exact (eucNorm_add_le _ _).trans (add_le_add le_rfl l2)
  change 1e-18 * eucNorm (s • (SE3.log g).2) + eucNorm (s • (SE3.log g).2 - s • (xlog g).2) ≤ _
  rw [← smul_sub, eucNorm_smul, eucNorm_smul]
  have s0 := abs_nonneg s
  have x0 := eucNorm_nonneg (xlog g).2
  have a1 := mul_le_mul_of_nonneg_left n s0
  have a2 := mul_le_mul_of_nonneg_left l2 s0
  have a3 := mul_nonneg s0 x0
  nlinarith

theorem xexp_mul_smul (t : ℝ) (x : Twist) : mul (xexp x) (xexp (t • x)) = xexp ((1 + t) • x) := by
  have := (oneParam x).mul 1 t
  rw [one_smul] at this
  exact this

theorem mul_inv_mul {a b : Pose} (ha : PoseValid a) : mul a (mul (inv a) b) = b := by
  have h1 := se3Laws.mul_assoc a (inv a) b
  have h2 := se3Laws.mul_inv ha
  have h3 := se3Laws.one_mul b
  change mul (mul a (inv a)) b = mul a (mul (inv a) b) at h1
  change mul a (inv a) = one at h2
  change mul one b = b at h3
  rw [← h1, h2, h3]

theorem inv_mul_comm {a b : Pose} (ha : PoseValid a) : mul (inv b) a = inv (mul (inv a) b) := by
  refine Prod.ext ?_ ?_
  · change b.1ᵀ * a.1 = (a.1ᵀ * b.1)ᵀ
    rw [transpose_mul, transpose_transpose]
  · change b.1ᵀ *ᵥ a.2 + b.1ᵀ *ᵥ (-b.2) = (a.1ᵀ * b.1)ᵀ *ᵥ (-(a.1ᵀ *ᵥ b.2 + a.1ᵀ *ᵥ (-a.2)))
    have haa : a.1 * a.1ᵀ = 1 := mul_eq_one_comm.mp ha.orth
    rw [← mulVec_add, ← mulVec_add, ← mulVec_neg, mulVec_mulVec, transpose_mul, transpose_transpose, Matrix.mul_assoc, haa, Matrix.mul_one]
    congr 1
    abel

theorem eucNorm_inv_mul {a b : Pose} (ha : PoseValid a) : eucNorm (mul (inv a) b).2 = eucNorm (b.2 - a.2) := by
  have : (mul (inv a) b).2 = a.1ᵀ *ᵥ (b.2 - a.2) := by
    change a.1ᵀ *ᵥ b.2 + a.1ᵀ *ᵥ (-a.2) = _
    rw [mulVec_neg, mulVec_sub, sub_eq_add_neg]
  rw [this, eucNorm_mulVec (isRotation_transpose ha)]

/-- Moving back along the exact screw. -/
theorem mul_xexp_back (a b : Pose) (x : Twist) (s : ℝ) (h : b = mul a (xexp x)) : mul b (xexp ((1 - s) • -x)) = mul a (xexp (s • x)) := by
  have h1 := se3Laws.mul_assoc a (xexp x) (xexp ((1 - s) • -x))
  change mul (mul a (xexp x)) (xexp ((1 - s) • -x)) = mul a (mul (xexp x) (xexp ((1 - s) • -x))) at h1
  rw [h, h1, smul_neg, ← neg_smul, xexp_mul_smul, show 1 + -(1 - s) = s by ring]

theorem xlog_valid_inv {g : Pose} (h : PoseValid g) (hp : eucNorm (SO3.log g.1) < Real.pi) : xlog (inv g) = -xlog g := by
  have e : inv g = xexp (-xlog g) := by
    have P := oneParam (xlog g)
    have m : mul (xexp ((-1 : ℝ) • xlog g)) (xexp ((1 : ℝ) • xlog g)) = one := by
      have := P.mul (-1) 1
      rw [neg_add_cancel, P.zero] at this
      exact this
    rw [one_smul, xexp_xlog h, neg_one_smul] at m
    have := congrArg (fun k => mul k (inv g)) m
    change mul (mul _ g) (inv g) = mul one (inv g) at this
    have a1 := se3Laws.mul_assoc (xexp (-xlog g)) g (inv g)
    have a2 := se3Laws.mul_inv h
    have a3 := se3Laws.mul_one (xexp (-xlog g))
    have a4 := se3Laws.one_mul (inv g)
    change mul (mul _ g) (inv g) = mul _ (mul g (inv g)) at a1
    change mul g (inv g) = one at a2
    change mul _ one = _ at a3
    change mul one _ = _ at a4
    rw [a1, a2, a3, a4] at this
    exact this.symm
  rw [e]
  refine xlog_xexp (SO3.log_exp ?_)
  change eucNorm (-SO3.log g.1) < _
  rwa [← neg_one_smul ℝ, eucNorm_smul, abs_neg, abs_one, one_mul]

theorem xlog_conj {k g : Pose} (hk : PoseValid k) (h : PoseValid g) (hp : eucNorm (SO3.log g.1) < Real.pi) :
    xlog (mul (mul k g) (inv k)) = adjointTimes k (xlog g) := by
  have e := xexp_conj hk (xlog g)
  rw [xexp_xlog h] at e
  rw [← e]
  refine xlog_xexp (SO3.log_exp ?_)
  change eucNorm (k.1 *ᵥ SO3.log g.1) < _
  rwa [eucNorm_mulVec hk]

end SE3

namespace SO3
open Spec

theorem exp_neg (w : V3) : SO3.exp (-w) = (SO3.exp w)ᵀ := by
  have P := oneParam w
  have m := P.mul (-1) 1
  rw [neg_add_cancel, P.zero] at m
  change SO3.exp _ * SO3.exp _ = 1 at m
  rw [one_smul, neg_one_smul] at m
  have o := (isRotation_exp w).orth
  have o' := mul_eq_one_comm.mp o
  calc SO3.exp (-w) = SO3.exp (-w) * (SO3.exp w * (SO3.exp w)ᵀ) := by rw [o', Matrix.mul_one]
    _ = _ := by rw [← Matrix.mul_assoc, m, Matrix.one_mul]

theorem exp_add_smul (s t : ℝ) (w : V3) : SO3.exp (s • w) * SO3.exp (t • w) = SO3.exp ((s + t) • w) := (oneParam w).mul s t

theorem exp_mul_smul (t : ℝ) (w : V3) : SO3.exp w * SO3.exp (t • w) = SO3.exp ((1 + t) • w) := by
  have := exp_add_smul 1 t w
  rwa [one_smul] at this

theorem log_transpose {g : M3} (h : IsRotation g) (hp : eucNorm (log g) < Real.pi) : log gᵀ = -log g := by
  have e : gᵀ = SO3.exp (-log g) := by rw [exp_neg, (exp_log h).1]
  rw [e, log_exp]
  rwa [← neg_one_smul ℝ, eucNorm_smul, abs_neg, abs_one, one_mul]

theorem log_conj {k g : M3} (hk : IsRotation k) (h : IsRotation g) (hp : eucNorm (log g) < Real.pi) : log (k * g * kᵀ) = k *ᵥ log g := by
  have e : k * g * kᵀ = SO3.exp (k *ᵥ log g) := by rw [exp_conj hk, (exp_log h).1]
  rw [e, log_exp]
  rwa [eucNorm_mulVec hk]

theorem turnBetween_of_exp {a b : M3} {w : V3} (h : aᵀ * b = SO3.exp w) : turnBetween a b = Real.arccos (Real.cos (eucNorm w)) := by
  rw [turnBetween, h, Approx.trace_exp]
  congr 1
  ring

theorem turnBetween_exp {a b : M3} {w : V3} (h : aᵀ * b = SO3.exp w) (hw : eucNorm w ≤ Real.pi) : turnBetween a b = eucNorm w := by
  rw [turnBetween_of_exp h, Real.arccos_cos (eucNorm_nonneg w) hw]

theorem turnBetween_log {a b : M3} (ha : IsRotation a) (hb : IsRotation b) : turnBetween a b = eucNorm (log (aᵀ * b)) := by
  obtain ⟨h1, h2⟩ := exp_log (isRotation_mul (isRotation_transpose ha) hb)
  exact turnBetween_exp h1.symm h2

theorem turnBetween_le {a b : M3} {w : V3} (h : aᵀ * b = SO3.exp w) : turnBetween a b ≤ eucNorm w := by
  rw [turnBetween_of_exp h]
  rcases le_total (eucNorm w) Real.pi with h | h
  · exact (Real.arccos_cos (eucNorm_nonneg w) h).le
  · exact (Real.arccos_le_pi _).trans h

/-- How far a rotation by `w` turns a unit vector. -/
theorem dot_exp (w : V3) {v : V3} (hv : v ⬝ᵥ v = 1) :
    v ⬝ᵥ (SO3.exp w *ᵥ v) = Real.cos (eucNorm w) + (1 - Real.cos (eucNorm w)) * (normalized w ⬝ᵥ v) ^ 2 := by
  rw [SO3.exp, angleAxisMatrix_eq]
  simp only [add_mulVec, smul_mulVec, one_mulVec, dotProduct_add, dotProduct_smul, hv, smul_eq_mul, crossMatrix_mulVec, dot_cross_self, mul_zero, add_zero, mul_one]
  rw [vecMulVec_mulVec, op_smul_eq_smul, dotProduct_smul, smul_eq_mul, dotProduct_comm v]
  ring

/-- The vector in the Euclidean space of the angle library. -/
def euc (v : V3) : EuclideanSpace ℝ (Fin 3) := WithLp.toLp 2 v

theorem inner_euc (v w : V3) : inner ℝ (euc v) (euc w) = v ⬝ᵥ w := by
  rw [euc, euc, EuclideanSpace.inner_toLp_toLp, star_trivial, dotProduct_comm]

theorem norm_euc {v : V3} (h : v ⬝ᵥ v = 1) : ‖euc v‖ = 1 := by
  have := real_inner_self_eq_norm_sq (euc v)
  rw [inner_euc, h] at this
  have n := norm_nonneg (euc v)
  nlinarith

theorem angle_euc {v w : V3} (hv : v ⬝ᵥ v = 1) (hw : w ⬝ᵥ w = 1) : InnerProductGeometry.angle (euc v) (euc w) = Real.arccos (v ⬝ᵥ w) := by
  rw [InnerProductGeometry.angle, norm_euc hv, norm_euc hw, inner_euc]
  norm_num

theorem angle_le_exp (w v : V3) (hv : v ⬝ᵥ v = 1) : Real.arccos (v ⬝ᵥ (SO3.exp w *ᵥ v)) ≤ Real.arccos (Real.cos (eucNorm w)) := by
  refine Real.arccos_le_arccos ?_
  by_cases h : w = 0
  · rw [h, exp_zero, one_mulVec, hv]
    exact Real.cos_le_one _
  · rw [dot_exp w hv]
    have := mul_nonneg (sub_nonneg.mpr (Real.cos_le_one (eucNorm w))) (sq_nonneg (normalized w ⬝ᵥ v))
    linarith

theorem exists_perp (n : V3) : ∃ v : V3, v ⬝ᵥ v = 1 ∧ n ⬝ᵥ v = 0 := by
  by_cases h : n 0 = 0 ∧ n 1 = 0
  · exact ⟨![1, 0, 0], by simp [dotProduct, Fin.sum_univ_three], by simp [dotProduct, Fin.sum_univ_three, h.1]⟩
  · have hp : 0 < n 0 * n 0 + n 1 * n 1 := by
      rcases not_and_or.mp h with h | h
      · have := mul_self_pos.mpr h
        nlinarith [mul_self_nonneg (n 1)]
      · have := mul_self_pos.mpr h
        nlinarith [mul_self_nonneg (n 0)]
    refine ⟨(√(n 0 * n 0 + n 1 * n 1))⁻¹ • ![-n 1, n 0, 0], ?_, ?_⟩
    · have hs := Real.mul_self_sqrt hp.le
      have hz : √(n 0 * n 0 + n 1 * n 1) ≠ 0 := (Real.sqrt_pos.mpr hp).ne'
      simp only [dotProduct, Fin.sum_univ_three, Pi.smul_apply, smul_eq_mul, cons_val_zero, cons_val_one, cons_val]
      have e : ∀ r : ℝ, r * -n 1 * (r * -n 1) + r * n 0 * (r * n 0) + r * 0 * (r * 0) = r * r * (n 0 * n 0 + n 1 * n 1) := fun r => by ring
      rw [e, ← mul_inv, hs, inv_mul_cancel₀ hp.ne']
    · simp only [dotProduct, Fin.sum_univ_three, Pi.smul_apply, smul_eq_mul, cons_val_zero, cons_val_one, cons_val]
      ring

theorem exists_angle_exp (w : V3) : ∃ v : V3, v ⬝ᵥ v = 1 ∧ Real.arccos (v ⬝ᵥ (SO3.exp w *ᵥ v)) = Real.arccos (Real.cos (eucNorm w)) := by
  obtain ⟨v, h1, h2⟩ := exists_perp (normalized w)
  refine ⟨v, h1, ?_⟩
  by_cases h : w = 0
  · rw [h, exp_zero, one_mulVec, h1, eucNorm_zero, Real.cos_zero]
  · rw [dot_exp w h1, h2]
    congr 1
    ring

/-- Turning from `a` to `c` directly is no longer than by way of `b`. -/
theorem turnBetween_triangle {a b c : M3} (ha : IsRotation a) (hb : IsRotation b) (hc : IsRotation c) :
    turnBetween a c ≤ turnBetween a b + turnBetween b c := by
  have r1 := isRotation_mul (isRotation_transpose ha) hb
  have r2 := isRotation_mul (isRotation_transpose hb) hc
  have r3 := isRotation_mul (isRotation_transpose ha) hc
  have e : aᵀ * b * (bᵀ * c) = aᵀ * c := by
    have : b * bᵀ = 1 := mul_eq_one_comm.mp hb.orth
    rw [Matrix.mul_assoc, ← Matrix.mul_assoc b, this, Matrix.one_mul]
  obtain ⟨e1, -⟩ := exp_log r1
  obtain ⟨e2, -⟩ := exp_log r2
  obtain ⟨e3, -⟩ := exp_log r3
  rw [turnBetween_of_exp e1.symm, turnBetween_of_exp e2.symm, turnBetween_of_exp e3.symm]
  obtain ⟨v, hv, hm⟩ := exists_angle_exp (log (aᵀ * c))
  have b1 := angle_le_exp (log (aᵀ * b)) v hv
  have b2 := angle_le_exp (log (bᵀ * c)) v hv
  rw [← hm]
  rw [e1] at b1
  rw [e2] at b2
  rw [e3]
  refine le_trans ?_ (add_le_add b1 b2)
  have u1 : ((aᵀ * b) *ᵥ v) ⬝ᵥ ((aᵀ * b) *ᵥ v) = 1 := by rw [dot_mulVec r1, hv]
  have u2 : ((aᵀ * c) *ᵥ v) ⬝ᵥ ((aᵀ * c) *ᵥ v) = 1 := by rw [dot_mulVec r3, hv]
  have t := InnerProductGeometry.angle_le_angle_add_angle (euc v) (euc ((aᵀ * b) *ᵥ v)) (euc ((aᵀ * c) *ᵥ v))
  rw [angle_euc hv u2, angle_euc hv u1, angle_euc u1 u2] at t
  rwa [← e, ← mulVec_mulVec, dot_mulVec r1, mulVec_mulVec, e] at t

end SO3
end Verif

namespace Verif.LieGuide
open Framed
variable {R G A V : Type}

theorem interpBetween_ok (L : LieOps R G A V) (a b : Framed G) (ha : a.into = Frame.null ↔ a.src = Frame.null) (hb : b.into = Frame.null ↔ b.src = Frame.null) (s : R) :
    ((a.into = Frame.null ∨ b.into = Frame.null) → interpBetween L a b s = .ok (unframed (L.mul a.val (L.exp (L.smul s (L.log (L.mul (L.inv a.val) b.val))))))) ∧
    (a.into ≠ Frame.null → b.into ≠ Frame.null → a.into = b.into →
      interpBetween L a b s = .ok ⟨L.mul a.val (L.exp (L.smul s (L.log (L.mul (L.inv a.val) b.val)))), a.into, b.src⟩) ∧
    (a.into ≠ Frame.null → b.into ≠ Frame.null → a.into ≠ b.into → (interpBetween L a b s).IsThrow) := by
  have hi : inverse L a = .ok ⟨L.inv a.val, a.src, a.into⟩ := mk'_ok ha.symm
  unfold interpBetween
  rw [hi, Outcome.ok_bind]
  refine ⟨fun h => ?_, fun h1 h2 h3 => ?_, fun h1 h2 h3 => ?_⟩
  · rw [mul_unframed L (show a.src = Frame.null ∨ b.into = Frame.null from h.imp_left ha.mp), Outcome.ok_bind]
    rw [show interp L (unframed (L.mul (L.inv a.val) b.val)) s = .ok (unframed (L.exp (L.smul s (L.log (L.mul (L.inv a.val) b.val))))) from
      mk'_ok (show Frame.null = Frame.null ↔ Frame.null = Frame.null from Iff.rfl), Outcome.ok_bind]
    exact mul_unframed L (.inr rfl)
  · have e1 : a.src ≠ Frame.null := fun h => h1 (ha.mpr h)
    have n2 : b.src ≠ Frame.null := fun h => h2 (hb.mpr h)
    rw [mul_framed L (a := ⟨L.inv a.val, a.src, a.into⟩) (b := b) e1 h2 n2 h3, Outcome.ok_bind]
    rw [show interp L (⟨L.mul (L.inv a.val) b.val, a.src, b.src⟩ : Framed G) s = .ok ⟨L.exp (L.smul s (L.log (L.mul (L.inv a.val) b.val))), a.src, b.src⟩ from
      mk'_ok (by simp [e1, n2]), Outcome.ok_bind]
    exact mul_framed L (a := a) (b := ⟨L.exp (L.smul s (L.log (L.mul (L.inv a.val) b.val))), a.src, b.src⟩) h1 e1 n2 rfl
  · have e1 : a.src ≠ Frame.null := fun h => h1 (ha.mpr h)
    rw [mul_mismatch L (a := ⟨L.inv a.val, a.src, a.into⟩) (b := b) e1 h2 h3]
    exact ⟨_, rfl⟩

theorem bind_eq_ok {α β : Type} {x : Outcome α} {f : α → Outcome β} {b : β} (h : (x >>= f) = .ok b) : ∃ a, x = .ok a ∧ f a = .ok b := by
  cases x with
  | ok a => exact ⟨a, rfl, h⟩
  | throw m => cases h
  | ub m => cases h

theorem mul_val_of {L : LieOps R G A V} {a b p : Framed G} (h : mul L a b = .ok p) : p.val = L.mul a.val b.val := by
  unfold mul at h
  split at h
  · cases h; rfl
  · split at h
    · obtain ⟨-, rfl⟩ := mk'_eq_ok_iff.mp h
      rfl
    · cases h

theorem interpBetween_val {L : LieOps R G A V} {a b p : Framed G} {s : R} (h : interpBetween L a b s = .ok p) :
    p.val = L.mul a.val (L.exp (L.smul s (L.log (L.mul (L.inv a.val) b.val)))) := by
  unfold interpBetween at h
  obtain ⟨i, hi, h⟩ := bind_eq_ok h
  obtain ⟨r, hr, h⟩ := bind_eq_ok h
  obtain ⟨x, hx, h⟩ := bind_eq_ok h
  obtain ⟨-, rfl⟩ := mk'_eq_ok_iff.mp hi
  obtain ⟨-, rfl⟩ := mk'_eq_ok_iff.mp hx
  rw [mul_val_of h, mul_val_of hr]

end Verif.LieGuide
