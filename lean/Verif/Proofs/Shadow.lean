import Verif.Proofs.OneAxis
import Verif.Proofs.Transport
import Mathlib.Analysis.SpecialFunctions.Trigonometric.Bounds
/-! # Curves computed with the exact exponential and logarithm, next to the curves of the code -/
namespace Verif
open Framed Spec Matrix Topology

namespace SE3
open SO3

/-- The coefficient of the exact logarithm at the angle `θ`. -/
noncomputable def xcoeff (θ : ℝ) : ℝ :=
  ((1 - Real.cos θ) / θ ^ 2 - Real.sin θ / θ / 2) / ((1 - Real.cos θ) / θ ^ 2 * θ ^ 2)

/-- The exact logarithm of a pose, at every angle up to half a turn. -/
noncomputable def xlog (g : Pose) : Twist :=
  (SO3.log g.1, g.2 - (1 / 2 : ℝ) • (SO3.log g.1 ⨯₃ g.2) + xcoeff (eucNorm (SO3.log g.1)) • (SO3.log g.1 ⨯₃ (SO3.log g.1 ⨯₃ g.2)))

theorem xcoeff_residuals {θ : ℝ} (h0 : 0 < θ) (h1 : θ ≤ Real.pi) :
    (1 - Real.cos θ) / θ ^ 2 - Real.sin θ / θ / 2 - θ ^ 2 * ((1 - Real.cos θ) / θ ^ 2) * xcoeff θ = 0 ∧
    xcoeff θ * (Real.sin θ / θ) - (1 - Real.cos θ) / θ ^ 2 / 2 + (θ - Real.sin θ) / θ ^ 3 = 0 := by
  have hc : 0 < 1 - Real.cos θ := by
    have : Real.cos θ < 1 := by
      rw [← Real.cos_zero]
      exact Real.cos_lt_cos_of_nonneg_of_le_pi le_rfl h1 h0
    linarith
  have hs := Real.sin_sq_add_cos_sq θ
  unfold xcoeff
  constructor
  · field_simp
    ring
  · field_simp
    generalize Real.cos θ = c at *
    generalize Real.sin θ = s at *
    have : s ^ 2 = (1 - c) * (1 + c) := by linear_combination hs
    linear_combination (-θ) * this

theorem cross3 (w v : V3) : w ⨯₃ (w ⨯₃ (w ⨯₃ v)) = (-(eucNorm w ^ 2)) • (w ⨯₃ v) := by
  rw [eucNorm_sq, ← crossMatrix_mulVec, ← crossMatrix_mulVec, ← crossMatrix_mulVec, mulVec_mulVec, mulVec_mulVec, ← pow_three', crossMatrix_cube, smul_mulVec]

theorem xexp_cross (x : Twist) : (xexp x).2 = x.2 + ((1 - Real.cos (eucNorm x.1)) / eucNorm x.1 ^ 2) • (x.1 ⨯₃ x.2)
    + ((eucNorm x.1 - Real.sin (eucNorm x.1)) / eucNorm x.1 ^ 3) • (x.1 ⨯₃ (x.1 ⨯₃ x.2)) := by
  unfold xexp
  simp only
  rw [pow_two (crossMatrix x.1), ← mulVec_mulVec, crossMatrix_mulVec, crossMatrix_mulVec]

theorem xexp_xlog {g : Pose} (h : PoseValid g) : xexp (xlog g) = g := by
  obtain ⟨h1, h2⟩ := SO3.exp_log (R := g.1) h
  refine Prod.ext h1 ?_
  rw [xexp_cross]
  simp only [xlog]
  by_cases h0 : SO3.log g.1 = 0
  · rw [h0]; simp
  · obtain ⟨e1, e2⟩ := xcoeff_residuals (eucNorm_pos h0) h2
    have hp := eucNorm_pos h0
    have c3 := cross3 (SO3.log g.1)
    generalize SO3.log g.1 = w at *
    simp only [map_add, map_sub, map_smul, c3]
    generalize g.2 = t at *
    generalize w ⨯₃ (w ⨯₃ t) = k2
    generalize w ⨯₃ t = k1
    have hsc : Real.sin (eucNorm w) / eucNorm w = 1 - eucNorm w ^ 2 * ((eucNorm w - Real.sin (eucNorm w)) / eucNorm w ^ 3) := by
      field_simp
      ring
    rw [hsc] at e1 e2
    generalize (1 - Real.cos (eucNorm w)) / eucNorm w ^ 2 = b at *
    generalize (eucNorm w - Real.sin (eucNorm w)) / eucNorm w ^ 3 = c at *
    generalize xcoeff (eucNorm w) = q at *
    generalize eucNorm w = θ at *
    have z1 : -(1 / 2) + b + c * θ ^ 2 / 2 - q * b * θ ^ 2 = 0 := by linear_combination e1
    have z2 : q - b / 2 + c - q * c * θ ^ 2 = 0 := by linear_combination e2
    have : t - (1 / 2 : ℝ) • k1 + q • k2 + b • (k1 - (1 / 2 : ℝ) • k2 + q • -θ ^ 2 • k1) + c • (k2 - (1 / 2 : ℝ) • -θ ^ 2 • k1 + q • -θ ^ 2 • k2) =
        t + (-(1 / 2) + b + c * θ ^ 2 / 2 - q * b * θ ^ 2) • k1 + (q - b / 2 + c - q * c * θ ^ 2) • k2 := by module
    rw [this, z1, z2]
    simp

theorem xlog_xexp {x : Twist} (hl : SO3.log (SO3.exp x.1) = x.1) : xlog (xexp x) = x := by
  have h2 : eucNorm x.1 ≤ Real.pi := by
    have := (SO3.exp_log (SO3.isRotation_exp x.1)).2
    rwa [hl] at this
  have hl' : SO3.log (xexp x).1 = x.1 := hl
  refine Prod.ext hl' ?_
  simp only [xlog, hl']
  rw [xexp_cross]
  by_cases h0 : x.1 = 0
  · rw [h0]; simp
  · obtain ⟨e1, e2⟩ := xcoeff_residuals (eucNorm_pos h0) h2
    have hp := eucNorm_pos h0
    have c3 := cross3 x.1
    generalize x.1 = w at *
    simp only [map_add, map_smul, c3]
    generalize x.2 = t at *
    generalize w ⨯₃ (w ⨯₃ t) = k2
    generalize w ⨯₃ t = k1
    have hsc : Real.sin (eucNorm w) / eucNorm w = 1 - eucNorm w ^ 2 * ((eucNorm w - Real.sin (eucNorm w)) / eucNorm w ^ 3) := by
      field_simp
      ring
    rw [hsc] at e1 e2
    generalize (1 - Real.cos (eucNorm w)) / eucNorm w ^ 2 = b at *
    generalize (eucNorm w - Real.sin (eucNorm w)) / eucNorm w ^ 3 = c at *
    generalize xcoeff (eucNorm w) = q at *
    generalize eucNorm w = θ at *
    have z1 : -(1 / 2) + b + c * θ ^ 2 / 2 - q * b * θ ^ 2 = 0 := by linear_combination e1
    have z2 : q - b / 2 + c - q * c * θ ^ 2 = 0 := by linear_combination e2
    have : t + b • k1 + c • k2 - (1 / 2 : ℝ) • (k1 + b • k2 + c • -θ ^ 2 • k1) + q • (k2 + b • -θ ^ 2 • k1 + c • -θ ^ 2 • k2) =
        t + (-(1 / 2) + b + c * θ ^ 2 / 2 - q * b * θ ^ 2) • k1 + (q - b / 2 + c - q * c * θ ^ 2) • k2 := by module
    rw [this, z1, z2]
    simp

/-- The operations of poses with the exact exponential and logarithm. -/
noncomputable def xops : LieOps ℝ Pose Twist V3 := { SE3.ops with exp := xexp, log := xlog }

theorem xlaws : LieLaws xops PoseValid := ⟨se3Laws.valid_one, se3Laws.valid_mul, se3Laws.valid_inv, se3Laws.mul_assoc, se3Laws.one_mul, se3Laws.mul_one,
  se3Laws.inv_mul, se3Laws.mul_inv, se3Laws.inv_one, se3Laws.Ad_one, se3Laws.Ad_mul, se3Laws.Ad_add, se3Laws.Ad_smul, se3Laws.ad_add_left, se3Laws.ad_add_right,
  se3Laws.ad_smul_left, se3Laws.ad_smul_right, se3Laws.ad_self, se3Laws.jacobi, se3Laws.Ad_ad, se3Laws.smul_eq⟩

theorem xrep : MatRep xops PoseValid poseMatrix twistHat := ⟨xlaws, se3Rep.M_mul, se3Rep.M_one, se3Rep.M_inj, se3Rep.hat_add, se3Rep.hat_smul, se3Rep.hat_Ad,
  se3Rep.hat_ad, se3Rep.hat_deriv, se3Rep.inv_deriv⟩

/-- Moving along a fixed screw by a time-dependent amount: the exact exponential has the stated derivatives at every angle. -/
theorem xexp_jet {f f' : ℝ → ℝ} {f'' t : ℝ} (x : Twist) (h1 : ∀ᶠ s in 𝓝 t, HasDerivAt f (f' s) s) (h2 : HasDerivAt f' f'' t) :
    HasLeftJet poseMatrix twistHat (fun s => xexp (f s • x)) t (f' t • x) (f'' • x) := by
  refine ⟨fun s => f' s • x, ?_, rfl, h2.smul_const x⟩
  filter_upwards [h1] with s hs
  have := mhas_exp_comp (twistHat x) hs
  have e : ∀ c : ℝ, c • twistHat x = twistHat (c • x) := fun c => (se3Rep.hat_smul c x).symm
  have e2 : ∀ y : Twist, poseMatrix (xexp y) = NormedSpace.exp (twistHat y) := H_xexp
  simp only [e2]
  simp only [e] at this
  exact this

theorem xtermsJet (seg : TSegment Pose Twist) (t : ℝ) : TermsJet xops poseMatrix twistHat seg t := by
  have : ∀ (c : Fin 5 → ℝ) (v : Twist), TermJet xops poseMatrix twistHat (Quintic.coeffs c) v t := fun c v =>
    xexp_jet (f' := fun s => (Quintic.coeffs c s).da) v (.of_forall fun s => Quintic.hasDerivAt_a c s) (Quintic.hasDerivAt_da c t)
  exact ⟨this _ _, this _ _, this _ _, this _ _, this _ _⟩

/-- The logarithm of the code against the exact one. -/
theorem log_shadow {g : Pose} (h : PoseValid g) : (SE3.log g).1 = (xlog g).1 ∧ eucNorm ((SE3.log g).2 - (xlog g).2) ≤ 1e-15 * eucNorm (xlog g).2 := by
  have hl : SO3.log (SO3.exp (xlog g).1) = (xlog g).1 := by
    have : SO3.exp (xlog g).1 = g.1 := (SO3.exp_log (R := g.1) h).1
    rw [this]
    rfl
  obtain ⟨h1, -, h3⟩ := log_near_of hl
  rw [xexp_xlog h] at h1 h3
  exact ⟨h1, h3⟩

/-! ## How far the code is from the exact curve -/

/-- Jets with equal rotations and rotational derivatives, and translations, velocities and accelerations at most `e0`, `e1`, `e2` apart; the rotational
velocity and acceleration are at most `o` and `al`. -/
structure JNear (p q : Pose × Twist × Twist) (e0 e1 e2 o al : ℝ) : Prop where
  pose : Near p.1 q.1 e0
  vel : p.2.1.1 = q.2.1.1 ∧ eucNorm (p.2.1.2 - q.2.1.2) ≤ e1
  acc : p.2.2.1 = q.2.2.1 ∧ eucNorm (p.2.2.2 - q.2.2.2) ≤ e2
  rot : eucNorm q.2.1.1 ≤ o
  rot2 : eucNorm q.2.2.1 ≤ al

theorem JNear.mul {p q p' q' : Pose × Twist × Twist} {e0 e1 e2 o al f0 f1 f2 o' al' : ℝ} (hv : PoseValid p.1) (h : JNear p q e0 e1 e2 o al)
    (h' : JNear p' q' f0 f1 f2 o' al') :
    JNear (vmul SE3.ops p p') (vmul xops q q') (e0 + f0) (e1 + f1 + e0 * o') (e2 + (f2 + e0 * al') + (o * (f1 + e0 * o') + e1 * o')) (o + o')
      (al + al' + o * o') := by
  obtain ⟨⟨⟨R, t⟩, ⟨w, v⟩, ⟨α, a⟩⟩, ⟨⟨R', t'⟩, ⟨w', v'⟩, ⟨α', a'⟩⟩⟩ := p, q
  obtain ⟨⟨⟨S, s⟩, ⟨x, y⟩, ⟨β, b⟩⟩, ⟨⟨S', s'⟩, ⟨x', y'⟩, ⟨β', b'⟩⟩⟩ := p', q'
  obtain ⟨⟨hR, ht⟩, ⟨hw, hvv⟩, ⟨hα, ha⟩, ho, hal⟩ := h
  obtain ⟨⟨hS, hs⟩, ⟨hx, hy⟩, ⟨hβ, hb⟩, ho', hal'⟩ := h'
  simp only at hR ht hw hvv hα ha ho hal hS hs hx hy hβ hb ho' hal'
  subst hR hw hα hS hx hβ
  have hrot : IsRotation R := hv
  have nR : ∀ u, eucNorm (R *ᵥ u) = eucNorm u := fun u => eucNorm_mulVec hrot u
  have e0n : 0 ≤ e0 := (eucNorm_nonneg _).trans ht
  have on : 0 ≤ o := (eucNorm_nonneg _).trans ho
  have on' : 0 ≤ o' := (eucNorm_nonneg _).trans ho'
  have e1n : 0 ≤ e1 := (eucNorm_nonneg _).trans hvv
  have hAd : eucNorm ((t ⨯₃ (R *ᵥ x) + R *ᵥ y) - (t' ⨯₃ (R *ᵥ x) + R *ᵥ y')) ≤ f1 + e0 * o' := by
    have : (t ⨯₃ (R *ᵥ x) + R *ᵥ y) - (t' ⨯₃ (R *ᵥ x) + R *ᵥ y') = R *ᵥ (y - y') + (t - t') ⨯₃ (R *ᵥ x) := by
      rw [mulVec_sub, map_sub, LinearMap.sub_apply]; abel
    rw [this]
    refine (eucNorm_add_le _ _).trans (add_le_add (by rw [nR]; exact hy) ((eucNorm_cross_le _ _).trans ?_))
    rw [nR]
    exact mul_le_mul ht ho' (eucNorm_nonneg _) e0n
  have hAd2 : eucNorm ((t ⨯₃ (R *ᵥ β) + R *ᵥ b) - (t' ⨯₃ (R *ᵥ β) + R *ᵥ b')) ≤ f2 + e0 * al' := by
    have : (t ⨯₃ (R *ᵥ β) + R *ᵥ b) - (t' ⨯₃ (R *ᵥ β) + R *ᵥ b') = R *ᵥ (b - b') + (t - t') ⨯₃ (R *ᵥ β) := by
      rw [mulVec_sub, map_sub, LinearMap.sub_apply]; abel
    rw [this]
    refine (eucNorm_add_le _ _).trans (add_le_add (by rw [nR]; exact hb) ((eucNorm_cross_le _ _).trans ?_))
    rw [nR]
    exact mul_le_mul ht hal' (eucNorm_nonneg _) e0n
  refine ⟨?_, ⟨rfl, ?_⟩, ⟨rfl, ?_⟩, ?_, ?_⟩
  · have := Near.mul (a := (R, t)) (a' := (R, t')) (b := (S, s)) (b' := (S, s')) hv ⟨rfl, ht⟩ ⟨rfl, hs⟩
    rw [add_comm e0]
    exact this
  · change eucNorm ((v + (t ⨯₃ (R *ᵥ x) + R *ᵥ y)) - (v' + (t' ⨯₃ (R *ᵥ x) + R *ᵥ y'))) ≤ _
    rw [add_sub_add_comm, add_assoc]
    exact (eucNorm_add_le _ _).trans (add_le_add hvv hAd)
  · change eucNorm ((a + (t ⨯₃ (R *ᵥ β) + R *ᵥ b) + (v ⨯₃ (R *ᵥ x) + w ⨯₃ (t ⨯₃ (R *ᵥ x) + R *ᵥ y))) -
      (a' + (t' ⨯₃ (R *ᵥ β) + R *ᵥ b') + (v' ⨯₃ (R *ᵥ x) + w ⨯₃ (t' ⨯₃ (R *ᵥ x) + R *ᵥ y')))) ≤ _
    rw [add_sub_add_comm, add_sub_add_comm]
    refine (eucNorm_add_le _ _).trans (add_le_add ((eucNorm_add_le _ _).trans (add_le_add ha hAd2)) ?_)
    have : (v ⨯₃ (R *ᵥ x) + w ⨯₃ (t ⨯₃ (R *ᵥ x) + R *ᵥ y)) - (v' ⨯₃ (R *ᵥ x) + w ⨯₃ (t' ⨯₃ (R *ᵥ x) + R *ᵥ y')) =
        w ⨯₃ ((t ⨯₃ (R *ᵥ x) + R *ᵥ y) - (t' ⨯₃ (R *ᵥ x) + R *ᵥ y')) + (v - v') ⨯₃ (R *ᵥ x) := by
      rw [map_sub, map_sub, LinearMap.sub_apply]; abel
    rw [this]
    refine (eucNorm_add_le _ _).trans (add_le_add ((eucNorm_cross_le _ _).trans (mul_le_mul ho hAd (eucNorm_nonneg _) on))
      ((eucNorm_cross_le _ _).trans ?_))
    rw [nR]
    exact mul_le_mul hvv ho' (eucNorm_nonneg _) e1n
  · change eucNorm (w + R *ᵥ x) ≤ _
    refine (eucNorm_add_le _ _).trans (add_le_add ho ?_)
    rw [nR]; exact ho'
  · change eucNorm (α + R *ᵥ β + w ⨯₃ (R *ᵥ x)) ≤ _
    refine (eucNorm_add_le _ _).trans (add_le_add ((eucNorm_add_le _ _).trans (add_le_add hal ?_)) ((eucNorm_cross_le _ _).trans ?_))
    · rw [nR]; exact hal'
    · rw [nR]; exact mul_le_mul ho ho' (eucNorm_nonneg _) on

theorem JNear.mono {p q : Pose × Twist × Twist} {e0 e1 e2 o al f0 f1 f2 o' al' : ℝ} (h : JNear p q e0 e1 e2 o al) (h0 : e0 ≤ f0) (h1 : e1 ≤ f1)
    (h2 : e2 ≤ f2) (h3 : o ≤ o') (h4 : al ≤ al') : JNear p q f0 f1 f2 o' al' :=
  ⟨⟨h.pose.1, h.pose.2.trans h0⟩, ⟨h.vel.1, h.vel.2.trans h1⟩, ⟨h.acc.1, h.acc.2.trans h2⟩, h.rot.trans h3, h.rot2.trans h4⟩

/-- Jets close in the sense of a segment with translations `d` and rotations `w` in all. -/
def SegNear (p q : Pose × Twist × Twist) (d w : ℝ) : Prop :=
  JNear p q (2e-15 * d) (4e-15 * (d * (1 + w))) (3e-14 * (d * (1 + w) ^ 2)) (2 * w) (15 * (w * (1 + w)))

theorem SegNear.mul {p q p' q' : Pose × Twist × Twist} {d w d' w' : ℝ} (hv : PoseValid p.1) (hd : 0 ≤ d) (hw : 0 ≤ w) (hd' : 0 ≤ d') (hw' : 0 ≤ w')
    (h : JNear p q (2e-15 * d) (4e-15 * d) (3e-14 * d) (2 * w) (15 * w)) (h' : SegNear p' q' d' w') :
    SegNear (vmul SE3.ops p p') (vmul xops q q') (d + d') (w + w') := by
  have p1 := mul_nonneg hd hw
  have p2 := mul_nonneg hd hw'
  have p3 := mul_nonneg hd' hw
  have p4 := mul_nonneg hd' hw'
  have p5 := mul_nonneg hw hw'
  have p6 := mul_nonneg hw hw
  have p7 := mul_nonneg hw' hw'
  have q1 := mul_nonneg hd p5
  have q2 := mul_nonneg hd p6
  have q3 := mul_nonneg hd p7
  have q4 := mul_nonneg hd' p5
  have q5 := mul_nonneg hd' p6
  have q6 := mul_nonneg hd' p7
  refine (h.mul hv h').mono ?_ ?_ ?_ ?_ ?_ <;> ring_nf at * <;> linarith

end SE3

theorem Quintic.abs_da {u : ℝ} (h0 : 0 ≤ u) (h1 : u ≤ 1) : |(Quintic.destFromOrig u).da| ≤ 2 ∧ |(Quintic.dOrig u).da| ≤ 2 ∧
    |(Quintic.dDest u).da| ≤ 2 ∧ |(Quintic.d2Orig u).da| ≤ 2 ∧ |(Quintic.d2Dest u).da| ≤ 2 := by
  simp only [Quintic.destFromOrig, Quintic.dOrig, Quintic.dDest, Quintic.d2Orig, Quintic.d2Dest,
    Quintic.coeffs_da, Quintic.destOrigTable, Quintic.dOrigTable, Quintic.dDestTable,
    Quintic.d2OrigTable, Quintic.d2DestTable, Matrix.cons_val_zero, Matrix.cons_val_one, Matrix.cons_val]
  obtain ⟨z, hz⟩ : ∃ z, z = u * (1 - u) := ⟨_, rfl⟩
  have z0 : 0 ≤ z := by rw [hz]; exact mul_nonneg h0 (by linarith)
  have z1 : z ≤ 1 / 4 := by rw [hz]; nlinarith [sq_nonneg (u - 1 / 2)]
  have z2 : z ^ 2 ≤ 1 / 16 := by nlinarith
  have z20 : 0 ≤ z ^ 2 := sq_nonneg _
  have zu : u * z ≤ 1 / 4 := by nlinarith
  have zu0 : 0 ≤ u * z := mul_nonneg h0 z0
  have zv : (1 - u) * z ≤ 1 / 4 := by nlinarith
  have zv0 : 0 ≤ (1 - u) * z := mul_nonneg (by linarith) z0
  rw [hz] at *
  refine ⟨?_, ?_, ?_, ?_, ?_⟩ <;> rw [abs_le] <;> constructor <;> nlinarith

theorem Quintic.abs_d2a {u : ℝ} (h0 : 0 ≤ u) (h1 : u ≤ 1) : |(Quintic.destFromOrig u).d2a| ≤ 15 ∧ |(Quintic.dOrig u).d2a| ≤ 15 ∧
    |(Quintic.dDest u).d2a| ≤ 15 ∧ |(Quintic.d2Orig u).d2a| ≤ 15 ∧ |(Quintic.d2Dest u).d2a| ≤ 15 := by
  simp only [Quintic.destFromOrig, Quintic.dOrig, Quintic.dDest, Quintic.d2Orig, Quintic.d2Dest,
    Quintic.coeffs_d2a, Quintic.destOrigTable, Quintic.dOrigTable, Quintic.dDestTable,
    Quintic.d2OrigTable, Quintic.d2DestTable, Matrix.cons_val_zero, Matrix.cons_val_one, Matrix.cons_val]
  obtain ⟨z, hz⟩ : ∃ z, z = u * (1 - u) := ⟨_, rfl⟩
  have z0 : 0 ≤ z := by rw [hz]; exact mul_nonneg h0 (by linarith)
  have z1 : z ≤ 1 / 4 := by rw [hz]; nlinarith [sq_nonneg (u - 1 / 2)]
  have zu : u * z ≤ 1 / 4 := by nlinarith
  have zu0 : 0 ≤ u * z := mul_nonneg h0 z0
  have zv : (1 - u) * z ≤ 1 / 4 := by nlinarith
  have zv0 : 0 ≤ (1 - u) * z := mul_nonneg (by linarith) z0
  rw [hz] at *
  refine ⟨?_, ?_, ?_, ?_, ?_⟩ <;> rw [abs_le] <;> constructor <;> nlinarith

namespace SE3
open SO3

theorem inc_near {a da d2a : ℝ} (x : Twist) (ha : |a| ≤ 1) (hda : |da| ≤ 2) (hd2a : |d2a| ≤ 15) :
    JNear (vinc SE3.ops ⟨a, da, d2a⟩ x) (vinc xops ⟨a, da, d2a⟩ x) (2e-15 * eucNorm x.2) (4e-15 * eucNorm x.2) (3e-14 * eucNorm x.2)
      (2 * eucNorm x.1) (15 * eucNorm x.1) := by
  have n := near_term a 1 x ha
  have nx := eucNorm_nonneg x.2
  have nw := eucNorm_nonneg x.1
  rw [one_smul, mul_one, abs_one, one_mul] at n
  have z : ∀ v : V3, eucNorm (v - v) = 0 := fun v => by rw [sub_self, eucNorm_zero]
  refine ⟨⟨n.1, n.2.trans (by nlinarith)⟩, ⟨rfl, ?_⟩, ⟨rfl, ?_⟩, ?_, ?_⟩
  · change eucNorm (da • x.2 - da • x.2) ≤ _
    rw [z]; nlinarith
  · change eucNorm (d2a • x.2 - d2a • x.2) ≤ _
    rw [z]; nlinarith
  · change eucNorm (da • x.1) ≤ _
    rw [eucNorm_smul]; nlinarith
  · change eucNorm (d2a • x.1) ≤ _
    rw [eucNorm_smul]; nlinarith

theorem first_near {a da d2a : ℝ} {g : Pose} (hg : PoseValid g) (ha : |a| ≤ 1) (hda : |da| ≤ 2) (hd2a : |d2a| ≤ 15) :
    JNear (vinc SE3.ops ⟨a, da, d2a⟩ (SE3.log g)) (vinc xops ⟨a, da, d2a⟩ (xlog g)) (2e-15 * eucNorm (xlog g).2) (4e-15 * eucNorm (xlog g).2)
      (3e-14 * eucNorm (xlog g).2) (2 * eucNorm (xlog g).1) (15 * eucNorm (xlog g).1) := by
  have hl : SO3.log (SO3.exp (xlog g).1) = (xlog g).1 := by
    have : SO3.exp (xlog g).1 = g.1 := (SO3.exp_log (R := g.1) hg).1
    rw [this]
    rfl
  have n := near_first a 1 (xlog g) ha (by rw [one_smul]; exact hl)
  obtain ⟨l1, l2⟩ := log_shadow hg
  have nx := eucNorm_nonneg (xlog g).2
  have nw := eucNorm_nonneg (xlog g).1
  rw [one_smul, mul_one, abs_one, one_mul, xexp_xlog hg] at n
  have nl := eucNorm_nonneg ((SE3.log g).2 - (xlog g).2)
  refine ⟨⟨n.1, n.2.trans (by nlinarith)⟩, ⟨?_, ?_⟩, ⟨?_, ?_⟩, ?_, ?_⟩
  · change da • (SE3.log g).1 = da • (xlog g).1
    rw [l1]
  · change eucNorm (da • (SE3.log g).2 - da • (xlog g).2) ≤ _
    rw [← smul_sub, eucNorm_smul]; nlinarith
  · change d2a • (SE3.log g).1 = d2a • (xlog g).1
    rw [l1]
  · change eucNorm (d2a • (SE3.log g).2 - d2a • (xlog g).2) ≤ _
    rw [← smul_sub, eucNorm_smul]; nlinarith
  · change eucNorm (da • (xlog g).1) ≤ _
    rw [eucNorm_smul]; nlinarith
  · change eucNorm (d2a • (xlog g).1) ≤ _
    rw [eucNorm_smul]; nlinarith

/-- How much translation the data of a segment ask for, and how much rotation. -/
noncomputable def demand (π : Twist → V3) (seg : TSegment Pose Twist) : ℝ :=
  eucNorm (π seg.dest.d2) + (eucNorm (π seg.orig.d2) + (eucNorm (π seg.dest.d) + (eucNorm (π seg.orig.d) +
    eucNorm (π (xlog (SE3.mul seg.dest.g.val (SE3.inv seg.orig.g.val)))))))

theorem vpoint_shadow (seg : TSegment Pose Twist) (ho : PoseValid seg.orig.g.val) (hd : PoseValid seg.dest.g.val) {u : ℝ} (h0 : 0 ≤ u) (h1 : u ≤ 1) :
    SegNear (vpoint SE3.ops seg u) (vpoint xops seg u) (demand Prod.snd seg) (demand Prod.fst seg) := by
  obtain ⟨a1, a2, a3, a4, a5⟩ := Quintic.abs_le_one h0 h1
  obtain ⟨b1, b2, b3, b4, b5⟩ := Quintic.abs_da h0 h1
  obtain ⟨c1, c2, c3, c4, c5⟩ := Quintic.abs_d2a h0 h1
  have n := eucNorm_nonneg
  have hv : ∀ k v, PoseValid (vinc SE3.ops k v).1 := fun k v => SO3.isRotation_exp _
  have hrel : PoseValid (SE3.mul seg.dest.g.val (SE3.inv seg.orig.g.val)) := se3Laws.valid_mul (valid := PoseValid) hd (se3Laws.valid_inv (valid := PoseValid) ho)
  have z : SegNear (SE3.ops.one, 0, 0) (xops.one, 0, 0) 0 0 := by
    refine ⟨⟨rfl, ?_⟩, ⟨rfl, ?_⟩, ⟨rfl, ?_⟩, ?_, ?_⟩ <;> simp [xops, eucNorm_zero]
  have s1 := SegNear.mul (hv _ _) (n _) (n _) le_rfl le_rfl (first_near hrel a1 b1 c1) z
  rw [add_zero, add_zero] at s1
  have s2 := SegNear.mul (hv _ _) (n _) (n _) (n _) (n _) (inc_near seg.orig.d a2 b2 c2) s1
  have s3 := SegNear.mul (hv _ _) (n _) (n _) (add_nonneg (n _) (n _)) (add_nonneg (n _) (n _)) (inc_near seg.dest.d a3 b3 c3) s2
  have s4 := SegNear.mul (hv _ _) (n _) (n _) (add_nonneg (n _) (add_nonneg (n _) (n _))) (add_nonneg (n _) (add_nonneg (n _) (n _)))
    (inc_near seg.orig.d2 a4 b4 c4) s3
  exact SegNear.mul (hv _ _) (n _) (n _) (add_nonneg (n _) (add_nonneg (n _) (add_nonneg (n _) (n _))))
    (add_nonneg (n _) (add_nonneg (n _) (add_nonneg (n _) (n _)))) (inc_near seg.dest.d2 a5 b5 c5) s4

/-- The exact logarithm is not much larger than the translation. -/
theorem xlog_le {g : Pose} (h : PoseValid g) : eucNorm (xlog g).2 ≤ 2 * eucNorm g.2 := by
  obtain ⟨h1, h2⟩ := SO3.exp_log (R := g.1) h
  have hx := xexp_cross (xlog g)
  rw [xexp_xlog h] at hx
  have hw : (xlog g).1 = SO3.log g.1 := rfl
  rw [hw] at hx
  by_cases h0 : SO3.log g.1 = 0
  · rw [h0] at hx
    simp only [map_zero, LinearMap.zero_apply, smul_zero, add_zero] at hx
    rw [hx]
    linarith [eucNorm_nonneg (xlog g).2]
  · have hp := eucNorm_pos h0
    generalize SO3.log g.1 = w at *
    generalize (xlog g).2 = x at *
    have hq := Real.cos_le_one_sub_mul_cos_sq (x := eucNorm w) (by rw [abs_of_pos hp]; exact h2)
    have hs := Real.sin_sq_add_cos_sq (eucNorm w)
    have hb2 : 2 * ((1 - Real.cos (eucNorm w)) / eucNorm w ^ 2) ≤ 1 := by
      have := Real.one_sub_sq_div_two_le_cos (x := eucNorm w)
      rw [← mul_div_assoc, div_le_one (pow_pos hp 2)]
      linarith
    have hb1 : 1 / 8 ≤ (1 - Real.cos (eucNorm w)) / eucNorm w ^ 2 := by
      rw [le_div_iff₀ (pow_pos hp 2)]
      have hpi : (1 : ℝ) / 8 ≤ 2 / Real.pi ^ 2 := by
        rw [div_le_div_iff₀ (by norm_num) (pow_pos Real.pi_pos 2)]
        nlinarith [Real.pi_le_four, Real.pi_pos]
      nlinarith [mul_le_mul_of_nonneg_right hpi (pow_pos hp 2).le]
    have hid : eucNorm w ^ 2 * (((1 - Real.cos (eucNorm w)) / eucNorm w ^ 2) ^ 2 - 2 * ((eucNorm w - Real.sin (eucNorm w)) / eucNorm w ^ 3)
        + ((eucNorm w - Real.sin (eucNorm w)) / eucNorm w ^ 3) ^ 2 * eucNorm w ^ 2) = 2 * ((1 - Real.cos (eucNorm w)) / eucNorm w ^ 2) - 1 := by
      generalize Real.cos (eucNorm w) = c at *
      generalize Real.sin (eucNorm w) = s at *
      generalize eucNorm w = θ at *
      field_simp
      linear_combination hs
    generalize (1 - Real.cos (eucNorm w)) / eucNorm w ^ 2 = b at *
    generalize (eucNorm w - Real.sin (eucNorm w)) / eucNorm w ^ 3 = c at *
    have hn : sqNorm g.2 = sqNorm x + (b ^ 2 - 2 * c + c ^ 2 * sqNorm w) * sqNorm (w ⨯₃ x) := by
      rw [hx]
      simp only [sqNorm_eq, cross_apply, Pi.add_apply, Pi.smul_apply, smul_eq_mul, cons_val_zero, cons_val_one, cons_val]
      ring
    have hcr : sqNorm (w ⨯₃ x) ≤ sqNorm w * sqNorm x := by
      have := eucNorm_cross_le w x
      have h' := mul_self_le_mul_self (eucNorm_nonneg _) this
      rw [← pow_two, eucNorm_sq] at h'
      rw [← eucNorm_sq w, ← eucNorm_sq x]
      linarith
    rw [← eucNorm_sq w] at hcr hn
    have hk : b ^ 2 - 2 * c + c ^ 2 * eucNorm w ^ 2 ≤ 0 := by
      by_contra hcon
      have := mul_pos (pow_pos hp 2) (not_le.mp hcon)
      linarith
    have hfin : sqNorm x / 4 ≤ sqNorm g.2 := by
      have h3 := mul_le_mul_of_nonpos_left hcr hk
      have h4 := mul_le_mul_of_nonneg_right hb1 (sqNorm_nonneg x)
      have h5 : (b ^ 2 - 2 * c + c ^ 2 * eucNorm w ^ 2) * (eucNorm w ^ 2 * sqNorm x) = (2 * b - 1) * sqNorm x := by
        rw [← hid]; ring
      rw [h5] at h3
      rw [hn]
      linarith
    rw [← eucNorm_sq, ← eucNorm_sq] at hfin
    exact le_of_sq_le_sq (by linarith) (by linarith [eucNorm_nonneg g.2])

end SE3
end Verif
