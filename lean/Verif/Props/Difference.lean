import Verif.Proofs.Difference
import Verif.Proofs.OneAxis
import Verif.Props.Frame
/-! # C96: tangent vectors are what differences of poses tend to -/
namespace Verif.Props
open Verif.Framed Verif.Spec SO3 Matrix

variable {G A V : Type}

/-- The change of pose `ref_from_body(t).inverse() * ref_from_body(t + e)`, seen from the body (docs/resim/transforms/liegroup_derivatives.md). -/
def bodyChange (L : LieOps ℝ G A V) (f : ℝ → Framed G) (t e : ℝ) : Outcome (Framed G) := do
  let i ← inverse L (f t)
  mul L i (f (t + e))

/-- The change of pose `ref_from_body(t + e) * ref_from_body(t).inverse()`, seen from the reference frame (same page). -/
def refChange (L : LieOps ℝ G A V) (f : ℝ → Framed G) (t e : ℝ) : Outcome (Framed G) := do
  let i ← inverse L (f t)
  mul L (f (t + e)) i

/-- C96.  The changes of pose of a moving body whose poses share their frames are always defined, and framed body to body and reference to reference. -/
theorem c96_defined (L : LieOps ℝ G A V) (f : ℝ → Framed G) (into src : Frame) (hf : into = Frame.null ↔ src = Frame.null)
    (h : ∀ s, (f s).into = into ∧ (f s).src = src) (t e : ℝ) :
    bodyChange L f t e = .ok ⟨L.mul (L.inv (f t).val) (f (t + e)).val, src, src⟩ ∧
    refChange L f t e = .ok ⟨L.mul (f (t + e)).val (L.inv (f t).val), into, into⟩ := by
  have hi : inverse L (f t) = .ok ⟨L.inv (f t).val, src, into⟩ := by
    unfold inverse
    rw [(h t).1, (h t).2]
    exact mk'_ok hf.symm
  obtain ⟨h1, h2⟩ := h (t + e)
  unfold bodyChange refChange
  rw [hi, Outcome.ok_bind, Outcome.ok_bind]
  by_cases hn : into = Frame.null
  · have hs := hf.mp hn
    rw [mul_unframed L (.inl hs), mul_unframed L (.inl (h1.trans hn)), hn, hs]
    exact ⟨rfl, rfl⟩
  · have hs : src ≠ Frame.null := fun h => hn (hf.mpr h)
    rw [mul_framed L (a := ⟨L.inv (f t).val, src, into⟩) (b := f (t + e)) hs (by rw [h1]; exact hn) (by rw [h2]; exact hs) h1.symm,
      mul_framed L (a := f (t + e)) (b := ⟨L.inv (f t).val, src, into⟩) (by rw [h1]; exact hn) hs hn h2, h1, h2]
    exact ⟨rfl, rfl⟩

private theorem value {L : LieOps ℝ G A V} {a b p : Framed G} (h : (do let i ← inverse L a; mul L i b) = .ok p) : p.val = L.mul (L.inv a.val) b.val := by
  unfold inverse mk' at h
  split at h
  · rw [Outcome.ok_bind] at h
    unfold Framed.mul at h
    split at h
    · cases h; rfl
    · split at h
      · obtain ⟨-, rfl⟩ := mk'_eq_ok_iff.mp h; rfl
      · cases h
  · cases h

private theorem value' {L : LieOps ℝ G A V} {a b p : Framed G} (h : (do let i ← inverse L a; mul L b i) = .ok p) : p.val = L.mul b.val (L.inv a.val) := by
  unfold inverse mk' at h
  split at h
  · rw [Outcome.ok_bind] at h
    unfold Framed.mul at h
    split at h
    · cases h; rfl
    · split at h
      · obtain ⟨-, rfl⟩ := mk'_eq_ok_iff.mp h; rfl
      · cases h
  · cases h

/-- C96 for rotations.  A turning body has angular velocity `w` at time `t` (in body coordinates: `R' = R [w]ₓ`) exactly if `w` is what
`log(R(t)⁻¹ R(t + e)) / e` tends to, and likewise with the change seen from the reference frame (`R' = [w]ₓ R`); the adjoint of the orientation turns the
first into the second. -/
theorem c96_so3 (f b r : ℝ → Framed M3) (t : ℝ) (hv : ∀ s, IsRotation (f s).val) (hb : ∀ e, bodyChange SO3.ops f t e = .ok (b e))
    (hr : ∀ e, refChange SO3.ops f t e = .ok (r e)) (w : V3) :
    (HasRightTangent (fun R : M3 => R) rotHat (fun s => (f s).val) t w ↔ HasDerivAt (fun e => SO3.ops.log (b e).val) w 0) ∧
    (HasLeftTangent (fun R : M3 => R) rotHat (fun s => (f s).val) t w ↔ HasDerivAt (fun e => SO3.ops.log (r e).val) w 0) ∧
    (HasDerivAt (fun e => SO3.ops.log (b e).val) w 0 ↔ HasDerivAt (fun e => SO3.ops.log (r e).val) (SO3.ops.Ad (f t).val w) 0) := by
  have eb : ∀ e, (b e).val = SO3.ops.mul (SO3.ops.inv (f t).val) (f (t + e)).val := fun e => value (hb e)
  have er : ∀ e, (r e).val = SO3.ops.mul (f (t + e)).val (SO3.ops.inv (f t).val) := fun e => value' (hr e)
  have hR := fun w => (so3Rep.right_difference (t := t) (v := w) hv).trans (SO3.log_has
    (fun e => so3Laws.valid_mul (so3Laws.valid_inv (hv t)) (hv (t + e))) (by rw [add_zero]; exact so3Laws.inv_mul (hv t)))
  have hL := fun w => (so3Rep.left_difference (t := t) (v := w) hv).trans (SO3.log_has
    (fun e => so3Laws.valid_mul (hv (t + e)) (so3Laws.valid_inv (hv t))) (by rw [add_zero]; exact so3Laws.mul_inv (hv t)))
  simp only [eb, er]
  refine ⟨hR w, hL w, ?_⟩
  exact (hR w).symm.trans ((so3Rep.left_iff_right hv).trans (hL _))

/-- C96 for rigid motions.  A moving body has the body velocity `x` (angular and linear) at time `t` exactly if `x` is what `log(g(t)⁻¹ g(t + e)) / e` tends
to, and likewise with the change seen from the reference frame; the adjoint of the pose turns the first into the second. -/
theorem c96_se3 (f b r : ℝ → Framed Pose) (t : ℝ) (hv : ∀ s, IsRotation (f s).val.1) (hb : ∀ e, bodyChange SE3.ops f t e = .ok (b e))
    (hr : ∀ e, refChange SE3.ops f t e = .ok (r e)) (x : Twist) :
    (HasRightTangent poseMatrix twistHat (fun s => (f s).val) t x ↔ HasDerivAt (fun e => SE3.ops.log (b e).val) x 0) ∧
    (HasLeftTangent poseMatrix twistHat (fun s => (f s).val) t x ↔ HasDerivAt (fun e => SE3.ops.log (r e).val) x 0) ∧
    (HasDerivAt (fun e => SE3.ops.log (b e).val) x 0 ↔ HasDerivAt (fun e => SE3.ops.log (r e).val) (SE3.ops.Ad (f t).val x) 0) := by
  have eb : ∀ e, (b e).val = SE3.ops.mul (SE3.ops.inv (f t).val) (f (t + e)).val := fun e => value (hb e)
  have er : ∀ e, (r e).val = SE3.ops.mul (f (t + e)).val (SE3.ops.inv (f t).val) := fun e => value' (hr e)
  have hv' : ∀ s, PoseValid (f s).val := hv
  have hR := fun x => (se3Rep.right_difference (t := t) (v := x) hv').trans (SE3.log_has
    (fun e => se3Laws.valid_mul (se3Laws.valid_inv (hv' t)) (hv' (t + e))) (by rw [add_zero]; exact se3Laws.inv_mul (hv' t)))
  have hL := fun x => (se3Rep.left_difference (t := t) (v := x) hv').trans (SE3.log_has
    (fun e => se3Laws.valid_mul (hv' (t + e)) (se3Laws.valid_inv (hv' t))) (by rw [add_zero]; exact se3Laws.mul_inv (hv' t)))
  simp only [eb, er]
  refine ⟨hR x, hL x, ?_⟩
  exact (hR x).symm.trans ((se3Rep.left_iff_right hv').trans (hL _))

/-- C96: "the exponential tells you where you end up if you follow the same constant derivative".  The motions of constant angular velocity `w` are exactly
`R(t) = R(0) exp(t w)`. -/
theorem c96_constant_so3 (R : ℝ → M3) (w : V3) :
    (∀ t, HasRightTangent (fun R : M3 => R) rotHat R t w) ↔ ∀ t, R t = SO3.ops.mul (R 0) (SO3.ops.exp (t • w)) := by
  have he : ∀ t : ℝ, SO3.ops.exp (t • w) = NormedSpace.exp (t • rotHat w) := fun t => by
    rw [show t • rotHat w = rotHat (t • w) from (SO3.crossMatrix_smul t w).symm]
    exact SO3.exp_eq_matrix_exp _
  constructor
  · intro h t
    have := MatRep.constant_velocity h t
    rw [← he t] at this
    exact this
  · intro h t i j
    have e : R = fun s => R 0 * NormedSpace.exp (s • rotHat w) := funext fun s => by rw [h s, he]; rfl
    have := (MHas.const (t := t) (R 0)).mul (mhas_exp (rotHat w) t)
    rw [Matrix.zero_mul, zero_add] at this
    have hc : rotHat w * NormedSpace.exp (t • rotHat w) = NormedSpace.exp (t • rotHat w) * rotHat w :=
      (Commute.exp_right ((Commute.refl (rotHat w)).smul_right t)).eq
    rw [hc, ← Matrix.mul_assoc] at this
    have h2 := this i j
    simp only at h2 ⊢
    rw [e]
    exact h2

/-- C96: a body that keeps its body velocity `x` is at `g(0) exp(t x)`, with the exact rotation and a translation off by at most 1e-18 of the distance
covered; exactly there if its turn `t x` is none or at least 0.002. -/
theorem c96_constant_se3 (g : ℝ → Pose) (x : Twist) (hv : IsRotation (g 0).1) (h : ∀ t, HasRightTangent poseMatrix twistHat g t x) (t : ℝ) :
    (g t).1 = (SE3.ops.mul (g 0) (SE3.ops.exp (t • x))).1 ∧
    eucNorm ((SE3.ops.mul (g 0) (SE3.ops.exp (t • x))).2 - (g t).2) ≤ 1e-18 * (|t| * eucNorm x.2) ∧
    (t • x.1 = 0 ∨ 0.002 ≤ eucNorm (t • x.1) → g t = SE3.ops.mul (g 0) (SE3.ops.exp (t • x))) := by
  have hx : g t = SE3.mul (g 0) (SE3.xexp (t • x)) := by
    apply SE3.H_injective
    have := MatRep.constant_velocity h t
    rw [SE3.H_mul, SE3.H_xexp]
    rw [← se3Rep.hat_smul] at this
    exact this
  obtain ⟨n1, n2⟩ := SE3.exp_near (t • x)
  refine ⟨by rw [hx]; change SO3.mul _ _ = SO3.mul _ (SE3.exp (t • x)).1; rw [n1], ?_, ?_⟩
  · rw [hx]
    change eucNorm ((g 0).1 *ᵥ (SE3.exp (t • x)).2 + (g 0).2 - ((g 0).1 *ᵥ (SE3.xexp (t • x)).2 + (g 0).2)) ≤ _
    rw [add_sub_add_right_eq_sub, ← mulVec_sub, eucNorm_mulVec hv]
    refine n2.trans (le_of_eq ?_)
    rw [Prod.smul_snd, eucNorm_smul]
  · intro ht
    rw [hx]
    change _ = SE3.mul (g 0) (SE3.exp (t • x))
    rw [SE3.xexp_eq]
    · rcases ht with ht | ht
      · exact .inl ht
      · right
        rw [Prod.smul_fst, ← eucNorm_sq]
        have : (0.002 : ℝ) ^ 2 ≤ eucNorm (t • x.1) ^ 2 := pow_le_pow_left₀ (by norm_num) ht 2
        refine le_trans (le_of_eq ?_) this
        unfold tinySquareAngle; norm_num

/-- C96: the adjoint of a moving rotation or pose changes by the adjoint of its velocity; at the identity, `ad` is the derivative of `Ad`. -/
theorem c96_adjoint_derivative :
    (∀ (R : ℝ → M3) (t : ℝ) (w y : V3), (∀ s, IsRotation (R s)) → HasRightTangent (fun R : M3 => R) rotHat R t w →
      HasDerivAt (fun s => SO3.ops.Ad (R s) y) (SO3.ops.Ad (R t) (SO3.ops.ad w y)) t) ∧
    (∀ (g : ℝ → Pose) (t : ℝ) (x y : Twist), (∀ s, IsRotation (g s).1) → HasRightTangent poseMatrix twistHat g t x →
      HasDerivAt (fun s => SE3.ops.Ad (g s) y) (SE3.ops.Ad (g t) (SE3.ops.ad x y)) t) :=
  ⟨fun _ _ _ y hv h => so3Rep.adjoint_along hv h y, fun _ _ _ y hv h => se3Rep.adjoint_along hv h y⟩

/-- C96: "Ad is the Jacobian of `log(g exp(k) g⁻¹)`": along every path `k` through the origin of tangent space. -/
theorem c96_adjoint_jacobian :
    (∀ (R : M3) (k : ℝ → V3) (t : ℝ) (v : V3), IsRotation R → k t = 0 → HasDerivAt k v t →
      HasDerivAt (fun s => SO3.ops.log (SO3.ops.mul (SO3.ops.mul R (SO3.ops.exp (k s))) (SO3.ops.inv R))) (SO3.ops.Ad R v) t) ∧
    (∀ (g : Pose) (k : ℝ → Twist) (t : ℝ) (v : Twist), IsRotation g.1 → k t = 0 → HasDerivAt k v t →
      HasDerivAt (fun s => SE3.ops.log (SE3.ops.mul (SE3.ops.mul g (SE3.ops.exp (k s))) (SE3.ops.inv g))) (SE3.ops.Ad g v) t) := by
  refine ⟨fun R k t v hR h0 h => ?_, fun g k t v hg h0 h => ?_⟩
  · refine (SO3.log_has (fun s => so3Laws.valid_mul (so3Laws.valid_mul hR (SO3.isRotation_exp _)) (so3Laws.valid_inv hR)) ?_).mp
      (so3Rep.conj_has hR (exp_deriv_zero h h0))
    rw [h0]
    change R * SO3.exp 0 * Rᵀ = 1
    rw [SO3.exp_zero, Matrix.mul_one]
    exact so3Laws.mul_inv hR
  · have hg' : PoseValid g := hg
    refine (SE3.log_has (fun s => se3Laws.valid_mul (se3Laws.valid_mul hg' (show PoseValid (SE3.exp _) from SO3.isRotation_exp _)) (se3Laws.valid_inv hg')) ?_).mp
      (se3Rep.conj_has hg' (SE3.exp_has h h0))
    have e : SE3.exp 0 = SE3.ops.one := by
      change (SO3.exp 0, _) = (SO3.one, (0 : V3))
      rw [SO3.exp_zero]
      simp [SO3.one]
    rw [h0, e]
    rw [se3Laws.mul_one]
    exact se3Laws.mul_inv hg'

/-- A body that drives along its curve and turns ever faster: its orientation is a turn by `s²` about the vertical, its position `(s, 0, 0)`. -/
noncomputable def exMotion (s : ℝ) : Framed Pose := ⟨(SO3.exp (s ^ 2 • ![0, 0, 1]), ![s, 0, 0]), exFrame 1, exFrame 2⟩

example : ∀ s, IsRotation (exMotion s).val.1 := fun _ => SO3.isRotation_exp _

example : ∀ t e, ∃ p, bodyChange SE3.ops exMotion t e = .ok p ∧ p.into = exFrame 2 ∧ p.src = exFrame 2 := fun t e =>
  ⟨_, (c96_defined SE3.ops exMotion (exFrame 1) (exFrame 2) (by decide) (fun _ => ⟨rfl, rfl⟩) t e).1, rfl, rfl⟩

/-- At time 0 it is the identity and moves at unit speed without turning. -/
theorem exMotion_tangent : HasRightTangent poseMatrix twistHat (fun s => (exMotion s).val) 0 (0, ![1, 0, 0]) := by
  have h1 : HasDerivAt (fun s : ℝ => s ^ 2 • (![0, 0, 1] : V3)) 0 0 := by
    have := ((hasDerivAt_id (0 : ℝ)).pow 2).smul_const (![0, 0, 1] : V3)
    simpa using this
  have h2 : HasDerivAt (fun s : ℝ => (![s, 0, 0] : V3)) ![1, 0, 0] 0 := by
    rw [hasDerivAt_pi]
    intro i
    fin_cases i
    · exact hasDerivAt_id _
    · exact hasDerivAt_const _ _
    · exact hasDerivAt_const _ _
  have h3 := has_poseMatrix (g := fun s => (exMotion s).val) (exp_deriv_zero h1 (by simp)) h2
  have e : poseMatrix (exMotion 0).val = 1 := by
    have : (exMotion 0).val = SE3.one := by
      change (SO3.exp _, _) = (SO3.one, (0 : V3))
      rw [show ((0 : ℝ) ^ 2 • ![0, 0, 1] : V3) = 0 by simp, SO3.exp_zero]
      refine Prod.ext rfl ?_
      ext i; fin_cases i <;> rfl
    rw [this]; exact SE3.H_one
  intro i j
  rw [e, Matrix.one_mul]
  exact h3 i j

example : ∀ t, HasRightTangent (fun R : M3 => R) rotHat (fun s => SO3.exp (s • ![0, 0, 1])) t ![0, 0, 1] :=
  (c96_constant_so3 _ _).mpr fun t => by
    rw [zero_smul, SO3.exp_zero]; exact (Matrix.one_mul _).symm

/-! ## Instances of the theorems above -/

/-- `c96_constant_so3` gives the hypothesis of the rotation parts of `c96_so3` and `c96_adjoint_derivative`: how the rotation about the z axis turns the
x axis. -/
example (t : ℝ) : HasDerivAt (fun s => SO3.ops.Ad (SO3.exp (s • ![0, 0, 1])) ![1, 0, 0])
    (SO3.ops.Ad (SO3.exp (t • ![0, 0, 1])) (SO3.ops.ad ![0, 0, 1] ![1, 0, 0])) t :=
  c96_adjoint_derivative.1 _ t _ _ (fun _ => SO3.isRotation_exp _) ((c96_constant_so3 (fun s => SO3.exp (s • ![0, 0, 1])) _).mpr (fun t => by
    rw [zero_smul, SO3.exp_zero]; exact (Matrix.one_mul _).symm) t)

/-- `c96_so3` on the same rotation with frames: the logarithm of what it does in the body frame grows at the rate of turning. -/
example (t : ℝ) : ∃ b : ℝ → Framed M3, (∀ e, bodyChange SO3.ops (fun s => ⟨SO3.exp (s • ![0, 0, 1]), exFrame 1, exFrame 2⟩) t e = .ok (b e)) ∧
    HasDerivAt (fun e => SO3.ops.log (b e).val) ![0, 0, 1] 0 := by
  have hd := fun e => c96_defined SO3.ops (fun s => ⟨SO3.exp (s • ![0, 0, 1]), exFrame 1, exFrame 2⟩) (exFrame 1) (exFrame 2) (by decide) (fun _ => ⟨rfl, rfl⟩) t e
  exact ⟨_, fun e => (hd e).1, (c96_so3 _ _ _ t (fun _ => SO3.isRotation_exp _) (fun e => (hd e).1) (fun e => (hd e).2) _).1.mp
    ((c96_constant_so3 (fun s => SO3.exp (s • ![0, 0, 1])) _).mpr (fun t => by
      rw [zero_smul, SO3.exp_zero]; exact (Matrix.one_mul _).symm) t)⟩

/-- `c96_se3` on `exMotion`: at time 0 the logarithm of the change in the body frame grows along the x axis. -/
example : ∃ b : ℝ → Framed Pose, (∀ e, bodyChange SE3.ops exMotion 0 e = .ok (b e)) ∧
    HasDerivAt (fun e => SE3.ops.log (b e).val) ((0, ![1, 0, 0]) : Twist) 0 := by
  have hd := fun e => c96_defined SE3.ops exMotion (exFrame 1) (exFrame 2) (by decide) (fun _ => ⟨rfl, rfl⟩) 0 e
  exact ⟨_, fun e => (hd e).1, (c96_se3 exMotion _ _ 0 (fun _ => SO3.isRotation_exp _) (fun e => (hd e).1) (fun e => (hd e).2) _).1.mp exMotion_tangent⟩

/-- `c96_adjoint_derivative` for poses, on the same motion. -/
example (y : Twist) : HasDerivAt (fun s => SE3.ops.Ad (exMotion s).val y) (SE3.ops.Ad (exMotion 0).val (SE3.ops.ad (0, ![1, 0, 0]) y)) 0 :=
  c96_adjoint_derivative.2 _ 0 _ y (fun _ => SO3.isRotation_exp _) exMotion_tangent

end Verif.Props
