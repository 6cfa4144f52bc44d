import Verif.Proofs.Shadow
/-! # Curves of something fixed to the moving body -/
namespace Verif
open Matrix Spec SO3

section
variable {G A V : Type} [NormedAddCommGroup A] [NormedSpace ℝ A] {L : LieOps ℝ G A V} {valid : G → Prop}

/-- A pose with derivatives, seen from something fixed to the body by `k`. -/
def conjugated (L : LieOps ℝ G A V) (k : G) (z : G × A × A) : G × A × A := (L.mul (L.mul k z.1) (L.inv k), L.Ad k z.2.1, L.Ad k z.2.2)

theorem conjugated_vmul (H : LieLaws L valid) {k : G} (hk : valid k) {x : G × A × A} (hx : valid x.1) (y : G × A × A) :
    conjugated L k (vmul L x y) = vmul L (conjugated L k x) (conjugated L k y) := by
  have e : ∀ z, L.Ad (L.mul (L.mul k x.1) (L.inv k)) (L.Ad k z) = L.Ad k (L.Ad x.1 z) := by
    intro z
    rw [← H.Ad_mul (H.valid_mul (H.valid_mul hk hx) (H.valid_inv hk)) hk, H.mul_assoc, H.inv_mul hk, H.mul_one, H.Ad_mul hk hx]
  simp only [conjugated, vmul, e]
  refine Prod.ext ?_ (Prod.ext ?_ ?_)
  · change L.mul (L.mul k (L.mul x.1 y.1)) (L.inv k) = L.mul (L.mul (L.mul k x.1) (L.inv k)) (L.mul (L.mul k y.1) (L.inv k))
    rw [H.mul_assoc (L.mul k x.1), ← H.mul_assoc (L.inv k), ← H.mul_assoc (L.inv k), H.inv_mul hk, H.one_mul, ← H.mul_assoc, ← H.mul_assoc]
  · exact H.Ad_add _ _ _
  · change L.Ad k (_ + _ + _) = _
    rw [H.Ad_add, H.Ad_add, H.Ad_ad hk]

theorem conjugated_vinc (H : LieLaws L valid) {k : G} (hconj : ∀ x, L.exp (L.Ad k x) = L.mul (L.mul k (L.exp x)) (L.inv k)) (q : PolyCoeffs) (v : A) :
    conjugated L k (vinc L q v) = vinc L q (L.Ad k v) := by
  simp only [conjugated, vinc, H.smul_eq, ← H.Ad_smul, hconj]

/-- Both ends seen from something fixed to the body: what happens between is seen from there as well. -/
theorem vpoint_left (H : LieLaws L valid) (hexp : ∀ x, valid (L.exp x)) {k : G} (hk : valid k)
    (hconj : ∀ x, L.exp (L.Ad k x) = L.mul (L.mul k (L.exp x)) (L.inv k)) {seg seg' : TSegment G A} (hv : valid seg.orig.g.val)
    (ho : seg'.orig.g.val = L.mul k seg.orig.g.val) (hd : seg'.dest.g.val = L.mul k seg.dest.g.val) (h1 : seg'.orig.d = L.Ad k seg.orig.d)
    (h2 : seg'.dest.d = L.Ad k seg.dest.d) (h3 : seg'.orig.d2 = L.Ad k seg.orig.d2) (h4 : seg'.dest.d2 = L.Ad k seg.dest.d2)
    (hl : L.log (L.mul (L.mul k (L.mul seg.dest.g.val (L.inv seg.orig.g.val))) (L.inv k)) = L.Ad k (L.log (L.mul seg.dest.g.val (L.inv seg.orig.g.val))))
    (t : ℝ) : vpoint L seg' t = conjugated L k (vpoint L seg t) := by
  have e : L.mul seg'.dest.g.val (L.inv seg'.orig.g.val) = L.mul (L.mul k (L.mul seg.dest.g.val (L.inv seg.orig.g.val))) (L.inv k) := by
    rw [ho, hd, H.inv_mul_rev hk hv, ← H.mul_assoc, H.mul_assoc k]
  have hi := conjugated_vinc H hconj
  have v : ∀ q v, valid (vinc L q v).1 := fun q v => hexp _
  have e1 : conjugated L k (L.one, 0, 0) = (L.one, 0, 0) := by
    simp only [conjugated, H.mul_one, H.mul_inv hk, H.Ad_zero]
  symm
  unfold vpoint
  rw [conjugated_vmul H hk (v _ _), conjugated_vmul H hk (v _ _), conjugated_vmul H hk (v _ _), conjugated_vmul H hk (v _ _), conjugated_vmul H hk (v _ _),
    hi, hi, hi, hi, hi, e1, e, hl, h1, h2, h3, h4]

/-- On one piece of a curve. -/
theorem piece_left (H : LieLaws L valid) (hexp : ∀ x, valid (L.exp x)) {k : G} (hk : valid k)
    (hconj : ∀ x, L.exp (L.Ad k x) = L.mul (L.mul k (L.exp x)) (L.inv k)) {a b a' b' : TControl G A} (hv : valid a.point.g.val)
    (ha : a'.time = a.time ∧ a'.point.g.val = L.mul k a.point.g.val ∧ a'.point.d = L.Ad k a.point.d ∧ a'.point.d2 = L.Ad k a.point.d2)
    (hb : b'.time = b.time ∧ b'.point.g.val = L.mul k b.point.g.val ∧ b'.point.d = L.Ad k b.point.d ∧ b'.point.d2 = L.Ad k b.point.d2)
    (hl : L.log (L.mul (L.mul k (L.mul b.point.g.val (L.inv a.point.g.val))) (L.inv k)) = L.Ad k (L.log (L.mul b.point.g.val (L.inv a.point.g.val))))
    (t : ℝ) : (pieceFormula L a' b' t).g.val = L.mul k (pieceFormula L a b t).g.val ∧ (pieceFormula L a' b' t).d = L.Ad k (pieceFormula L a b t).d ∧
      (pieceFormula L a' b' t).d2 = L.Ad k (pieceFormula L a b t).d2 := by
  obtain ⟨a0, a1, a2, a3⟩ := ha
  obtain ⟨b0, b1, b2, b3⟩ := hb
  have e : ∀ s, vpoint L (TCurve.piece a' b').curve s = conjugated L k (vpoint L (TCurve.piece a b).curve s) := fun s =>
    vpoint_left H hexp hk hconj hv a1 b1 (by simp only [TCurve.piece, TCurve.scaled, a0, b0, a2, H.Ad_smul])
      (by simp only [TCurve.piece, TCurve.scaled, a0, b0, b2, H.Ad_smul]) (by simp only [TCurve.piece, TCurve.scaled, a0, b0, a3, H.Ad_smul])
      (by simp only [TCurve.piece, TCurve.scaled, a0, b0, b3, H.Ad_smul]) hl s
  unfold pieceFormula
  simp only [TCurve.unnormalize, e, a0, b0, H.Ad_smul]
  refine ⟨?_, rfl, rfl⟩
  change L.mul (L.mul (L.mul k _) (L.inv k)) a'.point.g.val = L.mul k (L.mul _ a.point.g.val)
  rw [a1, H.mul_assoc, ← H.mul_assoc (L.inv k), H.inv_mul hk, H.one_mul, H.mul_assoc]

end

/-- Less than half a turn: the logarithm of a turn seen from a turned body. -/
theorem SO3.log_conj {k g : M3} (hk : IsRotation k) (hg : IsRotation g) (h : eucNorm (SO3.log g) < Real.pi) :
    SO3.log (k * g * k.transpose) = k *ᵥ SO3.log g := by
  conv_lhs => rw [← (SO3.exp_log hg).1, ← SO3.exp_conj hk]
  exact SO3.log_exp (by rwa [eucNorm_mulVec hk])

/-- The same for the exact logarithm of poses. -/
theorem SE3.xlog_conj {k g : Pose} (hk : PoseValid k) (hg : PoseValid g) (h : eucNorm (SO3.log g.1) < Real.pi) :
    SE3.xlog (SE3.mul (SE3.mul k g) (SE3.inv k)) = SE3.adjointTimes k (SE3.xlog g) := by
  conv_lhs => rw [← SE3.xexp_xlog hg, ← SE3.xexp_conj hk]
  refine SE3.xlog_xexp (SO3.log_exp ?_)
  change eucNorm (k.1 *ᵥ SO3.log g.1) < _
  rwa [eucNorm_mulVec hk]

end Verif
