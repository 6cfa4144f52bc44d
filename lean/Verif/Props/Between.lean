import Verif.Proofs.Between
import Verif.Proofs.SO3Construct
import Verif.Props.SmallTurns
import Verif.Props.Mounted
/-! # C92: interpolation between two transforms; C31 and the guide's round trips at every angle -/
namespace Verif.Props
open Verif.Framed Verif.Spec Verif.LieGuide SO3 Matrix

/-- C31 for SE3, for every angle and every fraction.  There is one screw `x` from the identity to the transform such that `interp(s)` is the screw motion
`exp(s x)`, with frames and rotation exact and a translation off by at most 4e-15 of the distance covered. -/
theorem c31_se3_close (g : Framed Pose) (hv : IsRotation g.val.1) (hf : g.into = Frame.null ↔ g.src = Frame.null) :
    ∃ x : Twist, NormedSpace.exp (twistHat x) = poseMatrix g.val ∧ ∀ s : ℝ, ∃ a, interp SE3.ops g s = .ok a ∧ a.into = g.into ∧ a.src = g.src ∧
      ∃ q : Pose, poseMatrix q = NormedSpace.exp (s • twistHat x) ∧ a.val.1 = q.1 ∧ eucNorm (a.val.2 - q.2) ≤ 4e-15 * (|s| * eucNorm g.val.2) := by
  refine ⟨SE3.xlog g.val, ?_, fun s => ⟨⟨SE3.exp (s • SE3.log g.val), g.into, g.src⟩, mk'_ok hf, rfl, rfl, SE3.xexp (s • SE3.xlog g.val), ?_, ?_⟩⟩
  · rw [← SE3.xexp_xlog (g := g.val) hv]
    conv_lhs => rw [SE3.xexp_xlog (g := g.val) hv]
    exact (SE3.H_xexp _).symm
  · rw [← se3Rep.hat_smul]
    exact SE3.H_xexp _
  · obtain ⟨n1, n2⟩ := SE3.interp_near (g := g.val) hv s
    refine ⟨n1, n2.trans ?_⟩
    have := mul_le_mul_of_nonneg_left (SE3.xlog_le (g := g.val) hv) (abs_nonneg s)
    nlinarith

/-- C31 for SE3: fractions add, for every angle, up to the same rounding. -/
theorem c31_se3_add (g : Framed Pose) (hv : IsRotation g.val.1) (s t : ℝ) (a b c : Framed Pose)
    (ha : interp SE3.ops g s = .ok a) (hb : interp SE3.ops g t = .ok b) (hc : interp SE3.ops g (s + t) = .ok c) :
    (SE3.ops.mul a.val b.val).1 = c.val.1 ∧
    eucNorm ((SE3.ops.mul a.val b.val).2 - c.val.2) ≤ 4e-15 * ((|s| + |t| + |s + t|) * eucNorm g.val.2) := by
  obtain ⟨-, rfl⟩ := mk'_eq_ok_iff.mp ha
  obtain ⟨-, rfl⟩ := mk'_eq_ok_iff.mp hb
  obtain ⟨-, rfl⟩ := mk'_eq_ok_iff.mp hc
  have n1 := SE3.interp_near (g := g.val) hv s
  have n2 := SE3.interp_near (g := g.val) hv t
  obtain ⟨c1, c2⟩ := SE3.interp_near (g := g.val) hv (s + t)
  obtain ⟨m1, m2⟩ := SE3.Near.mul (show PoseValid (SE3.exp (s • SE3.log g.val)) from SO3.isRotation_exp _) n1 n2
  have P := (SE3.oneParam (SE3.xlog g.val)).mul s t
  change SE3.mul _ _ = _ at P
  rw [P] at m1 m2
  refine ⟨m1.trans c1.symm, ?_⟩
  have e : (SE3.ops.mul (SE3.exp (s • SE3.log g.val)) (SE3.exp (t • SE3.log g.val))).2 - (SE3.exp ((s + t) • SE3.log g.val)).2 =
      ((SE3.mul (SE3.exp (s • SE3.log g.val)) (SE3.exp (t • SE3.log g.val))).2 - (SE3.xexp ((s + t) • SE3.xlog g.val)).2) +
      -((SE3.exp ((s + t) • SE3.log g.val)).2 - (SE3.xexp ((s + t) • SE3.xlog g.val)).2) := by
    change (SE3.mul _ _).2 - _ = _
    abel
  change eucNorm ((SE3.ops.mul (SE3.exp (s • SE3.log g.val)) (SE3.exp (t • SE3.log g.val))).2 - (SE3.exp ((s + t) • SE3.log g.val)).2) ≤ _
  rw [e]
  refine (eucNorm_add_le _ _).trans ?_
  have hn : ∀ v : V3, eucNorm (-v) = eucNorm v := fun v => by rw [← neg_one_smul ℝ, eucNorm_smul, abs_neg, abs_one, one_mul]
  rw [hn]
  have hx := SE3.xlog_le (g := g.val) hv
  have a1 := mul_le_mul_of_nonneg_left hx (abs_nonneg s)
  have a2 := mul_le_mul_of_nonneg_left hx (abs_nonneg t)
  have a3 := mul_le_mul_of_nonneg_left hx (abs_nonneg (s + t))
  nlinarith

/-- C92.  Interpolating between two transforms throws exactly if both are framed and do not share the into frame.  Otherwise the result has that into frame and
the from frame of the second, or no frames if either has none. -/
theorem c92_frames {G A V : Type} (L : LieOps ℝ G A V) (a b : Framed G) (ha : a.into = Frame.null ↔ a.src = Frame.null)
    (hb : b.into = Frame.null ↔ b.src = Frame.null) (s : ℝ) :
    ((interpBetween L a b s).IsThrow ↔ a.into ≠ Frame.null ∧ b.into ≠ Frame.null ∧ a.into ≠ b.into) ∧
    (∀ p, interpBetween L a b s = .ok p → if a.into = Frame.null ∨ b.into = Frame.null then p.into = Frame.null ∧ p.src = Frame.null
      else p.into = a.into ∧ p.into = b.into ∧ p.src = b.src) ∧
    ¬ (interpBetween L a b s).IsUB := by
  obtain ⟨h1, h2, h3⟩ := interpBetween_ok L a b ha hb s
  by_cases c : a.into = Frame.null ∨ b.into = Frame.null
  · rw [h1 c]
    refine ⟨⟨by simp, fun h => absurd c (by simp [h.1, h.2.1])⟩, fun p hp => ?_, by simp⟩
    cases hp
    rw [if_pos c]
    exact ⟨rfl, rfl⟩
  · have c' := not_or.mp c
    by_cases e : a.into = b.into
    · rw [h2 c'.1 c'.2 e]
      refine ⟨by simp [e], fun p hp => ?_, by simp⟩
      cases hp
      rw [if_neg c]
      exact ⟨rfl, e, rfl⟩
    · obtain ⟨m, hm⟩ := h3 c'.1 c'.2 e
      rw [hm]
      exact ⟨⟨fun _ => ⟨c'.1, c'.2, e⟩, fun _ => ⟨m, rfl⟩⟩, fun p hp => by simp at hp, by simp⟩

/-- C92 for rotations.  The interpolation runs from the first to the second about one axis at constant speed, along the shortest way: the angle between the
orientations at two fractions is the difference of the fractions times the angle between the ends, no rotation vector from the one to the other is shorter than
that angle, and no way through a third orientation is. -/
theorem c92_so3 (a b : Framed M3) (ha : IsRotation a.val) (hb : IsRotation b.val) (p : ℝ → Framed M3) (hp : ∀ s, interpBetween SO3.ops a b s = .ok (p s)) :
    (p 0).val = a.val ∧ (p 1).val = b.val ∧
    (∃ w : V3, eucNorm w = turnBetween a.val b.val ∧ ∀ s, (p s).val = a.val * NormedSpace.exp (s • rotHat w)) ∧
    (∀ s t, |t - s| ≤ 1 → turnBetween (p s).val (p t).val = |t - s| * turnBetween a.val b.val) ∧
    (∀ w : V3, b.val = a.val * NormedSpace.exp (rotHat w) → turnBetween a.val b.val ≤ eucNorm w) ∧
    (∀ c, IsRotation c → turnBetween a.val b.val ≤ turnBetween a.val c + turnBetween c b.val) := by
  have hr := isRotation_mul (isRotation_transpose ha) hb
  obtain ⟨l1, l2⟩ := SO3.exp_log hr
  have hval : ∀ s, (p s).val = a.val * SO3.exp (s • SO3.log (a.valᵀ * b.val)) := fun s => interpBetween_val (hp s)
  have haa : a.val * a.valᵀ = 1 := mul_eq_one_comm.mp ha.orth
  have P := SO3.oneParam (SO3.log (a.valᵀ * b.val))
  have hE : ∀ w : V3, SO3.exp w = NormedSpace.exp (rotHat w) := fun w => SO3.exp_eq_matrix_exp w
  refine ⟨?_, ?_, ⟨SO3.log (a.valᵀ * b.val), (turnBetween_log ha hb).symm, fun s => ?_⟩, fun s t hst => ?_, fun w hw => ?_, fun c hc => turnBetween_triangle ha hc hb⟩
  · rw [hval, zero_smul, SO3.exp_zero, Matrix.mul_one]
  · rw [hval, one_smul, l1, ← Matrix.mul_assoc, haa, Matrix.one_mul]
  · rw [hval, hE]
    congr 2
    exact so3Rep.hat_smul s _
  · have e : (p s).valᵀ * (p t).val = SO3.exp ((t - s) • SO3.log (a.valᵀ * b.val)) := by
      rw [hval, hval, transpose_mul, ← SO3.exp_neg, Matrix.mul_assoc, ← Matrix.mul_assoc a.valᵀ, ha.orth, Matrix.one_mul, ← neg_smul]
      have := P.mul (-s) t
      rw [neg_add_eq_sub] at this
      exact this
    have n : eucNorm ((t - s) • SO3.log (a.valᵀ * b.val)) = |t - s| * eucNorm (SO3.log (a.valᵀ * b.val)) := eucNorm_smul _ _
    rw [turnBetween_exp e, n, turnBetween_log ha hb]
    rw [n]
    have := eucNorm_nonneg (SO3.log (a.valᵀ * b.val))
    nlinarith [abs_nonneg (t - s)]
  · refine turnBetween_le ?_
    rw [hw, ← Matrix.mul_assoc, ha.orth, Matrix.one_mul, hE]

/-- C92 for rotations: interpolating back from the second to the first passes through the same orientations, if the two are less than half a turn apart.  At
exactly half a turn it goes round the other side. -/
theorem c92_back_so3 (a b : Framed M3) (ha : IsRotation a.val) (hb : IsRotation b.val) (s : ℝ) (p q : Framed M3)
    (hp : interpBetween SO3.ops a b s = .ok p) (hq : interpBetween SO3.ops b a (1 - s) = .ok q) :
    (turnBetween a.val b.val < Real.pi → q.val = p.val) ∧ (turnBetween a.val b.val = Real.pi → 0 < s → s < 1 → q.val ≠ p.val) := by
  have hr := isRotation_mul (isRotation_transpose ha) hb
  obtain ⟨l1, l2⟩ := SO3.exp_log hr
  have vp : p.val = a.val * SO3.exp (s • SO3.log (a.valᵀ * b.val)) := interpBetween_val hp
  have vq : q.val = b.val * SO3.exp ((1 - s) • SO3.log (b.valᵀ * a.val)) := interpBetween_val hq
  have hab : b.valᵀ * a.val = (a.valᵀ * b.val)ᵀ := by rw [transpose_mul, transpose_transpose]
  have haa : a.val * a.valᵀ = 1 := mul_eq_one_comm.mp ha.orth
  have eb : b.val = a.val * SO3.exp (SO3.log (a.valᵀ * b.val)) := by rw [l1, ← Matrix.mul_assoc, haa, Matrix.one_mul]
  rw [turnBetween_log ha hb, vp, vq, hab]
  constructor
  · intro h
    rw [SO3.log_transpose hr h, smul_neg, ← neg_smul]
    generalize SO3.log (a.valᵀ * b.val) = w at *
    rw [eb, Matrix.mul_assoc, SO3.exp_mul_smul, show 1 + -(1 - s) = s by ring]
  · intro h s0 s1
    have hne : SO3.log (a.valᵀ * b.val) ≠ 0 := by
      intro e
      rw [e, eucNorm_zero] at h
      exact Real.pi_pos.ne h
    have sym : (a.valᵀ * b.val)ᵀ = a.valᵀ * b.val := by
      rw [← l1, SO3.exp, h, SO3.angleAxisMatrix_eq]
      simp only [Real.sin_pi, zero_smul, add_zero, transpose_add, transpose_smul, transpose_one]
      congr 2
      ext i j
      simp only [transpose_apply, vecMulVec_apply]
      ring
    rw [sym]
    intro e
    generalize SO3.log (a.valᵀ * b.val) = w at *
    rw [eb, Matrix.mul_assoc] at e
    have c : ∀ x y : M3, a.val * x = a.val * y → x = y := by
      intro x y hxy
      have := congrArg (fun z => a.valᵀ * z) hxy
      simpa [← Matrix.mul_assoc, ha.orth] using this
    have e' := c _ _ e
    rw [SO3.exp_mul_smul] at e'
    have t' := SO3.exp_add_smul (-s) (1 + (1 - s)) w
    have u' := SO3.exp_add_smul (-s) s w
    rw [e', u', neg_add_cancel, zero_smul, SO3.exp_zero] at t'
    have tr := congrArg trace t'
    rw [Approx.trace_exp, trace_one, eucNorm_smul, h] at tr
    have hc : Real.cos (|-s + (1 + (1 - s))| * Real.pi) = 1 := by
      simp only [Fintype.card_fin, Nat.cast_ofNat] at tr
      linarith
    obtain ⟨k, hk⟩ := (Real.cos_eq_one_iff _).mp hc
    have hk' : (k : ℝ) * 2 = |-s + (1 + (1 - s))| := by
      have := Real.pi_pos
      have h2 : ((k : ℝ) * 2) * Real.pi = |-s + (1 + (1 - s))| * Real.pi := by linarith
      exact mul_right_cancel₀ this.ne' h2
    have lo : 0 < |-s + (1 + (1 - s))| := abs_pos.mpr (by intro h; linarith)
    have hi : |-s + (1 + (1 - s))| < 2 := abs_lt.mpr ⟨by linarith, by linarith⟩
    rw [← hk'] at lo hi
    have k0 : (0 : ℝ) < (k : ℝ) := by linarith
    have k1 : (k : ℝ) < 1 := by linarith
    have : (0 : ℤ) < k := by exact_mod_cast k0
    have : k < (1 : ℤ) := by exact_mod_cast k1
    omega

/-- C92 for rotations about one axis by `pi - e` and `-pi + e`, as in the guide.  If the two are less than a quarter turn from half a turn, interpolation passes
through half a turn and never near zero: there is no wrap-around.  If they are further from it, it passes through zero. -/
theorem c92_across (n : V3) (hn : n ⬝ᵥ n = 1) (e s : ℝ) (h0 : 0 < e) (h1 : e < Real.pi) :
    (e < Real.pi / 2 → interpBetween SO3.ops (SO3.ofAngleAxis (Real.pi - e) n) (SO3.ofAngleAxis (-Real.pi + e) n) s =
      .ok (SO3.ofAngleAxis (Real.pi - e + 2 * e * s) n)) ∧
    (Real.pi / 2 < e → interpBetween SO3.ops (SO3.ofAngleAxis (Real.pi - e) n) (SO3.ofAngleAxis (-Real.pi + e) n) s =
      .ok (SO3.ofAngleAxis ((Real.pi - e) * (1 - 2 * s)) n)) := by
  have P := SO3.oneParam n
  have hm : ∀ x y : ℝ, SO3.angleAxisMatrix x n * SO3.angleAxisMatrix y n = SO3.angleAxisMatrix (x + y) n := fun x y => by
    rw [SO3.angleAxis_exp x hn, SO3.angleAxis_exp y hn, SO3.angleAxis_exp (x + y) hn]
    exact P.mul x y
  have ht : ∀ x : ℝ, (SO3.angleAxisMatrix x n)ᵀ = SO3.angleAxisMatrix (-x) n := fun x => by
    rw [SO3.angleAxis_exp x hn, SO3.angleAxis_exp (-x) hn, neg_smul, SO3.exp_neg]
  have hn1 : eucNorm n = 1 := by rw [eucNorm, sqNorm, hn, Real.sqrt_one]
  have hl : ∀ x : ℝ, |x| < Real.pi → SO3.log (SO3.angleAxisMatrix x n) = x • n := fun x hx => by
    rw [SO3.angleAxis_exp x hn, SO3.log_exp]
    rwa [eucNorm_smul, hn1, mul_one]
  have hb := (interpBetween_ok SO3.ops (SO3.ofAngleAxis (Real.pi - e) n) (SO3.ofAngleAxis (-Real.pi + e) n) Iff.rfl Iff.rfl s).1 (.inl rfl)
  rw [hb]
  change (_ → Outcome.ok (unframed (SO3.angleAxisMatrix (Real.pi - e) n * SO3.exp (s • SO3.log ((SO3.angleAxisMatrix (Real.pi - e) n)ᵀ *
    SO3.angleAxisMatrix (-Real.pi + e) n)))) = _) ∧ (_ → Outcome.ok (unframed (SO3.angleAxisMatrix (Real.pi - e) n * SO3.exp (s • SO3.log
    ((SO3.angleAxisMatrix (Real.pi - e) n)ᵀ * SO3.angleAxisMatrix (-Real.pi + e) n)))) = _)
  rw [ht, hm]
  constructor
  · intro h
    have e1 : SO3.angleAxisMatrix (-(Real.pi - e) + (-Real.pi + e)) n = SO3.angleAxisMatrix (2 * e) n := by
      have : -(Real.pi - e) + (-Real.pi + e) = 2 * e - 2 * Real.pi := by ring
      rw [this, SO3.angleAxisMatrix_eq, SO3.angleAxisMatrix_eq, Real.cos_sub_two_pi, Real.sin_sub_two_pi]
    rw [e1, hl _ (by rw [abs_of_pos (by linarith)]; linarith), smul_smul, ← SO3.angleAxis_exp _ hn, hm]
    have : Real.pi - e + s * (2 * e) = Real.pi - e + 2 * e * s := by ring
    rw [this]
    rfl
  · intro h
    have e1 : -(Real.pi - e) + (-Real.pi + e) = -(2 * (Real.pi - e)) := by ring
    rw [e1, hl _ (by rw [abs_neg, abs_of_pos (by linarith)]; linarith), smul_smul, ← SO3.angleAxis_exp _ hn, hm]
    have : Real.pi - e + s * -(2 * (Real.pi - e)) = (Real.pi - e) * (1 - 2 * s) := by ring
    rw [this]
    rfl

/-- The rotation of a framed transform. -/
def rotationOf (a : Framed Pose) : Framed M3 := ⟨a.val.1, a.into, a.src⟩

/-- C92 for rigid motions.  There is one screw `x`, of the shortest angle, from the first to the second; the interpolation is the motion along it, with the rotation
exactly that of the interpolated rotations, and a position off by at most 4e-15 of the distance between the two times the fraction. -/
theorem c92_se3 (a b : Framed Pose) (ha : IsRotation a.val.1) (hb : IsRotation b.val.1) :
    ∃ x : Twist, poseMatrix b.val = poseMatrix a.val * NormedSpace.exp (twistHat x) ∧ eucNorm x.1 = turnBetween a.val.1 b.val.1 ∧
      ∀ s p, interpBetween SE3.ops a b s = .ok p →
        (∀ r, interpBetween SO3.ops (rotationOf a) (rotationOf b) s = .ok r → p.val.1 = r.val) ∧
        ∃ q : Pose, poseMatrix q = poseMatrix a.val * NormedSpace.exp (s • twistHat x) ∧ p.val.1 = q.1 ∧
          eucNorm (p.val.2 - q.2) ≤ 4e-15 * (|s| * eucNorm (b.val.2 - a.val.2)) := by
  have hr : PoseValid (SE3.mul (SE3.inv a.val) b.val) := se3Laws.valid_mul (se3Laws.valid_inv ha) hb
  have hx : ∀ y : Twist, poseMatrix (SE3.mul a.val (SE3.xexp y)) = poseMatrix a.val * NormedSpace.exp (twistHat y) := fun y => by
    have := se3Rep.M_mul a.val (SE3.xexp y)
    rw [show poseMatrix (SE3.xexp y) = NormedSpace.exp (twistHat y) from SE3.H_xexp y] at this
    exact this
  have hd := SE3.eucNorm_inv_mul (a := a.val) (b := b.val) ha
  refine ⟨SE3.xlog (SE3.mul (SE3.inv a.val) b.val), ?_, ?_, fun s p hp => ⟨fun r hr' => ?_, SE3.mul a.val (SE3.xexp (s • SE3.xlog (SE3.mul (SE3.inv a.val) b.val))),
    ?_, ?_⟩⟩
  · rw [← hx, SE3.xexp_xlog hr, SE3.mul_inv_mul ha]
  · exact (turnBetween_log ha hb).symm
  · rw [interpBetween_val hp, interpBetween_val hr']
    have := (SE3.interp_near hr s).1
    change a.val.1 * (SE3.exp (s • SE3.log (SE3.mul (SE3.inv a.val) b.val))).1 = _
    rw [this]
    rfl
  · rw [hx, se3Rep.hat_smul]
  · have n := SE3.Near.mul (a := a.val) (a' := a.val) (e := 0) ha ⟨rfl, by rw [sub_self, eucNorm_zero]⟩ (SE3.interp_near hr s)
    rw [interpBetween_val hp]
    refine ⟨n.1, n.2.trans ?_⟩
    have h := SE3.xlog_le hr
    rw [hd] at h
    have := mul_le_mul_of_nonneg_left h (abs_nonneg s)
    nlinarith

/-- C92 for rigid motions: interpolating back passes through the same poses, up to that rounding, if the two are less than half a turn apart. -/
theorem c92_back_se3 (a b : Framed Pose) (ha : IsRotation a.val.1) (hb : IsRotation b.val.1) (h : turnBetween a.val.1 b.val.1 < Real.pi) (s : ℝ)
    (p q : Framed Pose) (hp : interpBetween SE3.ops a b s = .ok p) (hq : interpBetween SE3.ops b a (1 - s) = .ok q) :
    q.val.1 = p.val.1 ∧ eucNorm (q.val.2 - p.val.2) ≤ 4e-15 * ((|s| + |1 - s|) * eucNorm (b.val.2 - a.val.2)) := by
  have hr : PoseValid (SE3.mul (SE3.inv a.val) b.val) := se3Laws.valid_mul (se3Laws.valid_inv ha) hb
  have hr' : PoseValid (SE3.mul (SE3.inv b.val) a.val) := se3Laws.valid_mul (se3Laws.valid_inv hb) ha
  have hl : SE3.xlog (SE3.mul (SE3.inv b.val) a.val) = -SE3.xlog (SE3.mul (SE3.inv a.val) b.val) := by
    rw [SE3.inv_mul_comm ha]
    refine SE3.xlog_valid_inv hr ?_
    rw [turnBetween_log ha hb] at h
    exact h
  have np := SE3.Near.mul (a := a.val) (a' := a.val) (e := 0) ha ⟨rfl, by rw [sub_self, eucNorm_zero]⟩ (SE3.interp_near hr s)
  have nq := SE3.Near.mul (a := b.val) (a' := b.val) (e := 0) hb ⟨rfl, by rw [sub_self, eucNorm_zero]⟩ (SE3.interp_near hr' (1 - s))
  have hx : SE3.mul b.val (SE3.xexp ((1 - s) • SE3.xlog (SE3.mul (SE3.inv b.val) a.val))) =
      SE3.mul a.val (SE3.xexp (s • SE3.xlog (SE3.mul (SE3.inv a.val) b.val))) := by
    rw [hl]
    exact SE3.mul_xexp_back _ _ _ s (by rw [SE3.xexp_xlog hr, SE3.mul_inv_mul ha])
  rw [hx] at nq
  have hd := SE3.eucNorm_inv_mul (a := a.val) (b := b.val) ha
  have hn : ∀ v : V3, eucNorm (-v) = eucNorm v := fun v => by rw [← neg_one_smul ℝ, eucNorm_smul, abs_neg, abs_one, one_mul]
  have hs : eucNorm (SE3.xlog (SE3.mul (SE3.inv b.val) a.val)).2 = eucNorm (SE3.xlog (SE3.mul (SE3.inv a.val) b.val)).2 := by
    rw [hl]
    exact hn _
  rw [hs] at nq
  rw [interpBetween_val hp, interpBetween_val hq]
  refine ⟨nq.1.trans np.1.symm, ?_⟩
  have e : (SE3.ops.mul b.val (SE3.ops.exp (SE3.ops.smul (1 - s) (SE3.ops.log (SE3.ops.mul (SE3.ops.inv b.val) a.val))))).2 -
      (SE3.ops.mul a.val (SE3.ops.exp (SE3.ops.smul s (SE3.ops.log (SE3.ops.mul (SE3.ops.inv a.val) b.val))))).2 =
      ((SE3.mul b.val (SE3.exp ((1 - s) • SE3.log (SE3.mul (SE3.inv b.val) a.val)))).2 -
        (SE3.mul a.val (SE3.xexp (s • SE3.xlog (SE3.mul (SE3.inv a.val) b.val)))).2) +
      -((SE3.mul a.val (SE3.exp (s • SE3.log (SE3.mul (SE3.inv a.val) b.val)))).2 -
        (SE3.mul a.val (SE3.xexp (s • SE3.xlog (SE3.mul (SE3.inv a.val) b.val)))).2) := by
    change (SE3.mul b.val (SE3.exp ((1 - s) • SE3.log (SE3.mul (SE3.inv b.val) a.val)))).2 - (SE3.mul a.val (SE3.exp (s • SE3.log (SE3.mul (SE3.inv a.val) b.val)))).2 = _
    abel
  rw [e]
  refine (eucNorm_add_le _ _).trans ?_
  rw [hn]
  have hxl := SE3.xlog_le hr
  rw [hd] at hxl
  have a1 := mul_le_mul_of_nonneg_left hxl (abs_nonneg s)
  have a2 := mul_le_mul_of_nonneg_left hxl (abs_nonneg (1 - s))
  have k := add_le_add nq.2 np.2
  nlinarith

section Examples

/-- `c31_se3_close`, `c31_se3_add`: a quarter turn with a translation. -/
example : (∃ x : Twist, NormedSpace.exp (twistHat x) = poseMatrix (quarterTurn, ![1, 2, 3])) ∧
    ∃ a b c, interp SE3.ops (⟨(quarterTurn, ![1, 2, 3]), exFrame 1, exFrame 2⟩ : Framed Pose) 0.25 = .ok a ∧
      interp SE3.ops ⟨(quarterTurn, ![1, 2, 3]), exFrame 1, exFrame 2⟩ 3 = .ok b ∧
      interp SE3.ops ⟨(quarterTurn, ![1, 2, 3]), exFrame 1, exFrame 2⟩ (0.25 + 3) = .ok c ∧ (SE3.ops.mul a.val b.val).1 = c.val.1 := by
  have hf : exFrame 1 = Frame.null ↔ exFrame 2 = Frame.null := by decide
  obtain ⟨x, hx, -⟩ := c31_se3_close ⟨(quarterTurn, ![1, 2, 3]), exFrame 1, exFrame 2⟩ quarterTurn_isRotation hf
  exact ⟨⟨x, hx⟩, _, _, _, mk'_ok hf, mk'_ok hf, mk'_ok hf, (c31_se3_add _ quarterTurn_isRotation 0.25 3 _ _ _ (mk'_ok hf) (mk'_ok hf) (mk'_ok hf)).1⟩

/-- `c92_frames`: it throws for poses of different into frames, and gives the from frame of the second for equal ones. -/
example : (interpBetween SO3.ops ⟨1, exFrame 1, exFrame 2⟩ ⟨quarterTurn, exFrame 3, exFrame 2⟩ 0.5).IsThrow ∧
    ∃ p, interpBetween SO3.ops ⟨1, exFrame 1, exFrame 2⟩ ⟨quarterTurn, exFrame 1, exFrame 3⟩ 0.5 = .ok p ∧ p.src = exFrame 3 := by
  refine ⟨(c92_frames SO3.ops ⟨1, exFrame 1, exFrame 2⟩ ⟨quarterTurn, exFrame 3, exFrame 2⟩ (by decide) (by decide) 0.5).1.mpr (by decide), ?_⟩
  have h := (interpBetween_ok SO3.ops ⟨1, exFrame 1, exFrame 2⟩ ⟨quarterTurn, exFrame 1, exFrame 3⟩ (by decide) (by decide) 0.5).2.1 (by decide) (by decide) rfl
  exact ⟨_, h, rfl⟩

theorem turn_quarter : turnBetween 1 quarterTurn = Real.pi / 2 := by
  simp [turnBetween, quarterTurn, Matrix.trace, Fin.sum_univ_three]

/-- Half a turn about the x axis. -/
def halfTurnX : M3 := !![1, 0, 0; 0, -1, 0; 0, 0, -1]

theorem halfTurnX_isRotation : IsRotation halfTurnX := by
  constructor
  · ext i j
    fin_cases i <;> fin_cases j <;> simp [halfTurnX, mul_apply, Fin.sum_univ_three]
  · simp [halfTurnX, det_fin_three]

theorem turn_half : turnBetween 1 halfTurnX = Real.pi := by
  simp [turnBetween, halfTurnX, Matrix.trace, Fin.sum_univ_three]
  norm_num

/-- `c92_so3`: half way to the quarter turn is an eighth of a turn from both ends. -/
example : ∃ p : ℝ → Framed M3, (∀ s, interpBetween SO3.ops (unframed 1) (unframed quarterTurn) s = .ok (p s)) ∧
    turnBetween (p 0).val (p 0.5).val = Real.pi / 4 ∧ turnBetween (p 0.5).val (p 1).val = Real.pi / 4 := by
  have h := fun s => (interpBetween_ok SO3.ops (unframed 1) (unframed quarterTurn) (by decide) (by decide) s).1 (.inl rfl)
  obtain ⟨-, -, -, t, -⟩ := c92_so3 (unframed 1) (unframed quarterTurn) isRotation_one quarterTurn_isRotation _ h
  have e : turnBetween (unframed (1 : M3)).val (unframed quarterTurn).val = Real.pi / 2 := turn_quarter
  rw [e] at t
  refine ⟨_, h, ?_, ?_⟩
  · rw [t 0 0.5 (by norm_num [abs_le])]
    norm_num [abs_of_pos]
    ring
  · rw [t 0.5 1 (by norm_num [abs_le])]
    norm_num [abs_of_pos]
    ring

/-- `c92_back_so3`: the same way back for a quarter turn, another for half a turn. -/
example : (∃ p, interpBetween SO3.ops (unframed 1) (unframed quarterTurn) 0.25 = .ok p ∧ interpBetween SO3.ops (unframed quarterTurn) (unframed 1) (1 - 0.25) = .ok p) ∧
    ∃ p q, interpBetween SO3.ops (unframed 1) (unframed halfTurnX) 0.25 = .ok p ∧ interpBetween SO3.ops (unframed halfTurnX) (unframed 1) (1 - 0.25) = .ok q ∧ p ≠ q := by
  constructor
  · have h1 := (interpBetween_ok SO3.ops (unframed 1) (unframed quarterTurn) (by decide) (by decide) 0.25).1 (.inl rfl)
    have h2 := (interpBetween_ok SO3.ops (unframed quarterTurn) (unframed 1) (by decide) (by decide) (1 - 0.25)).1 (.inl rfl)
    have e := (c92_back_so3 _ _ isRotation_one quarterTurn_isRotation 0.25 _ _ h1 h2).1 (by
      have := turn_quarter
      have hp := Real.pi_pos
      change turnBetween 1 quarterTurn < _
      linarith)
    refine ⟨_, h1, h2.trans ?_⟩
    congr 2
  · have h1 := (interpBetween_ok SO3.ops (unframed 1) (unframed halfTurnX) (by decide) (by decide) 0.25).1 (.inl rfl)
    have h2 := (interpBetween_ok SO3.ops (unframed halfTurnX) (unframed 1) (by decide) (by decide) (1 - 0.25)).1 (.inl rfl)
    have e := (c92_back_so3 _ _ isRotation_one halfTurnX_isRotation 0.25 _ _ h1 h2).2 turn_half (by norm_num) (by norm_num)
    exact ⟨_, _, h1, h2, fun h => e (congrArg Framed.val h.symm)⟩

/-- `c92_across`: half way between 3.04 and -3.04 radians about the x axis is half a turn, not the identity. -/
example : interpBetween SO3.ops (SO3.ofAngleAxis (Real.pi - 0.1) ![1, 0, 0]) (SO3.ofAngleAxis (-Real.pi + 0.1) ![1, 0, 0]) 0.5 =
    .ok (SO3.ofAngleAxis Real.pi ![1, 0, 0]) := by
  rw [(c92_across ![1, 0, 0] (by simp [dotProduct, Fin.sum_univ_three]) 0.1 0.5 (by norm_num) (by linarith [Real.pi_gt_three])).1 (by linarith [Real.pi_gt_three])]
  congr 2
  ring

/-- `c92_se3`, `c92_back_se3`: from the origin to a quarter turn at (1, 2, 3) and back. -/
example : (∃ x : Twist, eucNorm x.1 = Real.pi / 2 ∧ poseMatrix (quarterTurn, ![1, 2, 3]) = poseMatrix ((1 : M3), 0) * NormedSpace.exp (twistHat x)) ∧
    ∃ p q, interpBetween SE3.ops (unframed ((1 : M3), (0 : V3))) (unframed (quarterTurn, ![1, 2, 3])) 0.25 = .ok p ∧
      interpBetween SE3.ops (unframed (quarterTurn, ![1, 2, 3])) (unframed ((1 : M3), (0 : V3))) (1 - 0.25) = .ok q ∧ q.val.1 = p.val.1 := by
  constructor
  · obtain ⟨x, h1, h2, -⟩ := c92_se3 (unframed ((1 : M3), (0 : V3))) (unframed (quarterTurn, ![1, 2, 3])) isRotation_one quarterTurn_isRotation
    exact ⟨x, h2.trans turn_quarter, h1⟩
  · have h1 := (interpBetween_ok SE3.ops (unframed ((1 : M3), (0 : V3))) (unframed (quarterTurn, ![1, 2, 3])) (by decide) (by decide) 0.25).1 (.inl rfl)
    have h2 := (interpBetween_ok SE3.ops (unframed (quarterTurn, ![1, 2, 3])) (unframed ((1 : M3), (0 : V3))) (by decide) (by decide) (1 - 0.25)).1 (.inl rfl)
    have e := (c92_back_se3 _ _ isRotation_one quarterTurn_isRotation (by
      have := turn_quarter
      have hp := Real.pi_pos
      change turnBetween 1 quarterTurn < _
      linarith) 0.25 _ _ h1 h2).1
    exact ⟨_, _, h1, h2, e⟩

end Examples
end Verif.Props
