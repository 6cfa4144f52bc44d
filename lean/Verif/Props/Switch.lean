import Verif.Proofs.Switch
import Verif.Props.DCurve
import Verif.Props.ExpLog
/-! # C44: distance curves where `exp` switches formulas -/
namespace Verif.Props
open Verif.Framed Verif.Spec SO3
open scoped Matrix Topology

/-- The displacement of a step, seen from its start. -/
noncomputable def stepMove (a b : Pose) : V3 := a.1.transpose *ᵥ (b.2 - a.2)

/-- C44 at the one point of a step at which the angle turned is 0.002: if the step is along its axis, the position has a derivative of length one there;
otherwise the position jumps, so that C44 fails. -/
theorem c44_switch (c : DCurve Pose) (h : DBuilt SE3.ops SE3.arcLength c) (hv : ∀ p ∈ c.controls, IsRotation p.pose.val.1)
    (i : Nat) (hi : i + 1 < c.controls.length) (s : ℝ) (h0 : c.controls[i].arcLength < s) (h1 : s < c.controls[i + 1].arcLength)
    (pos : ℝ → V3) (hpos : ∀ r, c.controls[i].arcLength < r → r < c.controls[i + 1].arcLength →
      ∃ g, DCurve.pointAt SE3.ops c r = .ok g ∧ pos r = g.val.2) (hs : turnedAt c.controls[i] c.controls[i + 1] s = 0.002) :
    (stepRotation c.controls[i].pose.val c.controls[i + 1].pose.val ⨯₃ stepMove c.controls[i].pose.val c.controls[i + 1].pose.val = 0 →
      ∃ v, HasDerivAt pos v s ∧ eucNorm v = 1) ∧
    (stepRotation c.controls[i].pose.val c.controls[i + 1].pose.val ⨯₃ stepMove c.controls[i].pose.val c.controls[i + 1].pose.val ≠ 0 →
      ¬ ContinuousAt pos s) := by
  have hc := dInv_of_built h
  have hch := hc.chain i hi
  obtain ⟨a, ha⟩ : ∃ a, a = c.controls[i] := ⟨_, rfl⟩
  obtain ⟨b, hb⟩ : ∃ b, b = c.controls[i + 1] := ⟨_, rfl⟩
  have hva : IsRotation a.pose.val.1 := ha ▸ hv _ (List.getElem_mem _)
  have hvb : IsRotation b.pose.val.1 := hb ▸ hv _ (List.getElem_mem _)
  have heq : pos =ᶠ[nhds s] fun r => (DCurve.valueOn SE3.ops a b r).2 := by
    filter_upwards [lt_mem_nhds h0, gt_mem_nhds h1] with r r0 r1
    obtain ⟨g, hg, hg2⟩ := hpos r r0 r1
    obtain ⟨g', hg', hv'⟩ := DCurve.pointAt_strict hc (fun _ => eucNorm_nonneg _) hi r0 r1
    rw [hg, Outcome.ok.injEq] at hg'
    rw [hg2, hg', hv', ha, hb]
  rw [← ha] at h0 hch hs ⊢
  rw [← hb] at h1 hch hs ⊢
  clear hpos
  obtain ⟨ℓ, hℓ⟩ : ∃ ℓ, ℓ = b.arcLength - a.arcLength := ⟨_, rfl⟩
  have hlen : 0 < ℓ := by rw [hℓ]; linarith
  obtain ⟨x, hx⟩ : ∃ x, x = SE3.log (SE3.ops.mul (SE3.ops.inv a.pose.val) b.pose.val) := ⟨_, rfl⟩
  have hx1 : stepRotation a.pose.val b.pose.val = x.1 := by rw [hx]; rfl
  have hval : (fun r => (DCurve.valueOn SE3.ops a b r).2) = fun r => (SE3.mul a.pose.val (SE3.exp (((r - a.arcLength) / ℓ) • x))).2 := by
    funext r
    rw [hℓ, hx]
    rfl
  have hu : eucNorm x.2 = ℓ := by
    have : ℓ = SE3.arcLength (SE3.ops.mul (SE3.ops.inv a.pose.val) b.pose.val) := by rw [hℓ, hch]; ring
    rw [this, hx]; rfl
  have hturn : (s - a.arcLength) / ℓ * eucNorm x.1 = 0.002 := by
    rw [← hs, turnedAt, hx1, hℓ]
  have hf1 : (s - a.arcLength) / ℓ < 1 := by rw [div_lt_one hlen, hℓ]; linarith
  have hf0 : 0 < (s - a.arcLength) / ℓ := div_pos (by linarith) hlen
  have hbig : 0.002 ≤ eucNorm x.1 := by nlinarith [eucNorm_nonneg x.1]
  have hne : x.1 ≠ 0 := by
    intro h0
    rw [h0, eucNorm_zero] at hbig
    norm_num at hbig
  have hrel : IsRotation (a.pose.val.1.transpose * b.pose.val.1) := SO3.isRotation_mul (SO3.isRotation_transpose hva) hvb
  have hpi : eucNorm x.1 ≤ Real.pi := by rw [← hx1]; exact (c29_exp_log _ hrel).2
  have hmove : stepMove a.pose.val b.pose.val = (SE3.exp x).2 := by
    have := c30_exp_log_partial (SE3.ops.mul (SE3.ops.inv a.pose.val) b.pose.val) hrel (Or.inr (by
      have : eucNorm x.1 = eucNorm (SO3.log (SE3.ops.mul (SE3.ops.inv a.pose.val) b.pose.val).1) := by rw [hx]; rfl
      rw [← this]; exact hbig))
    rw [hx]
    have e2 := congrArg Prod.snd this
    refine Eq.trans ?_ e2.symm
    show a.pose.val.1.transpose *ᵥ (b.pose.val.2 - a.pose.val.2) = a.pose.val.1.transpose *ᵥ b.pose.val.2 + a.pose.val.1.transpose *ᵥ (-a.pose.val.2)
    rw [← Matrix.mulVec_add, sub_eq_add_neg]
  have hal' : x.1 ⨯₃ x.2 = 0 ↔ x.1 ⨯₃ (SE3.exp x).2 = 0 := along_iff hne hpi hbig
  rw [hx1, hmove]
  rw [← hal', ne_eq, ← hal']
  rw [hval] at heq
  constructor
  · intro hal
    have e : (fun r => (SE3.mul a.pose.val (SE3.exp (((r - a.arcLength) / ℓ) • x))).2) =
        fun r => a.pose.val.1 *ᵥ (((r - a.arcLength) / ℓ) • x.2) + a.pose.val.2 := by
      funext r
      show a.pose.val.1 *ᵥ (SE3.exp (((r - a.arcLength) / ℓ) • x)).2 + a.pose.val.2 = _
      rw [← Prod.mk.eta (p := x), SE3.exp_along hal]
    rw [e] at heq
    have hd : HasDerivAt (fun r => a.pose.val.1 *ᵥ (((r - a.arcLength) / ℓ) • x.2) + a.pose.val.2) (ℓ⁻¹ • (a.pose.val.1 *ᵥ x.2)) s := by
      have h3 : HasDerivAt (fun r => (r - a.arcLength) / ℓ) ℓ⁻¹ s := by
        simpa using ((hasDerivAt_id s).sub_const a.arcLength).div_const ℓ
      simp only [Matrix.mulVec_smul]
      exact (h3.smul_const _).add_const _
    refine ⟨_, hd.congr_of_eventuallyEq heq, ?_⟩
    rw [eucNorm_smul, eucNorm_mulVec hva, hu, abs_of_pos (inv_pos.mpr hlen), inv_mul_cancel₀ hlen.ne']
  · intro hno hcont
    have hcont := hcont.congr heq
    have hfc : ContinuousAt (fun r => (r - a.arcLength) / ℓ) s := by fun_prop
    have hsq : ∀ r, ((r - a.arcLength) / ℓ) ^ 2 * sqNorm x.1 = ((r - a.arcLength) / ℓ * eucNorm x.1) ^ 2 := fun r => by rw [mul_pow, eucNorm_sq]
    refine SE3.exp_jumps hno hfc (by rw [hsq, hturn, tinySquareAngle]; norm_num) ?_ ?_
    · have : ∀ᶠ r in 𝓝[<] s, a.arcLength < r := nhdsWithin_le_nhds (lt_mem_nhds h0)
      filter_upwards [this, self_mem_nhdsWithin] with r r0 r1
      have r1 : r < s := r1
      rw [hsq, tinySquareAngle, show (4e-6 : ℝ) = 0.002 ^ 2 by norm_num, ← hturn]
      have hp := eucNorm_pos hne
      have hq : 0 ≤ (r - a.arcLength) / ℓ := div_nonneg (by linarith) hlen.le
      have hq1 : (r - a.arcLength) / ℓ < (s - a.arcLength) / ℓ := div_lt_div_of_pos_right (by linarith) hlen
      exact pow_lt_pow_left₀ (mul_lt_mul_of_pos_right hq1 hp) (mul_nonneg hq hp.le) (by norm_num)
    · have e : (fun r => (SE3.exp (((r - a.arcLength) / ℓ) • ((x.1, x.2) : Twist))).2) = fun r =>
          a.pose.val.1.transpose *ᵥ ((SE3.mul a.pose.val (SE3.exp (((r - a.arcLength) / ℓ) • x))).2 - a.pose.val.2) := by
        funext r
        show _ = a.pose.val.1.transpose *ᵥ (a.pose.val.1 *ᵥ (SE3.exp (((r - a.arcLength) / ℓ) • x)).2 + a.pose.val.2 - a.pose.val.2)
        rw [add_sub_cancel_right, Matrix.mulVec_mulVec, hva.orth, Matrix.one_mulVec]
      rw [e]
      have := hcont.sub (continuousAt_const (y := a.pose.val.2))
      exact (Continuous.matrix_mulVec continuous_const continuous_id).continuousAt.comp this

/-- C44 fails: on the curve that turns by one radian with unit speed, the position jumps at arc length 0.002. -/
theorem c44_switch_fails : ∃ c, DBuilt SE3.ops SE3.arcLength c ∧ (∀ p ∈ c.controls, IsRotation p.pose.val.1) ∧ DCurve.curveLength c = 1 ∧
    ∀ pos : ℝ → V3, (∀ r, 0 < r → r < 1 → ∃ g, DCurve.pointAt SE3.ops c r = .ok g ∧ pos r = g.val.2) → ¬ ContinuousAt pos 0.002 := by
  obtain ⟨w, hw⟩ : ∃ w : V3, w = ![0, 0, 1] := ⟨_, rfl⟩
  obtain ⟨v, hv⟩ : ∃ v : V3, v = ![1, 0, 0] := ⟨_, rfl⟩
  have nw : eucNorm w = 1 := by
    have : sqNorm w = 1 ^ 2 := by rw [sqNorm_eq, hw]; simp
    rw [eucNorm, this, Real.sqrt_sq (by norm_num)]
  have nv : eucNorm v = 1 := by
    have : sqNorm v = 1 ^ 2 := by rw [sqNorm_eq, hv]; simp
    rw [eucNorm, this, Real.sqrt_sq (by norm_num)]
  have hpi : (1 : ℝ) < Real.pi := by linarith [Real.pi_gt_three]
  have hlog : SE3.ops.log (SE3.ops.exp (w, v)) = (w, v) := c30_log_exp_partial (w, v) (by rw [nw]; exact hpi) (Or.inr (by rw [nw]; norm_num))
  obtain ⟨g, hg⟩ : ∃ g, g = SE3.ops.exp (w, v) := ⟨_, rfl⟩
  have hgr : IsRotation g.1 := by rw [hg]; exact SO3.isRotation_exp w
  have hrel : SE3.ops.mul (SE3.ops.inv ((1, 0) : Pose)) g = g := by
    show ((Matrix.transpose (1 : M3) * g.1, Matrix.transpose (1 : M3) *ᵥ g.2 + Matrix.transpose (1 : M3) *ᵥ (-0)) : Pose) = g
    simp
  rw [← hg] at hlog
  obtain ⟨c, hb, hl⟩ := framed_built [(1, 0), g]
  have hlen : c.controls.length = 2 := by simpa using congrArg List.length hl
  have hget : ∀ (i : Nat) (hi : i < c.controls.length), c.controls[i].pose.val = ([(1, 0), g] : List Pose)[i]'(by simp; omega) := by
    intro i hi
    have := congrArg (fun l : List (Framed Pose) => l[i]?) hl
    simp only [List.getElem?_map, List.getElem?_eq_getElem hi, Option.map_some] at this
    rw [List.getElem?_eq_getElem (by simp; omega)] at this
    simp only [Option.map_some, Option.some.injEq] at this
    rw [this]
  have hc := dInv_of_built hb
  have e0 : c.controls[0].arcLength = 0 := hc.first _ (by rw [List.head?_eq_getElem?, List.getElem?_eq_getElem (by omega)])
  have hch : c.controls[1].arcLength = c.controls[0].arcLength + _ := hc.chain 0 (by omega)
  have hch : c.controls[1].arcLength = SE3.arcLength (SE3.ops.mul (SE3.ops.inv c.controls[0].pose.val) c.controls[1].pose.val) := by
    rw [hch, e0, zero_add]
  rw [hget 0 (by omega), hget 1 (by omega)] at hch
  have e1 : c.controls[1].arcLength = 1 := by
    rw [hch]
    show eucNorm (SE3.ops.log (SE3.ops.mul (SE3.ops.inv ((1, 0) : Pose)) g)).2 = 1
    rw [hrel, hlog, nv]
  have hcl : DCurve.curveLength c = 1 := by
    have : c.controls.getLast? = some c.controls[1] := by
      rw [List.getLast?_eq_getElem?, show c.controls.length - 1 = 1 by omega, List.getElem?_eq_getElem (by omega)]
    rw [DCurve.curveLength, this]
    exact e1
  have hrot : ∀ p ∈ c.controls, IsRotation p.pose.val.1 := by
    intro p hp
    obtain ⟨i, hi, rfl⟩ := List.mem_iff_getElem.mp hp
    rw [hget i hi]
    obtain rfl | rfl : i = 0 ∨ i = 1 := by omega
    · exact SO3.isRotation_one
    · exact hgr
  refine ⟨c, hb, hrot, hcl, fun pos hpos => ?_⟩
  have hstep : stepRotation c.controls[0].pose.val c.controls[1].pose.val = w := by
    rw [hget 0 (by omega), hget 1 (by omega)]
    show SO3.log (Matrix.transpose (1 : M3) * g.1) = w
    rw [Matrix.transpose_one, Matrix.one_mul]
    exact congrArg Prod.fst hlog
  refine (c44_switch c hb hrot 0 (by omega) 0.002 (by rw [e0]; norm_num) (by rw [e1]; norm_num) pos (by rw [e0, e1]; exact hpos) ?_).2 ?_
  · rw [turnedAt, hstep, nw, e0, e1]
    norm_num
  · rw [hstep, hget 0 (by omega), hget 1 (by omega)]
    have hm : stepMove ((1, 0) : Pose) g = g.2 := by
      show Matrix.transpose (1 : M3) *ᵥ (g.2 - 0) = g.2
      simp
    show w ⨯₃ stepMove ((1, 0) : Pose) g ≠ 0
    rw [hm, hg]
    intro h0
    have := (along_iff (w := w) (v := v) (by rintro rfl; rw [eucNorm_zero] at nw; norm_num at nw) (by rw [nw]; exact hpi.le) (by rw [nw]; norm_num)).mpr h0
    have := congrFun this 1
    simp [hw, hv, cross_apply] at this

end Verif.Props
