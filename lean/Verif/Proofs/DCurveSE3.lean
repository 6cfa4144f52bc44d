import Verif.Proofs.DCurve
import Verif.Proofs.ExpDeriv
import Mathlib.Tactic.Positivity
/-! # Distance curves in SE3: passing through the controls and speed -/
namespace Verif
open Framed Matrix Topology Verif.Spec
open SO3 (sqNorm eucNorm tinySquareAngle)

theorem sqNorm_comb (α β γ : ℝ) (u w : V3) :
    sqNorm (α • u + β • (w ⨯₃ u) + (γ * (w ⬝ᵥ u)) • w) =
      α ^ 2 * sqNorm u + β ^ 2 * (sqNorm w * sqNorm u - (w ⬝ᵥ u) ^ 2) + γ ^ 2 * (w ⬝ᵥ u) ^ 2 * sqNorm w + 2 * α * γ * (w ⬝ᵥ u) ^ 2 := by
  simp only [SO3.sqNorm_eq, cross_apply, dotProduct, Fin.sum_univ_three, Pi.add_apply, Pi.smul_apply, smul_eq_mul, cons_val_zero,
    cons_val_one, cons_val]
  ring

theorem dot_sq_le (u w : V3) : (w ⬝ᵥ u) ^ 2 ≤ sqNorm w * sqNorm u := by
  simp only [SO3.sqNorm_eq, dotProduct, Fin.sum_univ_three]
  nlinarith [sq_nonneg (w 0 * u 1 - w 1 * u 0), sq_nonneg (w 0 * u 2 - w 2 * u 0), sq_nonneg (w 1 * u 2 - w 2 * u 1)]

/-- The factor by which the squared speed is off in the small-angle region, as a function of the square angle. -/
theorem speed_poly {q : ℝ} (h0 : 0 ≤ q) (h1 : q < 4e-6) :
    0 ≤ q ^ 4 * (1 / 2880 - q / 21600 + q ^ 2 / 518400) ∧ q ^ 4 * (1 / 2880 - q / 21600 + q ^ 2 / 518400) ≤ 1e-24 := by
  have q4 : q ^ 4 ≤ 256e-24 := by
    calc q ^ 4 ≤ (4e-6) ^ 4 := pow_le_pow_left₀ h0 h1.le 4
      _ = _ := by norm_num
  have q4' : 0 ≤ q ^ 4 := by positivity
  have k0 : 0 ≤ 1 / 2880 - q / 21600 + q ^ 2 / 518400 := by nlinarith
  have k1 : 1 / 2880 - q / 21600 + q ^ 2 / 518400 ≤ 1 / 2880 := by nlinarith
  refine ⟨mul_nonneg q4' k0, ?_⟩
  calc _ ≤ 256e-24 * (1 / 2880 : ℝ) := mul_le_mul q4 k1 k0 (by norm_num)
    _ ≤ _ := by norm_num

namespace SE3

/-- Velocity along a screw in the small-angle region: the translation's derivative is a vector whose squared length is almost that of the
translation part. -/
theorem exp_vel_tiny {f : ℝ → ℝ} {f' t : ℝ} (x : Twist) (hx : sqNorm (f t • x.1) < tinySquareAngle) (hf : HasDerivAt f f' t) :
    ∃ v, HasDerivAt (fun s => (SE3.exp (f s • x)).2) (f' • v) t ∧ sqNorm x.2 ≤ sqNorm v ∧ sqNorm v ≤ (1 + 1e-24) * sqNorm x.2 := by
  obtain ⟨n, hn⟩ : ∃ n, n = sqNorm x.1 := ⟨_, rfl⟩
  have htiny : ∀ᶠ s in 𝓝 t, sqNorm (f s • x.1) < SO3.tinySquareAngle := by
    have hc : ContinuousAt (fun s => sqNorm (f s • x.1)) t := by
      have : (fun s => sqNorm (f s • x.1)) = fun s => f s ^ 2 * sqNorm x.1 := by funext s; exact SO3.sqNorm_smul _ _
      rw [this]
      exact (hf.continuousAt.pow 2).mul continuousAt_const
    exact hc.eventually (gt_mem_nhds hx)
  let q : ℝ → V3 := fun a => tinyU n a • x.2 + tinyWU n a • (x.1 ⨯₃ x.2) + (tinyWW n a * (x.1 ⬝ᵥ x.2)) • x.1
  let q' : ℝ → V3 := fun a => tinyU' n a • x.2 + tinyWU' n a • (x.1 ⨯₃ x.2) + (tinyWW' n a * (x.1 ⬝ᵥ x.2)) • x.1
  have hq : ∀ a, HasDerivAt q (q' a) a := fun a =>
    (((tinyU_deriv n a).smul_const x.2).add ((tinyWU_deriv n a).smul_const _)).add
      (((tinyWW_deriv n a).mul_const (x.1 ⬝ᵥ x.2)).smul_const x.1)
  refine ⟨q' (f t), ?_, ?_⟩
  · have h := (hq (f t)).scomp t hf
    refine h.congr_of_eventuallyEq ?_
    filter_upwards [htiny] with s hs
    rw [exp_tiny x _ hs, ← hn]
    rfl
  · rw [SO3.sqNorm_smul, ← hn] at hx
    have hn0 : 0 ≤ n := hn ▸ SO3.sqNorm_nonneg _
    have hd := dot_sq_le x.2 x.1
    have hu := SO3.sqNorm_nonneg x.2
    have key : sqNorm (q' (f t)) = sqNorm x.2 + (f t ^ 2 * n) ^ 3 * (1 / 2880 - (f t ^ 2 * n) / 21600 + (f t ^ 2 * n) ^ 2 / 518400) *
        (f t ^ 2 * (n * sqNorm x.2 - (x.1 ⬝ᵥ x.2) ^ 2)) := by
      simp only [q', sqNorm_comb, ← hn, tinyU', tinyWU', tinyWW']
      ring
    rw [← hn] at hd
    obtain ⟨Q, hQ⟩ : ∃ Q, Q = f t ^ 2 * n := ⟨_, rfl⟩
    have hQ0 : 0 ≤ Q := hQ ▸ mul_nonneg (sq_nonneg _) hn0
    rw [← hQ] at hx key
    have hQ1 : Q < 4e-6 := hx
    obtain ⟨p0, p1⟩ := speed_poly hQ0 hQ1
    have k0 : 0 ≤ 1 / 2880 - Q / 21600 + Q ^ 2 / 518400 := by nlinarith
    have d0 : 0 ≤ f t ^ 2 * (n * sqNorm x.2 - (x.1 ⬝ᵥ x.2) ^ 2) := mul_nonneg (sq_nonneg _) (by linarith)
    have d1 : f t ^ 2 * (n * sqNorm x.2 - (x.1 ⬝ᵥ x.2) ^ 2) ≤ Q * sqNorm x.2 := by
      rw [hQ]; nlinarith [mul_nonneg (sq_nonneg (f t)) (sq_nonneg (x.1 ⬝ᵥ x.2))]
    have c0 : 0 ≤ Q ^ 3 * (1 / 2880 - Q / 21600 + Q ^ 2 / 518400) := mul_nonneg (by positivity) k0
    rw [key]
    constructor
    · linarith [mul_nonneg c0 d0]
    · have e1 := mul_le_mul_of_nonneg_left d1 c0
      have e2 : Q ^ 3 * (1 / 2880 - Q / 21600 + Q ^ 2 / 518400) * (Q * sqNorm x.2) =
          Q ^ 4 * (1 / 2880 - Q / 21600 + Q ^ 2 / 518400) * sqNorm x.2 := by ring
      have e3 := mul_le_mul_of_nonneg_right p1 hu
      linarith

/-- Velocity along a screw outside the small-angle region. -/
theorem exp_vel_exact {f : ℝ → ℝ} {f' t : ℝ} (x : Twist) (hx : x.1 = 0 ∨ tinySquareAngle < sqNorm (f t • x.1))
    (hf : ∀ s, HasDerivAt f f' s) :
    HasDerivAt (fun s => (SE3.exp (f s • x)).2) (f' • (SO3.exp (f t • x.1) *ᵥ x.2)) t := by
  obtain ⟨vel, h1, h2, -⟩ := SE3.exp_jet (f' := fun _ => f') (f'' := 0) x hx (Filter.Eventually.of_forall hf) (hasDerivAt_const _ _)
  have h3 := poseMatrix_has (g := fun s => SE3.exp (f s • x)) (F' := twistHat (vel t) * poseMatrix (SE3.exp (f t • x))) h1.self_of_nhds
  have h4 := h3.2
  rw [h2] at h4
  refine h4.congr_deriv ?_
  have he : poseMatrix (SE3.exp (f t • x)) = NormedSpace.exp (f t • twistHat x) := by
    rw [show f t • twistHat x = twistHat (f t • x) from (se3Rep.hat_smul _ _).symm]
    exact SE3.exp_eq_matrix_exp (f t • x).1 (f t • x).2 (by
      rcases hx with h | h
      · left; simp [h]
      · exact .inr h.le)
  have hcomm : twistHat x * poseMatrix (SE3.exp (f t • x)) = poseMatrix (SE3.exp (f t • x)) * twistHat x := by
    rw [he]
    exact (((Commute.refl (twistHat x)).smul_right (f t)).exp_right)
  rw [se3Rep.hat_smul, smul_mul, hcomm]
  funext i
  simp only [poseMatrix, homogeneous, twistHat, SE3.twistMatrix_eq, fromBlocks_multiply, Matrix.smul_apply, fromBlocks_apply₁₂, Pi.smul_apply]
  congr 1
  simp [Matrix.mul_apply, mulVec, dotProduct, SE3.exp]

/-- Poses along a screw are continuous in the amount at zero and outside the small-angle region. -/
theorem exp_cont {f : ℝ → ℝ} {f' t : ℝ} (x : Twist) (hx : x.1 = 0 ∨ f t = 0 ∨ tinySquareAngle < sqNorm (f t • x.1))
    (hf : ∀ s, HasDerivAt f f' s) : ContinuousAt (fun s => SE3.exp (f s • x)) t := by
  have hj : HasLeftJet poseMatrix twistHat (fun s => SE3.exp (f s • x)) t (f' • x) ((0 : ℝ) • x) := by
    rcases hx with h | h | h
    · exact SE3.exp_jet (f' := fun _ => f') x (.inl h) (Filter.Eventually.of_forall hf) (hasDerivAt_const _ _)
    · exact SE3.exp_jet_zero (f' := fun _ => f') x h (Filter.Eventually.of_forall hf) (hasDerivAt_const _ _)
    · exact SE3.exp_jet (f' := fun _ => f') x (.inr h) (Filter.Eventually.of_forall hf) (hasDerivAt_const _ _)
  obtain ⟨vel, h1, -⟩ := hj
  have := poseMatrix_has (g := fun s => SE3.exp (f s • x)) (F' := twistHat (vel t) * poseMatrix (SE3.exp (f t • x))) h1.self_of_nhds
  have hR : ContinuousAt (fun s => (SE3.exp (f s • x)).1) t :=
    continuousAt_pi.mpr fun i => continuousAt_pi.mpr fun j => (this.1 i j).continuousAt
  exact hR.prodMk this.2.continuousAt

end SE3

namespace DCurve
variable {G A V : Type} [AddCommGroup A] [Module ℝ A] {L : LieOps ℝ G A V} {arc : G → ℝ} {valid : G → Prop}

/-- The value on a piece at the arc length `s`. -/
noncomputable def valueOn (L : LieOps ℝ G A V) (a b : DControl G) (s : ℝ) : G :=
  L.mul a.pose.val (L.exp (L.smul ((s - a.arcLength) / (b.arcLength - a.arcLength)) (L.log (L.mul (L.inv a.pose.val) b.pose.val))))

/-- All controls have the same frames. -/
def Uniform (c : DCurve G) : Prop := ∀ p ∈ c.controls, ∀ q ∈ c.controls, p.pose.into = q.pose.into ∧ p.pose.src = q.pose.src

theorem valueOn_orig (H : LieLaws L valid) (hexp : L.exp 0 = L.one) (a b : DControl G) : valueOn L a b a.arcLength = a.pose.val := by
  unfold valueOn
  rw [sub_self, zero_div, H.smul_eq, zero_smul, hexp, H.mul_one]

theorem valueOn_dest (H : LieLaws L valid) (a b : DControl G) (h : a.arcLength < b.arcLength) (ha : valid a.pose.val)
    (hlog : L.exp (L.log (L.mul (L.inv a.pose.val) b.pose.val)) = L.mul (L.inv a.pose.val) b.pose.val) :
    valueOn L a b b.arcLength = b.pose.val := by
  unfold valueOn
  rw [div_self (sub_ne_zero.mpr h.ne'), H.smul_eq, one_smul, hlog, ← H.mul_assoc, H.mul_inv ha, H.one_mul]

omit [AddCommGroup A] [Module ℝ A] in
theorem onPiece_value {a b : DControl G} (ha : Whole a.pose) (hb : Whole b.pose) (h1 : a.pose.into = b.pose.into)
    (h2 : a.pose.src = b.pose.src) (s : ℝ) : onPiece L a b s = .ok ⟨valueOn L a b s, a.pose.into, a.pose.src⟩ := by
  obtain ⟨f1, f2, e, hf⟩ := onPiece_eq L ha hb s
  obtain ⟨rfl, rfl⟩ := hf h1 h2
  exact e

/-- On the closed range of any piece the query is the piece's value. -/
theorem pointAt_on_piece (H : LieLaws L valid) (hexp : L.exp 0 = L.one) {c : DCurve G} (hc : Inv L arc c) (hu : Uniform c)
    (hv : ∀ p ∈ c.controls, valid p.pose.val)
    (hpos : ∀ (i : Nat) (hi : i + 1 < c.controls.length), c.controls[i].arcLength < c.controls[i + 1].arcLength)
    (hlog : ∀ (i : Nat) (hi : i + 1 < c.controls.length), L.exp (L.log (L.mul (L.inv c.controls[i].pose.val) c.controls[i + 1].pose.val)) =
      L.mul (L.inv c.controls[i].pose.val) c.controls[i + 1].pose.val)
    {i : Nat} (hi : i + 1 < c.controls.length) {s : ℝ} (h0 : c.controls[i].arcLength ≤ s) (h1 : s ≤ c.controls[i + 1].arcLength) :
    pointAt L c s = .ok ⟨valueOn L c.controls[i] c.controls[i + 1] s, c.controls[i].pose.into, c.controls[i].pose.src⟩ := by
  have hmono : ∀ {i j : Nat} (hj : j < c.controls.length) (hij : i < j), c.controls[i].arcLength < c.controls[j].arcLength := by
    intro i j hj hij
    induction j with
    | zero => omega
    | succ j ih =>
      rcases Nat.lt_or_ge i j with h | h
      · exact (ih (by omega) h).trans (hpos j hj)
      · obtain rfl : i = j := by omega
        exact hpos i hj
  have hle : ∀ {i j : Nat} (hj : j < c.controls.length) (hij : i ≤ j), c.controls[i].arcLength ≤ c.controls[j].arcLength := by
    intro i j hj hij
    rcases hij.lt_or_eq with h | rfl
    · exact (hmono hj h).le
    · exact le_refl _
  have hs0 : 0 ≤ s := by
    rw [← hc.zero L arc (by omega)]
    exact (hle (by omega) (Nat.zero_le i)).trans h0
  have hs1 : s ≤ curveLength c := by
    rw [curveLength_eq (List.length_pos_iff.mp (by omega))]
    exact h1.trans (hle (by omega) (by omega))
  obtain ⟨j, hj, j0, j1, j2, j3, -⟩ := pointAt_inside L arc hc (by omega) hs0 hs1
  rw [j3 (hpos j hj), onPiece_value (hc.whole _ (List.getElem_mem _)) (hc.whole _ (List.getElem_mem _))
    (hu _ (List.getElem_mem _) _ (List.getElem_mem _)).1 (hu _ (List.getElem_mem _) _ (List.getElem_mem _)).2]
  have hf := hu _ (List.getElem_mem (show j < c.controls.length by omega)) _ (List.getElem_mem (show i < c.controls.length by omega))
  congr 1
  rw [hf.1, hf.2]
  congr 1
  rcases Nat.lt_trichotomy j i with h | h | h
  · have h2 : c.controls[j + 1].arcLength ≤ c.controls[i].arcLength := hle (by omega) h
    have e1 : s = c.controls[i].arcLength := le_antisymm (j1.trans h2) h0
    have e2 : s = c.controls[j + 1].arcLength := le_antisymm j1 (h2.trans h0)
    have e3 : j + 1 = i := by
      by_contra hne
      exact absurd (hmono (i := j + 1) (j := i) (by omega) (by omega)) (by rw [← e1, ← e2]; exact lt_irrefl _)
    subst e3
    rw [e1, valueOn_orig H hexp, valueOn_dest H _ _ (hpos j hj) (hv _ (List.getElem_mem _)) (hlog j hj)]
  · subst h; rfl
  · exfalso
    have h2 : c.controls[i + 1].arcLength ≤ c.controls[j].arcLength := hle (by omega) h
    rcases j2 with j2 | j2
    · omega
    · linarith

omit [AddCommGroup A] [Module ℝ A] in
/-- Strictly inside a piece the query is the piece's value, whatever the other pieces are. -/
theorem pointAt_strict {c : DCurve G} (hc : Inv L arc c) (harc : ∀ g, 0 ≤ arc g) {i : Nat} (hi : i + 1 < c.controls.length) {s : ℝ}
    (h0 : c.controls[i].arcLength < s) (h1 : s < c.controls[i + 1].arcLength) :
    ∃ g, pointAt L c s = .ok g ∧ g.val = valueOn L c.controls[i] c.controls[i + 1] s := by
  have hs0 : 0 ≤ s := by
    rw [← hc.zero L arc (by omega)]
    exact (hc.le L arc harc (by omega) (Nat.zero_le i)).trans h0.le
  have hs1 : s ≤ curveLength c := by
    rw [curveLength_eq (List.length_pos_iff.mp (by omega))]
    exact h1.le.trans (hc.le L arc harc (by omega) (by omega))
  obtain ⟨j, hj, j0, j1, j2, j3, -⟩ := pointAt_inside L arc hc (by omega) hs0 hs1
  obtain rfl : j = i := by
    by_contra hne
    rcases Nat.lt_or_gt_of_ne hne with h | h
    · have := hc.le L arc harc (i := j + 1) (j := i) (by omega) h
      linarith
    · have := hc.le L arc harc (i := i + 1) (j := j) (by omega) h
      linarith
  obtain ⟨f1, f2, e, -⟩ := onPiece_eq L (hc.whole _ (List.getElem_mem (show j < c.controls.length by omega)))
    (hc.whole _ (List.getElem_mem hj)) s
  exact ⟨_, (j3 (h0.trans h1)).trans e, rfl⟩

/-- The squared length of a velocity that a pose turns and `k` stretches. -/
theorem mul_vel {a : Pose} {f : ℝ → Pose} {v : V3} {t : ℝ} (h : HasDerivAt (fun s => (f s).2) v t) :
    HasDerivAt (fun s => (SE3.mul a (f s)).2) (a.1 *ᵥ v) t := by
  have h1 : HasDerivAt (fun s => a.1 *ᵥ (f s).2) (a.1 *ᵥ v) t := by
    have := MHas.mulVec (F := fun _ => a.1) (MHas.const a.1) h
    simpa using this
  exact h1.add_const a.2

/-- The velocity on a piece of a curve in SE3. -/
theorem valueOn_vel {a b : DControl Pose} (ha : IsRotation a.pose.val.1) (hlen : 0 < b.arcLength - a.arcLength)
    (harc : b.arcLength - a.arcLength = SE3.arcLength (SE3.ops.mul (SE3.ops.inv a.pose.val) b.pose.val)) {s w : ℝ}
    (hw : w = (s - a.arcLength) / (b.arcLength - a.arcLength)) {x : Twist} (hx : x = SE3.log (SE3.ops.mul (SE3.ops.inv a.pose.val) b.pose.val)) :
    ((x.1 = 0 ∨ tinySquareAngle < sqNorm (w • x.1)) → ∃ v, HasDerivAt (fun r => (valueOn SE3.ops a b r).2) v s ∧ eucNorm v = 1) ∧
    (sqNorm (w • x.1) < tinySquareAngle → ∃ v, HasDerivAt (fun r => (valueOn SE3.ops a b r).2) v s ∧ 1 ≤ eucNorm v ∧ eucNorm v ≤ 1 + 1e-24) := by
  obtain ⟨ℓ, hℓ⟩ : ∃ ℓ, ℓ = b.arcLength - a.arcLength := ⟨_, rfl⟩
  rw [← hℓ] at hlen harc hw
  have hf : ∀ r, HasDerivAt (fun r => (r - a.arcLength) / ℓ) ℓ⁻¹ r := fun r => by
    simpa using ((hasDerivAt_id r).sub_const a.arcLength).div_const ℓ
  have hu : eucNorm x.2 = ℓ := by rw [harc, hx]; rfl
  have hval : (fun r => (valueOn SE3.ops a b r).2) = fun r => (SE3.mul a.pose.val (SE3.exp (((r - a.arcLength) / ℓ) • x))).2 := by
    funext r
    rw [hℓ, hx]
    rfl
  rw [hval]
  refine ⟨fun h => ?_, fun h => ?_⟩
  · refine ⟨_, mul_vel (f := fun r => SE3.exp (((r - a.arcLength) / ℓ) • x)) (SE3.exp_vel_exact x (by rw [hw] at h; exact h) hf), ?_⟩
    rw [SO3.eucNorm_mulVec ha, SO3.eucNorm_smul, SO3.eucNorm_mulVec (SO3.isRotation_exp _), hu, abs_of_pos (inv_pos.mpr hlen),
      inv_mul_cancel₀ hlen.ne']
  · obtain ⟨v, h1, h2, h3⟩ := SE3.exp_vel_tiny (f := fun r => (r - a.arcLength) / ℓ) (t := s) x (by rw [hw] at h; exact h) (hf s)
    have n0 := SO3.eucNorm_nonneg v
    have e1 : ℓ ≤ eucNorm v := by
      rw [← hu]; exact Real.sqrt_le_sqrt h2
    have e2 : eucNorm v ≤ (1 + 1e-24) * ℓ := by
      refine abs_le_of_sq_le_sq' (?_ : eucNorm v ^ 2 ≤ ((1 + 1e-24) * ℓ) ^ 2) (by positivity) |>.2
      rw [SO3.eucNorm_sq]
      have h4 : sqNorm x.2 = ℓ ^ 2 := by rw [← SO3.eucNorm_sq, hu]
      rw [h4] at h3
      nlinarith [sq_nonneg ℓ]
    refine ⟨_, mul_vel (f := fun r => SE3.exp (((r - a.arcLength) / ℓ) • x)) h1, ?_⟩
    rw [SO3.eucNorm_mulVec ha, SO3.eucNorm_smul, abs_of_pos (inv_pos.mpr hlen), inv_mul_eq_div, le_div_iff₀ hlen, div_le_iff₀ hlen]
    exact ⟨by linarith, e2⟩

end DCurve
end Verif
