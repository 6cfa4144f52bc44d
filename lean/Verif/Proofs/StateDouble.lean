import Verif.Model.StateDouble
import Verif.Spec.StateDouble
import Verif.Proofs.TrajectoryDouble
/-! # Errors of composed and relative states -/
namespace Verif.StateDouble
open Verif.Spec hiding Jet
open Verif.TransformDouble Verif.ExpDouble Verif.LogDouble Verif.TCurveDouble Verif.TrajectoryDouble Verif.Binary64 Matrix SO3

variable {ε B : ℝ}

/-- A state with its errors and sizes. -/
structure SNear (ε B : ℝ) (e f τ : ℝ) (e₁ f₁ p₁ q₁ : ℝ) (e₂ f₂ p₂ q₂ : ℝ) (s : State) (S : Pose × Twist × Twist) : Prop where
  g : PNear ε B e f τ s.g S.1
  d : TNear ε B e₁ f₁ p₁ q₁ s.d S.2.1
  d2 : TNear ε B e₂ f₂ p₂ q₂ s.d2 S.2.2

noncomputable def compose (S S' : Pose × Twist × Twist) : Pose × Twist × Twist :=
  (SE3.mul S.1 S'.1, S'.2.1 + SE3.adjointTimes (SE3.inv S'.1) S.2.1,
    S'.2.2 + SE3.adjointTimes (SE3.inv S'.1) S.2.2 + -SE3.bracket S'.2.1 (SE3.adjointTimes (SE3.inv S'.1) S.2.1))

noncomputable def invert (S : Pose × Twist × Twist) : Pose × Twist × Twist :=
  (SE3.inv S.1, -SE3.adjointTimes S.1 S.2.1, -SE3.adjointTimes S.1 S.2.2)

theorem TNear.neg {e f p q : ℝ} {y : Tangent} {x : Twist} (h : TNear ε B e f p q y x) : TNear ε B e f p q (-y) (-x) := by
  have e : ∀ (v : Fin 3 → ℚ) (w : V3), eucNorm (realVec (-v) - -w) = eucNorm (realVec v - w) := fun v w => by
    rw [realVec_neg, ← eucNorm_neg]; congr 1; abel
  refine ⟨?_, ?_, ?_, ?_, h.e1, h.f1⟩
  · change eucNorm (realVec (-y.1) - -x.1) ≤ _
    rw [e]; exact h.r
  · change eucNorm (realVec (-y.2) - -x.2) ≤ _
    rw [e]; exact h.t
  · change eucNorm (-x.1) ≤ _
    rw [eucNorm_neg]; exact h.rn
  · change eucNorm (-x.2) ≤ _
    rw [eucNorm_neg]; exact h.tn

/-- Errors of the inverse of a pose. -/
theorem pinv_near (C : Ctx ε B) {e f τ f' : ℝ} {g c : Stored} {G : Pose} (h : PNear ε B e f τ g G) (hc : Inverse g c)
    (hf : (e + 0.61) * (τ + 0.001) + f + 0.001 ≤ f') (hf1 : f' ≤ 1e6) : PNear ε B e f' τ c (SE3.inv G) := by
  have hU := C.hU
  have hH := C.hH
  have hB := C.bpos
  have hε := C.pos
  obtain ⟨k1, k2⟩ := inverse_near h.rotation h.r h.t h.n hc
  have e0 := turnsAlike_nonneg h.r
  have e1 := C.slack h.e1
  have f1 := C.slack h.f1
  have n0 := (eucNorm_nonneg _).trans (h.n' C)
  refine ⟨?_, k1, k2.trans ?_, ?_, h.e1, hf1⟩
  · rw [inv_eq]; exact isRotation_transpose h.rotation
  · have m1 : 6.002 * U * (1 + e * ε) + e * ε ≤ (e + 0.61) * ε := by
      have : U * (e * ε) ≤ U * 0.001 := mul_le_mul_of_nonneg_left e1 hU.1
      linarith
    have m2 : τ * B + f * ε * B ≤ (τ + 0.001) * B := by
      rw [add_mul]
      have := mul_le_mul_of_nonneg_right f1 hB.le
      linarith
    have z : 0 ≤ 6.002 * U * (1 + e * ε) + e * ε := by
      have := mul_nonneg hU.1 e0
      linarith
    have m3 := (mul_le_mul_of_nonneg_left m2 z).trans (mul_le_mul_of_nonneg_right m1 n0)
    have m4 := mul_le_mul_of_nonneg_right (mul_le_mul_of_nonneg_right hf hε.le) hB.le
    have p := mul_pos hε hB
    linarith only [m3, m4, hH.2.2, p]
  · rw [inv_eq]
    change eucNorm (-(G.1ᵀ *ᵥ G.2)) ≤ _
    rw [eucNorm_neg, eucNorm_mulVec (isRotation_transpose h.rotation)]
    exact h.n

theorem relative_compose {S S' : Pose × Twist × Twist} (h : IsRotation S.1.1) (h' : IsRotation S'.1.1) : compose S (compose (invert S) S') = S' := by
  have L := SE3.xlaws
  have v : PoseValid S.1 := h
  have v' : PoseValid S'.1 := h'
  have a1 : SE3.mul S.1 (SE3.mul (SE3.inv S.1) S'.1) = S'.1 := by
    change SE3.xops.mul S.1 (SE3.xops.mul (SE3.xops.inv S.1) S'.1) = S'.1
    rw [← L.mul_assoc, L.mul_inv v, L.one_mul]
  have a2 : ∀ x, SE3.adjointTimes (SE3.inv (SE3.mul (SE3.inv S.1) S'.1)) x = SE3.adjointTimes (SE3.inv S'.1) (SE3.adjointTimes S.1 x) := by
    intro x
    change SE3.xops.Ad (SE3.xops.inv (SE3.xops.mul (SE3.xops.inv S.1) S'.1)) x = SE3.xops.Ad (SE3.xops.inv S'.1) (SE3.xops.Ad S.1 x)
    rw [L.inv_mul_rev (L.valid_inv v) v', L.inv_inv v, L.Ad_mul (L.valid_inv v') v]
  have a3 : ∀ G x, SE3.adjointTimes G (-x) = -SE3.adjointTimes G x := fun G x => L.Ad_neg G x
  have a4 : ∀ x y, SE3.bracket x (-y) = -SE3.bracket x y := fun x y => L.ad_neg_right x y
  have a5 : ∀ x y z, SE3.bracket (x + y) z = SE3.bracket x z + SE3.bracket y z := fun x y z => L.ad_add_left x y z
  have a6 : ∀ x, SE3.bracket x x = 0 := fun x => L.ad_self x
  have a7 : ∀ x y, SE3.bracket (-x) y = -SE3.bracket x y := fun x y => L.ad_neg_left x y
  unfold compose invert
  refine Prod.ext a1 (Prod.ext ?_ ?_)
  · change _ + SE3.adjointTimes (SE3.inv (SE3.mul (SE3.inv S.1) S'.1)) S.2.1 = _
    simp only [a2, a3]; abel
  · change _ + SE3.adjointTimes (SE3.inv (SE3.mul (SE3.inv S.1) S'.1)) S.2.2 + -SE3.bracket _ (SE3.adjointTimes (SE3.inv (SE3.mul (SE3.inv S.1) S'.1)) S.2.1) = _
    simp only [a2, a3, a4, a5, a6, a7]; abel

theorem invert_compose {S : Pose × Twist × Twist} (h : IsRotation S.1.1) : compose (invert S) S = ((1, 0), 0, 0) := by
  have L := SE3.xlaws
  have v : PoseValid S.1 := h
  have a1 : SE3.mul (SE3.inv S.1) S.1 = (1, 0) := L.inv_mul v
  have a2 : ∀ x, SE3.adjointTimes (SE3.inv S.1) (SE3.adjointTimes S.1 x) = x := fun x => L.Ad_inv_Ad v x
  have a3 : ∀ G x, SE3.adjointTimes G (-x) = -SE3.adjointTimes G x := fun G x => L.Ad_neg G x
  have a4 : ∀ x y, SE3.bracket x (-y) = -SE3.bracket x y := fun x y => L.ad_neg_right x y
  have a6 : ∀ x, SE3.bracket x x = 0 := fun x => L.ad_self x
  unfold compose invert
  refine Prod.ext a1 (Prod.ext ?_ ?_)
  · simp only [a2, a3]; abel
  · simp only [a2, a3, a4, a6]; abel

/-- Errors of a product of states. -/
theorem composed_near (C : Ctx ε B) {ea fa τa ea₁ fa₁ pa₁ qa₁ ea₂ fa₂ pa₂ qa₂ eb fb τb eb₁ fb₁ pb₁ qb₁ eb₂ fb₂ pb₂ qb₂ : ℝ}
    {a b c : State} {S S' : Pose × Twist × Twist} (ha : SNear ε B ea fa τa ea₁ fa₁ pa₁ qa₁ ea₂ fa₂ pa₂ qa₂ a S)
    (hb : SNear ε B eb fb τb eb₁ fb₁ pb₁ qb₁ eb₂ fb₂ pb₂ qb₂ b S') (hc : Composed a b c) (fi er fr er₂ fr₂ es fs ez fz e f e₁ f₁ e₂ f₂ : ℝ)
    (i1 : (eb + 0.61) * (τb + 0.001) + fb + 0.001 ≤ fi) (i2 : fi ≤ 1e6)
    (r1 : ea₁ + (eb + 0.61) * (pa₁ + 0.001) + 0.001 ≤ er)
    (r2 : 1.01 * ((τb + 0.001) * (pa₁ + 0.002) + 1.001 * (qa₁ + 0.001)) + fi * (pa₁ + 0.002) + τb * er + eb * (qa₁ + 0.001) + fa₁ + 0.001 ≤ fr)
    (r3 : er ≤ 1e6) (r4 : fr ≤ 1e6)
    (q1 : ea₂ + (eb + 0.61) * (pa₂ + 0.001) + 0.001 ≤ er₂)
    (q2 : 1.01 * ((τb + 0.001) * (pa₂ + 0.002) + 1.001 * (qa₂ + 0.001)) + fi * (pa₂ + 0.002) + τb * er₂ + eb * (qa₂ + 0.001) + fa₂ + 0.001 ≤ fr₂)
    (q3 : er₂ ≤ 1e6) (q4 : fr₂ ≤ 1e6)
    (s1 : eb₂ + er₂ + 0.2 * (pb₂ + pa₂ + 0.002) + 1e-6 ≤ es) (s2 : fb₂ + fr₂ + 0.2 * (qb₂ + (τb * pa₂ + qa₂) + 0.002) + 1e-6 ≤ fs)
    (s3 : es ≤ 1e6) (s4 : fs ≤ 1e6)
    (z1 : eb₁ * (pa₁ + 0.001) + pb₁ * er + 0.41 * ((pb₁ + 0.001) * (pa₁ + 0.001)) + 0.001 ≤ ez)
    (z2 : fb₁ * (pa₁ + 0.001) + qb₁ * er + eb₁ * (τb * pa₁ + qa₁ + 0.001) + pb₁ * fr +
      0.81 * ((qb₁ + 0.001) * (pa₁ + 0.001) + (pb₁ + 0.001) * (τb * pa₁ + qa₁ + 0.001)) + 0.001 ≤ fz)
    (z3 : ez ≤ 1e6) (z4 : fz ≤ 1e6)
    (g1 : 1.003 * (ea + eb + 1) ≤ e) (g2 : 0.81 * (1.001 * (τb + 0.001) + τa + 0.001) + 0.001 + ea * (τb + 0.001) + fb + fa ≤ f)
    (g3 : e ≤ 1e6) (g4 : f ≤ 1e6)
    (d1 : eb₁ + er + 0.2 * (pb₁ + pa₁ + 0.002) + 1e-6 ≤ e₁) (d2 : fb₁ + fr + 0.2 * (qb₁ + (τb * pa₁ + qa₁) + 0.002) + 1e-6 ≤ f₁)
    (d3 : e₁ ≤ 1e6) (d4 : f₁ ≤ 1e6)
    (a1 : es + ez + 0.2 * (pb₂ + pa₂ + pb₁ * pa₁ + 0.002) + 1e-6 ≤ e₂)
    (a2 : fs + fz + 0.2 * (qb₂ + (τb * pa₂ + qa₂) + (qb₁ * pa₁ + pb₁ * (τb * pa₁ + qa₁)) + 0.002) + 1e-6 ≤ f₂) (a3 : e₂ ≤ 1e6) (a4 : f₂ ≤ 1e6) :
    SNear ε B e f (τa + τb) e₁ f₁ (pb₁ + pa₁) (qb₁ + (τb * pa₁ + qa₁)) e₂ f₂ (pb₂ + pa₂ + pb₁ * pa₁)
      (qb₂ + (τb * pa₂ + qa₂) + (qb₁ * pa₁ + pb₁ * (τb * pa₁ + qa₁))) c (compose S S') := by
  obtain ⟨h1, ⟨i, r, h2, h3, h4⟩, j, j', r', r2', s, z, k1, k2, k3, k4, k5, k6, k7⟩ := hc
  refine ⟨pmul_near C ha.g hb.g h1 g1 g2 g3 g4, ?_, ?_⟩
  · exact added_near C hb.d (ad_near C (pinv_near C hb.g h2 i1 i2) ha.d h3 r1 r2 r3 r4) h4 d1 d2 d3 d4
  · have n1 := ad_near C (pinv_near C hb.g k1 i1 i2) ha.d2 k3 q1 q2 q3 q4
    have n2 := added_near C hb.d2 n1 k4 s1 s2 s3 s4
    have n3 := ad_near C (pinv_near C hb.g k2 i1 i2) ha.d k5 r1 r2 r3 r4
    have n4 := TNear.neg (bracket_near C hb.d n3 k6 z1 z2 z3 z4)
    exact added_near C n2 n4 k7 a1 a2 a3 a4

theorem stored_near {δ : ℝ} (hδ : δ ≤ 1e-10) (hB : 2 ^ (-1000 : ℤ) ≤ B) {s : State} {S : Pose × Twist × Twist} (h : StoresState δ B s S) :
    Ctx (δ + 10 * U) B ∧ SNear (δ + 10 * U) B 1 1 1 1 1 10 1 1 1 10 1 s S := by
  have hU := U_pos
  have hδ0 : 0 ≤ δ := turnsAlike_nonneg h.pose.rot
  have C := ctx hδ0 hδ hB
  have l : δ * B ≤ 1 * (δ + 10 * U) * B := mul_le_mul_of_nonneg_right (by linarith) C.bpos.le
  have l' : δ ≤ 1 * (δ + 10 * U) := by linarith
  refine ⟨C, ⟨h.pose.rotation, turnsAlike_mono h.pose.rot l', h.pose.trans.trans l, by rw [one_mul]; exact h.pose.bound, by norm_num, by norm_num⟩, ?_, ?_⟩
  · exact ⟨h.velocity.rot.trans l', h.velocity.trans.trans l, h.velocity.turn, by rw [one_mul]; exact h.velocity.bound, by norm_num, by norm_num⟩
  · exact ⟨h.acceleration.rot.trans l', h.acceleration.trans.trans l, h.acceleration.turn, by rw [one_mul]; exact h.acceleration.bound, by norm_num,
      by norm_num⟩

theorem composed_stored (C : Ctx ε B) {a b c : State} {S S' : Pose × Twist × Twist} (ha : SNear ε B 1 1 1 1 1 10 1 1 1 10 1 a S)
    (hb : SNear ε B 1 1 1 1 1 10 1 1 1 10 1 b S') (hc : Composed a b c) :
    SNear ε B 3.01 4.63 (1 + 1) 22.3 60.1 (10 + 10) (1 + (1 * 10 + 1)) 269.6 788.3 (10 + 10 + 10 * 10) (1 + (1 * 10 + 1) + (1 * 10 + 10 * (1 * 10 + 1)))
      c (compose S S') := by
  refine composed_near C ha hb hc 2.62 17.2 56.6 17.2 56.6 22.3 60.1 223.1 701.6 _ _ _ _ _ _ ?_ ?_ ?_ ?_ ?_ ?_ ?_ ?_ ?_ ?_ ?_ ?_ ?_ ?_ ?_ ?_ ?_ ?_ ?_ ?_ ?_ ?_ ?_ ?_
    ?_ ?_ ?_ ?_ ?_ ?_ <;> norm_num

theorem reversed_stored (C : Ctx ε B) {a c : State} {S : Pose × Twist × Twist} (ha : SNear ε B 1 1 1 1 1 10 1 1 1 10 1 a S) (hc : Reversed a c) :
    SNear ε B 1 2.62 1 17.2 40.4 10 (1 * 10 + 1) 17.2 40.4 10 (1 * 10 + 1) c (invert S) := by
  obtain ⟨h1, ⟨r, h2, h3⟩, r', h4, h5⟩ := hc
  refine ⟨pinv_near C ha.g h1 (by norm_num) (by norm_num), ?_, ?_⟩
  · rw [h3]
    exact TNear.neg (ad_near C ha.g ha.d h2 (by norm_num) (by norm_num) (by norm_num) (by norm_num))
  · rw [h5]
    exact TNear.neg (ad_near C ha.g ha.d2 h4 (by norm_num) (by norm_num) (by norm_num) (by norm_num))

theorem relative_stored (C : Ctx ε B) {a b c : State} {S S' : Pose × Twist × Twist} (ha : SNear ε B 1 1 1 1 1 10 1 1 1 10 1 a S)
    (hb : SNear ε B 1 1 1 1 1 10 1 1 1 10 1 b S') (hc : Relative a b c) :
    SNear ε B 3.01 6.25 2 38.5 137.8 20 22 447.7 1752 120 242 c (compose (invert S) S') := by
  obtain ⟨i, h1, h2⟩ := hc
  have := composed_near C (reversed_stored C ha h1) hb h2 2.62 33.4 132.3 33.4 132.3 38.5 137.8 385.1 1565.7 3.01 6.25 38.5 137.8 447.7 1752
    (by norm_num) (by norm_num) (by norm_num) (by norm_num) (by norm_num) (by norm_num) (by norm_num) (by norm_num) (by norm_num) (by norm_num)
    (by norm_num) (by norm_num) (by norm_num) (by norm_num) (by norm_num) (by norm_num) (by norm_num) (by norm_num) (by norm_num) (by norm_num)
    (by norm_num) (by norm_num) (by norm_num) (by norm_num) (by norm_num) (by norm_num) (by norm_num) (by norm_num) (by norm_num) (by norm_num)
  exact ⟨this.g.mono C le_rfl le_rfl (by norm_num) (by norm_num) (by norm_num),
    this.d.mono C le_rfl le_rfl (by norm_num) (by norm_num) (by norm_num) (by norm_num),
    this.d2.mono C le_rfl le_rfl (by norm_num) (by norm_num) (by norm_num) (by norm_num)⟩

theorem roundtrip_stored (C : Ctx ε B) {a b c d : State} {S S' : Pose × Twist × Twist} (ha : SNear ε B 1 1 1 1 1 10 1 1 1 10 1 a S)
    (hb : SNear ε B 1 1 1 1 1 10 1 1 1 10 1 b S') (hc : Relative a b c) (hd : Composed a c d) :
    ∃ τ p q p' q', SNear ε B 5.03 11.7 τ 81.9 381.4 p q 1790.5 10444.5 p' q' d S' := by
  have k := composed_near C ha (relative_stored C ha hb hc) hd 13.5 37.3 234.9 37.3 234.9 511.1 2039.6 1213.2 8223.9 5.03 11.7 81.9 381.4 1790.5 10444.5
    (by norm_num) (by norm_num) (by norm_num) (by norm_num) (by norm_num) (by norm_num) (by norm_num) (by norm_num) (by norm_num) (by norm_num)
    (by norm_num) (by norm_num) (by norm_num) (by norm_num) (by norm_num) (by norm_num) (by norm_num) (by norm_num) (by norm_num) (by norm_num)
    (by norm_num) (by norm_num) (by norm_num) (by norm_num) (by norm_num) (by norm_num) (by norm_num) (by norm_num) (by norm_num) (by norm_num)
  rw [relative_compose ha.g.rotation hb.g.rotation] at k
  exact ⟨_, _, _, _, _, k⟩

theorem SNear.within {e f τ e₁ f₁ p₁ q₁ e₂ f₂ p₂ q₂ : ℝ} {s : State} {S : Pose × Twist × Twist}
    (h : SNear ε B e f τ e₁ f₁ p₁ q₁ e₂ f₂ p₂ q₂ s S) : StateWithin (e * ε) (f * ε * B) (e₁ * ε) (f₁ * ε * B) (e₂ * ε) (f₂ * ε * B) s S :=
  ⟨h.g.r, h.g.t, h.d.r, h.d.t, h.d2.r, h.d2.t⟩

/-! ### Motions -/

theorem movesThrough_iff {γ : ℝ → Pose} {t : ℝ} {S : Pose × Twist × Twist} :
    MovesThrough γ t S ↔ (∀ r, IsRotation (γ r).1) ∧ γ t = S.1 ∧ HasRightJet poseMatrix twistHat γ t S.2.1 S.2.2 := by
  have k := Props.c48_body_kinematics ⟨⟨⟨S.1, Frame.null, Frame.null⟩, S.2.1, S.2.2⟩⟩ γ t
  constructor
  · intro h
    exact ⟨h.rotation, h.pose, k.mpr h.kinematics⟩
  · rintro ⟨h1, h2, h3⟩
    exact ⟨h1, h2, k.mp h3⟩

theorem moves_compose {γ γ' : ℝ → Pose} {t : ℝ} {S S' : Pose × Twist × Twist} (h : MovesThrough γ t S) (h' : MovesThrough γ' t S') :
    MovesThrough (fun r => SE3.mul (γ r) (γ' r)) t (compose S S') := by
  rw [movesThrough_iff] at h h' ⊢
  refine ⟨fun r => SE3.xlaws.valid_mul (h.1 r) (h'.1 r), ?_, ?_⟩
  · change SE3.mul (γ t) (γ' t) = SE3.mul S.1 S'.1
    rw [h.2.1, h'.2.1]
  · have := SE3.xrep.right_mul (fun r => h.1 r) (fun r => h'.1 r) h.2.2 h'.2.2
    rw [h'.2.1, sub_eq_add_neg] at this
    exact this

theorem moves_invert {γ : ℝ → Pose} {t : ℝ} {S : Pose × Twist × Twist} (h : MovesThrough γ t S) :
    MovesThrough (fun r => SE3.inv (γ r)) t (invert S) := by
  rw [movesThrough_iff] at h ⊢
  refine ⟨fun r => SE3.xlaws.valid_inv (h.1 r), ?_, ?_⟩
  · change SE3.inv (γ t) = SE3.inv S.1
    rw [h.2.1]
  · have := SE3.xrep.right_inv' (fun r => h.1 r) h.2.2
    rw [h.2.1] at this
    exact this

theorem moves_some {S : Pose × Twist × Twist} (h : IsRotation S.1.1) (t : ℝ) : ∃ γ, MovesThrough γ t S := by
  have hp := piece_isPiece (t := t) (t' := t + 1) (by linarith) (J := reversed S) (J' := reversed S) (x := -0) (by
    change IsRotation (SE3.inv S.1).1
    rw [inv_eq]; exact isRotation_transpose h) (by
    have : twistHat (-0) = 0 := by rw [neg_zero]; have := SE3.xrep.hat_smul 0 0; rwa [zero_smul, zero_smul] at this
    rw [this, NormedSpace.exp_zero, Matrix.one_mul]) (by
    rw [neg_zero]
    change eucNorm 0 < _
    rw [eucNorm_zero]; exact Real.pi_pos)
  obtain ⟨-, b⟩ := body_piece h h hp
  exact ⟨_, b.rotation, congrArg Prod.fst b.start, by have := b.kinematics t; rw [b.start] at this; exact this⟩

/-! ### Results exist -/

theorem composed_some (a b : State) : ∃ c, Composed a b c := by
  obtain ⟨g, hg⟩ := mul_some a.g b.g
  obtain ⟨i, hi⟩ := inverse_some b.g
  obtain ⟨r, hr⟩ := adTimes_some i a.d
  obtain ⟨r2, hr2⟩ := adTimes_some i a.d2
  obtain ⟨d, hd⟩ := added_some b.d r
  obtain ⟨s, hs⟩ := added_some b.d2 r2
  obtain ⟨z, hz⟩ := bracket_some b.d r
  obtain ⟨d2, hd2⟩ := added_some s (-z)
  exact ⟨⟨g, d, d2⟩, hg, ⟨i, r, hi, hr, hd⟩, i, i, r, r2, s, z, hi, hi, hr2, hs, hr, hz, hd2⟩

theorem relative_some (a b : State) : ∃ c, Relative a b c := by
  obtain ⟨i, hi⟩ := inverse_some a.g
  obtain ⟨r, hr⟩ := adTimes_some a.g a.d
  obtain ⟨r2, hr2⟩ := adTimes_some a.g a.d2
  obtain ⟨c, hc⟩ := composed_some ⟨i, -r, -r2⟩ b
  exact ⟨c, _, ⟨hi, ⟨r, hr, rfl⟩, r2, hr2, rfl⟩, hc⟩

end Verif.StateDouble
