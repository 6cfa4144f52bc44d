import Verif.Model.TCurveDouble
import Verif.Proofs.DCurveDouble
/-! # Time curves in doubles: the errors of the parts -/
namespace Verif.TCurveDouble
open Verif.Spec Verif.TransformDouble Verif.ExpDouble Verif.LogDouble Verif.SampleIntervalDouble Verif.Props Verif.DCurveDouble Matrix SO3

/-- The unit of error and the size of translations. -/
structure Ctx (ε B : ℝ) : Prop where
  pos : 0 < ε
  small : ε ≤ 1e-9
  unit : 10 * U ≤ ε
  bpos : 0 < B
  tiny : 1048576 * H ≤ U * B

/-- A tangent vector with its errors and sizes, in units of `ε` and `B`. -/
structure TNear (ε B e f p q : ℝ) (y : Tangent) (x : Twist) : Prop where
  r : eucNorm (realVec y.1 - x.1) ≤ e * ε
  t : eucNorm (realVec y.2 - x.2) ≤ f * ε * B
  rn : eucNorm x.1 ≤ p
  tn : eucNorm x.2 ≤ q * B
  e1 : e ≤ 1e6
  f1 : f ≤ 1e6

/-- A transform with its errors and size, in units of `ε` and `B`. -/
structure PNear (ε B e f τ : ℝ) (g : Stored) (G : Pose) : Prop where
  rotation : IsRotation G.1
  r : TurnsAlike (e * ε) (realRot g.rot) G.1
  t : eucNorm (realVec g.trans - G.2) ≤ f * ε * B
  n : eucNorm G.2 ≤ τ * B
  e1 : e ≤ 1e6
  f1 : f ≤ 1e6

variable {ε B : ℝ}

theorem Ctx.hU (C : Ctx ε B) : 0 ≤ U ∧ U ≤ 0.1 * ε := ⟨U_pos.le, by linarith [C.unit]⟩
theorem Ctx.hH (C : Ctx ε B) : 0 ≤ H ∧ H ≤ 1e-7 * ε ∧ H ≤ 1e-7 * (ε * B) := by
  have h1 := H_tiny
  have h2 := C.tiny
  have h3 := C.hU
  have h4 := H_pos
  have h5 : U * B ≤ 0.1 * ε * B := mul_le_mul_of_nonneg_right h3.2 C.bpos.le
  refine ⟨h4.le, ?_, ?_⟩ <;> linarith

theorem Ctx.slack (C : Ctx ε B) {e : ℝ} (h : e ≤ 1e6) : e * ε ≤ 0.001 := by
  have h1 : e * ε ≤ 1e6 * ε := mul_le_mul_of_nonneg_right h C.pos.le
  linarith [C.small]

theorem norm_near (a b : V3) : eucNorm a ≤ eucNorm b + eucNorm (a - b) := by
  have := eucNorm_add_le b (a - b)
  rwa [add_sub_cancel] at this

theorem eucNorm_sub_le_add (a b c : V3) : eucNorm (a - c) ≤ eucNorm (a - b) + eucNorm (b - c) := by
  have := eucNorm_add_le (a - b) (b - c)
  rwa [sub_add_sub_cancel] at this

theorem TNear.rn' (C : Ctx ε B) {e f p q : ℝ} {y : Tangent} {x : Twist} (h : TNear ε B e f p q y x) : eucNorm (realVec y.1) ≤ p + 0.001 :=
  (norm_near _ _).trans (add_le_add h.rn (h.r.trans (C.slack h.e1)))

theorem TNear.tn' (C : Ctx ε B) {e f p q : ℝ} {y : Tangent} {x : Twist} (h : TNear ε B e f p q y x) : eucNorm (realVec y.2) ≤ (q + 0.001) * B := by
  rw [add_mul]
  exact (norm_near _ _).trans (add_le_add h.tn (h.t.trans (mul_le_mul_of_nonneg_right (C.slack h.f1) C.bpos.le)))

theorem PNear.n' (C : Ctx ε B) {e f τ : ℝ} {g : Stored} {G : Pose} (h : PNear ε B e f τ g G) : eucNorm (realVec g.trans) ≤ (τ + 0.001) * B := by
  rw [add_mul]
  exact (norm_near _ _).trans (add_le_add h.n (h.t.trans (mul_le_mul_of_nonneg_right (C.slack h.f1) C.bpos.le)))

theorem TNear.mono (C : Ctx ε B) {e f p q e' f' p' q' : ℝ} {y : Tangent} {x : Twist} (h : TNear ε B e f p q y x) (he : e ≤ e') (hf : f ≤ f')
    (hp : p ≤ p') (hq : q ≤ q') (he1 : e' ≤ 1e6) (hf1 : f' ≤ 1e6) : TNear ε B e' f' p' q' y x :=
  ⟨h.r.trans (mul_le_mul_of_nonneg_right he C.pos.le),
    h.t.trans (mul_le_mul_of_nonneg_right (mul_le_mul_of_nonneg_right hf C.pos.le) C.bpos.le), h.rn.trans hp,
    h.tn.trans (mul_le_mul_of_nonneg_right hq C.bpos.le), he1, hf1⟩

theorem PNear.mono (C : Ctx ε B) {e f τ e' f' τ' : ℝ} {g : Stored} {G : Pose} (h : PNear ε B e f τ g G) (he : e ≤ e') (hf : f ≤ f')
    (hτ : τ ≤ τ') (he1 : e' ≤ 1e6) (hf1 : f' ≤ 1e6) : PNear ε B e' f' τ' g G :=
  ⟨h.rotation, turnsAlike_mono h.r (mul_le_mul_of_nonneg_right he C.pos.le),
    h.t.trans (mul_le_mul_of_nonneg_right (mul_le_mul_of_nonneg_right hf C.pos.le) C.bpos.le),
    h.n.trans (mul_le_mul_of_nonneg_right hτ C.bpos.le), he1, hf1⟩

/-- A rounded multiple of a vector. -/
theorem scale_vec {k : ℚ} {K c κ m s : ℝ} {x y : Fin 3 → ℚ} {X : V3} (hk : |(k : ℝ) - K| ≤ c) (hK : |K| ≤ κ) (hx : eucNorm (realVec x - X) ≤ s)
    (hm : eucNorm (realVec x) ≤ m) (h : ∀ i, y i = round64 (k * x i)) :
    eucNorm (realVec y - K • X) ≤ c * m + κ * s + 2 * (U * ((κ + c) * m) + H) := by
  have hk' : |(k : ℝ)| ≤ κ + c := by
    have := abs_sub_abs_le_abs_sub (k : ℝ) K
    linarith
  have hU := U_pos
  have e : realVec y - K • X = (realVec y - (k : ℝ) • realVec x) + (((k : ℝ) - K) • realVec x + K • (realVec x - X)) := by
    rw [sub_smul, smul_sub]; abel
  have m0 := (eucNorm_nonneg (realVec x)).trans hm
  have h1 : eucNorm (realVec y - (k : ℝ) • realVec x) ≤ 2 * (U * ((κ + c) * m) + H) := by
    refine eucNorm_le_of_entries fun i => ?_
    change |((y i : ℚ) : ℝ) - k * (x i : ℝ)| ≤ _
    have := rnd (k * x i)
    rw [← h i] at this
    push_cast at this
    refine this.trans (add_le_add (mul_le_mul_of_nonneg_left ?_ hU.le) le_rfl)
    rw [abs_mul]
    exact mul_le_mul hk' ((abs_entry_le (realVec x) i).trans hm) (abs_nonneg _) ((abs_nonneg _).trans hk')
  have h2 : eucNorm (((k : ℝ) - K) • realVec x) ≤ c * m := by
    rw [eucNorm_smul]
    exact mul_le_mul hk hm (eucNorm_nonneg _) ((abs_nonneg _).trans hk)
  have h3 : eucNorm (K • (realVec x - X)) ≤ κ * s := by
    rw [eucNorm_smul]
    exact mul_le_mul hK hx (eucNorm_nonneg _) ((abs_nonneg _).trans hK)
  rw [e]
  refine (eucNorm_add_le _ _).trans ((add_le_add h1 ((eucNorm_add_le _ _).trans (add_le_add h2 h3))).trans ?_)
  linarith

theorem scaled_near (C : Ctx ε B) {k : ℚ} {K c κ e f p q e' f' : ℝ} {x y : Tangent} {X : Twist} (hk : |(k : ℝ) - K| ≤ c * ε) (hK : |K| ≤ κ) (hc : c ≤ 1e6)
    (hx : TNear ε B e f p q x X) (h : Scaled k x y) (he : c * (p + 0.001) + κ * e + 0.2 * ((κ + 0.001) * (p + 0.001)) + 1e-6 ≤ e')
    (hf : c * (q + 0.001) + κ * f + 0.2 * ((κ + 0.001) * (q + 0.001)) + 1e-6 ≤ f') (he1 : e' ≤ 1e6) (hf1 : f' ≤ 1e6) :
    TNear ε B e' f' (κ * p) (κ * q) y (K • X) := by
  have hp' := hx.rn' C
  have hq' := hx.tn' C
  have p0 := (eucNorm_nonneg _).trans hp'
  have qB0 := (eucNorm_nonneg _).trans hq'
  have q0 : 0 ≤ q + 0.001 := nonneg_of_mul_nonneg_left qB0 C.bpos
  have κ0 := (abs_nonneg _).trans hK
  have hU := C.hU
  have hH := C.hH
  have hε := C.pos
  have hB := C.bpos
  have hcs := C.slack hc
  refine ⟨?_, ?_, ?_, ?_, he1, hf1⟩
  · refine (scale_vec hk hK hx.r hp' h.1).trans (le_trans ?_ (mul_le_mul_of_nonneg_right he hε.le))
    have h1 : U * ((κ + c * ε) * (p + 0.001)) ≤ 0.1 * ε * ((κ + 0.001) * (p + 0.001)) :=
      mul_le_mul hU.2 (mul_le_mul_of_nonneg_right (by linarith) p0) (mul_nonneg (by linarith [(abs_nonneg _).trans hk]) p0) (by linarith)
    linarith only [h1, hH.2.1, hε]
  · refine (scale_vec hk hK hx.t hq' h.2).trans (le_trans ?_ (mul_le_mul_of_nonneg_right (mul_le_mul_of_nonneg_right hf hε.le) hB.le))
    have h1 : U * ((κ + c * ε) * ((q + 0.001) * B)) ≤ 0.1 * ε * ((κ + 0.001) * ((q + 0.001) * B)) :=
      mul_le_mul hU.2 (mul_le_mul_of_nonneg_right (by linarith) qB0) (mul_nonneg (by linarith [(abs_nonneg _).trans hk]) qB0) (by linarith)
    have hεB := mul_pos hε hB
    linarith only [h1, hH.2.2, hεB]
  · change eucNorm (K • X.1) ≤ _
    rw [eucNorm_smul]
    exact mul_le_mul hK hx.rn (eucNorm_nonneg _) κ0
  · change eucNorm (K • X.2) ≤ _
    rw [eucNorm_smul, mul_assoc]
    exact mul_le_mul hK hx.tn (eucNorm_nonneg _) κ0

theorem add_vec {x y z : Fin 3 → ℚ} {X Y : V3} {s t m n : ℝ} (hx : eucNorm (realVec x - X) ≤ s) (hy : eucNorm (realVec y - Y) ≤ t)
    (hm : eucNorm (realVec x) ≤ m) (hn : eucNorm (realVec y) ≤ n) (h : ∀ i, z i = round64 (x i + y i)) :
    eucNorm (realVec z - (X + Y)) ≤ s + t + 2 * (U * (m + n) + H) := by
  have hU := U_pos
  have e : realVec z - (X + Y) = (realVec z - (realVec x + realVec y)) + ((realVec x - X) + (realVec y - Y)) := by abel
  have h1 : eucNorm (realVec z - (realVec x + realVec y)) ≤ 2 * (U * (m + n) + H) := by
    refine eucNorm_le_of_entries fun i => ?_
    change |((z i : ℚ) : ℝ) - ((x i : ℝ) + (y i : ℝ))| ≤ _
    have := rnd (x i + y i)
    rw [← h i] at this
    push_cast at this
    refine this.trans (add_le_add (mul_le_mul_of_nonneg_left ?_ hU.le) le_rfl)
    exact (abs_add_le _ _).trans (add_le_add ((abs_entry_le (realVec x) i).trans hm) ((abs_entry_le (realVec y) i).trans hn))
  rw [e]
  refine (eucNorm_add_le _ _).trans ((add_le_add h1 ((eucNorm_add_le _ _).trans (add_le_add hx hy))).trans ?_)
  linarith

theorem added_near (C : Ctx ε B) {e f p q e₂ f₂ p₂ q₂ e' f' : ℝ} {x y z : Tangent} {X Y : Twist} (hx : TNear ε B e f p q x X)
    (hy : TNear ε B e₂ f₂ p₂ q₂ y Y) (h : Added x y z) (he : e + e₂ + 0.2 * (p + p₂ + 0.002) + 1e-6 ≤ e')
    (hf : f + f₂ + 0.2 * (q + q₂ + 0.002) + 1e-6 ≤ f') (he1 : e' ≤ 1e6) (hf1 : f' ≤ 1e6) :
    TNear ε B e' f' (p + p₂) (q + q₂) z (X + Y) := by
  have a1 := hx.rn' C
  have a2 := hx.tn' C
  have b1 := hy.rn' C
  have b2 := hy.tn' C
  have hU := C.hU
  have hH := C.hH
  have hε := C.pos
  have hB := C.bpos
  have p0 := add_nonneg ((eucNorm_nonneg _).trans a1) ((eucNorm_nonneg _).trans b1)
  have q0 := add_nonneg ((eucNorm_nonneg _).trans a2) ((eucNorm_nonneg _).trans b2)
  refine ⟨?_, ?_, (eucNorm_add_le _ _).trans (add_le_add hx.rn hy.rn), ?_, he1, hf1⟩
  · refine (add_vec hx.r hy.r a1 b1 h.1).trans (le_trans ?_ (mul_le_mul_of_nonneg_right he hε.le))
    have h1 := mul_le_mul_of_nonneg_right hU.2 p0
    linarith only [h1, hH.2.1, hε]
  · refine (add_vec hx.t hy.t a2 b2 h.2).trans (le_trans ?_ (mul_le_mul_of_nonneg_right (mul_le_mul_of_nonneg_right hf hε.le) hB.le))
    have h1 := mul_le_mul_of_nonneg_right hU.2 q0
    have hεB := mul_pos hε hB
    linarith only [h1, hH.2.2, hεB]
  · rw [add_mul]
    exact (eucNorm_add_le _ _).trans (add_le_add hx.tn hy.tn)

/-- The computed exponential of a computed tangent vector. -/
theorem exp_near (C : Ctx ε B) {e f p q e' f' : ℝ} {y : Tangent} {Y : Twist} {g : Stored} (hy : TNear ε B e f p q y Y) (h : ExpSE3 y.1 y.2 g)
    (hp1 : p ≤ 100) (he : e + 10 * (p + 1.001) ≤ e') (hf : 500 * (q + 0.001) + f + e * (q + 0.001) + 0.01 ≤ f') (he1 : e' ≤ 1e6) (hf1 : f' ≤ 1e6) :
    PNear ε B e' f' q g (SE3.xexp Y) := by
  have a1 := hy.rn' C
  have a2 := hy.tn' C
  have hU := C.hU
  have hH := C.hH
  have hε := C.pos
  have hB := C.bpos
  have hw : eucNorm (realVec y.1) ≤ 2 ^ (500 : ℤ) := by
    have h1 : (2 : ℝ) ^ (10 : ℤ) ≤ 2 ^ (500 : ℤ) := zpow_le_zpow_right₀ (by norm_num) (by norm_num)
    have h2 : (2 : ℝ) ^ (10 : ℤ) = 1024 := by norm_num
    rw [h2] at h1
    have h3 : eucNorm (realVec y.1) ≤ 1024 := by linarith only [a1, hp1]
    exact h3.trans h1
  have n0 := eucNorm_nonneg (realVec y.1)
  have q0 := (eucNorm_nonneg _).trans a2
  refine ⟨isRotation_exp _, ?_, ?_, (SE3.xexp_norm _).trans hy.tn, he1, hf1⟩
  · have h1 := expSO3_error h.1
    have h2 := turnsAlike_exp (realVec y.1) Y.1
    intro v
    have h3 := (eucNorm_sub_le_add (realRot g.rot *ᵥ v) (SO3.exp (realVec y.1) *ᵥ v) (SO3.exp Y.1 *ᵥ v)).trans (add_le_add (h1 v) (h2 v))
    refine h3.trans ?_
    rw [← add_mul]
    refine mul_le_mul_of_nonneg_right (le_trans ?_ (mul_le_mul_of_nonneg_right he hε.le)) (eucNorm_nonneg _)
    have h4 : 100 * (1 + eucNorm (realVec y.1)) * U ≤ 100 * (1 + (p + 0.001)) * (0.1 * ε) :=
      mul_le_mul (by linarith) hU.2 hU.1 (by linarith)
    linarith only [h4, hy.r]
  · have h1 := expSE3_error h hw
    have h2 : eucNorm ((SE3.xexp (realVec y.1, realVec y.2)).2 - (SE3.xexp (Y.1, realVec y.2)).2) ≤ e * ε * ((q + 0.001) * B) :=
      (xexp_lip _ _ _).trans (mul_le_mul hy.r a2 (eucNorm_nonneg _) ((eucNorm_nonneg _).trans hy.r))
    have h3 : eucNorm ((SE3.xexp (Y.1, realVec y.2)).2 - (SE3.xexp Y).2) ≤ f * ε * B := by
      have e1 : (SE3.xexp (Y.1, realVec y.2)).2 - (SE3.xexp Y).2 = (SE3.xexp (Y.1, realVec y.2 - Y.2)).2 := by
        obtain ⟨Y1, Y2⟩ := Y
        simp only [SE3.xexp, mulVec_sub, smul_sub]
        abel
      rw [e1]
      exact (SE3.xexp_norm _).trans hy.t
    have h4 := (eucNorm_sub_le_add (realVec g.trans) (SE3.xexp (realVec y.1, realVec y.2)).2 (SE3.xexp Y).2).trans (add_le_add h1
      ((eucNorm_sub_le_add _ (SE3.xexp (Y.1, realVec y.2)).2 _).trans (add_le_add h2 h3)))
    refine h4.trans (le_trans ?_ (mul_le_mul_of_nonneg_right (mul_le_mul_of_nonneg_right hf hε.le) hB.le))
    have h5 : U * eucNorm (realVec y.2) ≤ 0.1 * ε * ((q + 0.001) * B) := mul_le_mul hU.2 a2 (eucNorm_nonneg _) (by linarith)
    have h6 : (1 + eucNorm (realVec y.1)) * H ≤ 102 * (1e-7 * (ε * B)) := mul_le_mul (by linarith) hH.2.2 hH.1 (by norm_num)
    have h7 := mul_pos hε hB
    linarith only [h5, h6, h7]

/-- Composition. -/
theorem pmul_near (C : Ctx ε B) {ea fa τa eb fb τb e' f' : ℝ} {a b c : Stored} {X Y : Pose} (ha : PNear ε B ea fa τa a X) (hb : PNear ε B eb fb τb b Y)
    (h : Mul a b c) (he : 1.003 * (ea + eb + 1) ≤ e')
    (hf : 0.81 * (1.001 * (τb + 0.001) + τa + 0.001) + 0.001 + ea * (τb + 0.001) + fb + fa ≤ f') (he1 : e' ≤ 1e6) (hf1 : f' ≤ 1e6) :
    PNear ε B e' f' (τa + τb) c (SE3.mul X Y) := by
  have a0 := turnsAlike_nonneg ha.r
  have b0 := turnsAlike_nonneg hb.r
  have a1 := C.slack ha.e1
  have b1 := C.slack hb.e1
  have hU := C.hU
  have hH := C.hH
  have hε := C.pos
  have hB := C.bpos
  have hεB := mul_pos hε hB
  obtain ⟨m1, m2⟩ := mul_near ha.rotation hb.rotation ha.r hb.r ha.t hb.t h
  refine ⟨se3Laws.valid_mul (valid := PoseValid) ha.rotation hb.rotation, turnsAlike_mono m1 (le_trans ?_ (mul_le_mul_of_nonneg_right he hε.le)),
    m2.trans (le_trans ?_ (mul_le_mul_of_nonneg_right (mul_le_mul_of_nonneg_right hf hε.le) hB.le)), ?_, he1, hf1⟩
  · obtain ⟨x, hx⟩ : ∃ x, x = ea * ε := ⟨_, rfl⟩
    obtain ⟨y, hy⟩ : ∃ y, y = eb * ε := ⟨_, rfl⟩
    have e1 : 1.003 * (ea + eb + 1) * ε = 1.003 * (x + y + ε) := by rw [hx, hy]; ring
    rw [e1]
    rw [← hx] at a0 a1 ⊢
    rw [← hy] at b0 b1 ⊢
    have p1 : x * y ≤ 0.001 * y := mul_le_mul_of_nonneg_right a1 b0
    have p3 : (1 + x) * (1 + y) * (10 * U) ≤ 1.0021 * ε := by
      refine mul_le_mul ?_ C.unit (by linarith) (by norm_num)
      linarith only [p1, a1, b1]
    linarith only [p1, p3, a0, b0, hε]
  · have t1 := C.slack ha.f1
    have t2 := C.slack hb.f1
    have n1 : eucNorm Y.2 + fb * ε * B ≤ (τb + 0.001) * B := by
      have := mul_le_mul_of_nonneg_right t2 hB.le
      linarith only [this, hb.n]
    have n2 : eucNorm X.2 + fa * ε * B ≤ (τa + 0.001) * B := by
      have := mul_le_mul_of_nonneg_right t1 hB.le
      linarith only [this, ha.n]
    have n0 : 0 ≤ eucNorm Y.2 + fb * ε * B := add_nonneg (eucNorm_nonneg _) ((eucNorm_nonneg _).trans hb.t)
    have n00 : 0 ≤ eucNorm X.2 + fa * ε * B := add_nonneg (eucNorm_nonneg _) ((eucNorm_nonneg _).trans ha.t)
    have p1 : (1 + ea * ε) * (eucNorm Y.2 + fb * ε * B) ≤ 1.001 * ((τb + 0.001) * B) := mul_le_mul (by linarith) n1 n0 (by norm_num)
    have p2 : U * ((1 + ea * ε) * (eucNorm Y.2 + fb * ε * B) + (eucNorm X.2 + fa * ε * B)) ≤
        0.1 * ε * (1.001 * ((τb + 0.001) * B) + (τa + 0.001) * B) :=
      mul_le_mul hU.2 (add_le_add p1 n2) (add_nonneg (mul_nonneg (by linarith) n0) n00) (by linarith)
    have p3 : ea * ε * (eucNorm Y.2 + fb * ε * B) ≤ ea * ε * ((τb + 0.001) * B) := mul_le_mul_of_nonneg_left n1 a0
    have p4 : 0 ≤ ε * (1.001 * ((τb + 0.001) * B) + (τa + 0.001) * B) :=
      mul_nonneg hε.le ((add_nonneg (mul_nonneg (by linarith) n0) n00).trans (add_le_add p1 n2))
    linarith only [p2, p3, p4, hH.2.2, hεB]
  · rw [add_mul]
    have h1 : eucNorm (X.1 *ᵥ Y.2) ≤ τb * B := by rw [eucNorm_mulVec ha.rotation]; exact hb.n
    have := (eucNorm_add_le (X.1 *ᵥ Y.2) X.2).trans (add_le_add h1 ha.n)
    change eucNorm (X.1 *ᵥ Y.2 + X.2) ≤ _
    linarith

theorem eval4 {x0 x1 x2 x3 y0 y1 y2 y3 r : ℚ} (h : Evaluates ![x0, x1, x2, x3] ![y0, y1, y2, y3] Finset.univ r) :
    |(r : ℝ) - (x0 * y0 + x1 * y1 + x2 * y2 + x3 * y3)| ≤
      4.001 * U * (|(x0 : ℝ) * y0| + |(x1 : ℝ) * y1| + |(x2 : ℝ) * y2| + |(x3 : ℝ) * y3|) + 625 * H := by
  have h1 := h.error
  simp only [Finset.card_univ, Fintype.card_fin, Fin.sum_univ_four, Matrix.cons_val_zero, Matrix.cons_val_one, Matrix.cons_val] at h1
  have h2 : (|r - (x0 * y0 + x1 * y1 + x2 * y2 + x3 * y3)| : ℝ) ≤
      ((1 + U) ^ 4 - 1) * (|(x0 : ℝ) * y0| + |(x1 : ℝ) * y1| + |(x2 : ℝ) * y2| + |(x3 : ℝ) * y3|) + 5 ^ 4 * H := by
    rw [← u_cast, ← η_cast]
    exact_mod_cast h1
  refine h2.trans ?_
  have := mul_le_mul_of_nonneg_right pow4 (show 0 ≤ |(x0 : ℝ) * y0| + |(x1 : ℝ) * y1| + |(x2 : ℝ) * y2| + |(x3 : ℝ) * y3| by positivity)
  linarith

theorem pow5 : (1 + U) ^ 5 - 1 ≤ 5.001 * U := by
  have h0 := U_pos; have h1 := U_small
  have h2 : U ^ 2 ≤ U / 1000000 := by nlinarith
  have h3 : U ^ 3 ≤ U / 1000000 := by nlinarith
  have h4 : U ^ 4 ≤ U / 1000000 := by nlinarith [pow_pos h0 3]
  have h5 : U ^ 5 ≤ U / 1000000 := by nlinarith [pow_pos h0 4]
  have e : (1 + U) ^ 5 - 1 = 5 * U + 10 * U ^ 2 + 10 * U ^ 3 + 5 * U ^ 4 + U ^ 5 := by ring
  rw [e]; linarith

theorem eval5 {x0 x1 x2 x3 x4 y0 y1 y2 y3 y4 r : ℚ} (h : Evaluates ![x0, x1, x2, x3, x4] ![y0, y1, y2, y3, y4] Finset.univ r) :
    |(r : ℝ) - (x0 * y0 + x1 * y1 + x2 * y2 + x3 * y3 + x4 * y4)| ≤
      5.001 * U * (|(x0 : ℝ) * y0| + |(x1 : ℝ) * y1| + |(x2 : ℝ) * y2| + |(x3 : ℝ) * y3| + |(x4 : ℝ) * y4|) + 3125 * H := by
  have h1 := h.error
  simp only [Finset.card_univ, Fintype.card_fin, Fin.sum_univ_five, Matrix.cons_val_zero, Matrix.cons_val_one, Matrix.cons_val] at h1
  have h2 : (|r - (x0 * y0 + x1 * y1 + x2 * y2 + x3 * y3 + x4 * y4)| : ℝ) ≤
      ((1 + U) ^ 5 - 1) * (|(x0 : ℝ) * y0| + |(x1 : ℝ) * y1| + |(x2 : ℝ) * y2| + |(x3 : ℝ) * y3| + |(x4 : ℝ) * y4|) + 5 ^ 5 * H := by
    rw [← u_cast, ← η_cast]
    exact_mod_cast h1
  refine h2.trans ?_
  have := mul_le_mul_of_nonneg_right pow5
    (show 0 ≤ |(x0 : ℝ) * y0| + |(x1 : ℝ) * y1| + |(x2 : ℝ) * y2| + |(x3 : ℝ) * y3| + |(x4 : ℝ) * y4| by positivity)
  linarith

theorem cross_terms (t r : V3) : |t 1 * r 2| + |t 2 * r 1| ≤ eucNorm t * eucNorm r ∧ |t 2 * r 0| + |t 0 * r 2| ≤ eucNorm t * eucNorm r ∧
    |t 0 * r 1| + |t 1 * r 0| ≤ eucNorm t * eucNorm r := by
  have k2 := abs_sum_le t ![r 1, r 0, r 2]
  have k1 := abs_sum_le t ![r 2, r 1, r 0]
  have k0 := abs_sum_le t ![r 0, r 2, r 1]
  have e2 : eucNorm ![r 1, r 0, r 2] = eucNorm r := by simp [eucNorm, sqNorm_eq]; ring_nf
  have e1 : eucNorm ![r 2, r 1, r 0] = eucNorm r := by simp [eucNorm, sqNorm_eq]; ring_nf
  have e0 : eucNorm ![r 0, r 2, r 1] = eucNorm r := by simp [eucNorm, sqNorm_eq]; ring_nf
  rw [e2] at k2; rw [e1] at k1; rw [e0] at k0
  simp only [Fin.sum_univ_three, Matrix.cons_val_zero, Matrix.cons_val_one, Matrix.cons_val] at k0 k1 k2
  refine ⟨?_, ?_, ?_⟩
  · linarith [abs_nonneg (t 0 * r 0)]
  · linarith [abs_nonneg (t 1 * r 1)]
  · linarith [abs_nonneg (t 2 * r 2)]

/-- The translation part of `adjoint_times` against the same formula evaluated exactly on the computed numbers. -/
theorem adTimes_trans {g : Stored} {x y : Tangent} {R : M3} {ea : ℝ} (hR : IsRotation R) (ha : TurnsAlike ea (realRot g.rot) R) (h : AdTimes g x y) :
    eucNorm (realVec y.2 - (realVec g.trans ⨯₃ realVec y.1 + realRot g.rot *ᵥ realVec x.2)) ≤
      2 * (5.001 * U * (eucNorm (realVec g.trans) * eucNorm (realVec y.1) + (1 + ea) * eucNorm (realVec x.2)) + 3125 * H) := by
  have hU := U_pos
  obtain ⟨-, h0, h1, h2⟩ := h
  obtain ⟨c0, c1, c2⟩ := cross_terms (realVec g.trans) (realVec y.1)
  have hrow : ∀ i, |(g.rot i 0 : ℝ) * x.2 0| + |(g.rot i 1 : ℝ) * x.2 1| + |(g.rot i 2 : ℝ) * x.2 2| ≤ (1 + ea) * eucNorm (realVec x.2) := by
    intro i
    have := abs_sum_le (realVec (g.rot i)) (realVec x.2)
    rw [Fin.sum_univ_three] at this
    refine this.trans (mul_le_mul_of_nonneg_right ?_ (eucNorm_nonneg _))
    rw [realRot_row]
    exact turnsAlike_row hR ha i
  refine eucNorm_le_of_entries fun i => ?_
  have key : ∀ (i : Fin 3) (z s : ℝ) (c : ℝ), |(y.2 i : ℝ) - z| ≤ 5.001 * U * s + 3125 * H → s ≤ c + (1 + ea) * eucNorm (realVec x.2) →
      c ≤ eucNorm (realVec g.trans) * eucNorm (realVec y.1) → (realVec g.trans ⨯₃ realVec y.1 + realRot g.rot *ᵥ realVec x.2) i = z →
      |(realVec y.2 - (realVec g.trans ⨯₃ realVec y.1 + realRot g.rot *ᵥ realVec x.2)) i| ≤
        5.001 * U * (eucNorm (realVec g.trans) * eucNorm (realVec y.1) + (1 + ea) * eucNorm (realVec x.2)) + 3125 * H := by
    intro i z s c k1 k2 k3 k4
    rw [Pi.sub_apply, k4]
    refine k1.trans (add_le_add (mul_le_mul_of_nonneg_left (by linarith) (by linarith)) le_rfl)
  fin_cases i
  · refine key 0 _ _ _ (eval5 h0) ?_ c0 ?_
    · have := hrow 0
      simp only [realVec, Rat.cast_neg, neg_mul, abs_neg]
      linarith
    · simp only [Pi.add_apply, cross_apply, realVec, realRot, mulVec, dotProduct, Fin.sum_univ_three, Matrix.map_apply, Matrix.cons_val_zero, Rat.cast_neg]
      ring
  · refine key 1 _ _ _ (eval5 h1) ?_ c1 ?_
    · have := hrow 1
      simp only [realVec, Rat.cast_neg, neg_mul, abs_neg]
      linarith
    · simp only [Pi.add_apply, cross_apply, realVec, realRot, mulVec, dotProduct, Fin.sum_univ_three, Matrix.map_apply, Matrix.cons_val_one, Matrix.cons_val_zero, Rat.cast_neg]
      ring
  · refine key 2 _ _ _ (eval5 h2) ?_ c2 ?_
    · have := hrow 2
      simp only [realVec, Rat.cast_neg, neg_mul, abs_neg]
      linarith
    · simp only [Pi.add_apply, cross_apply, realVec, realRot, mulVec, dotProduct, Fin.sum_univ_three, Matrix.map_apply, Matrix.cons_val, Rat.cast_neg]
      ring

/-- Transport of a tangent vector. -/
theorem ad_near (C : Ctx ε B) {ea fa τ e f p q e' f' : ℝ} {g : Stored} {G : Pose} {x y : Tangent} {X : Twist} (hg : PNear ε B ea fa τ g G)
    (hx : TNear ε B e f p q x X) (h : AdTimes g x y) (he : e + (ea + 0.61) * (p + 0.001) + 0.001 ≤ e')
    (hf : 1.01 * ((τ + 0.001) * (p + 0.002) + 1.001 * (q + 0.001)) + fa * (p + 0.002) + τ * e' + ea * (q + 0.001) + f + 0.001 ≤ f')
    (he1 : e' ≤ 1e6) (hf1 : f' ≤ 1e6) : TNear ε B e' f' p (τ * p + q) y (SE3.adjointTimes G X) := by
  have a0 := turnsAlike_nonneg hg.r
  have a1 := C.slack hg.e1
  have hU := C.hU
  have hH := C.hH
  have hε := C.pos
  have hB := C.bpos
  have hεB := mul_pos hε hB
  have p1 := hx.rn' C
  have q1 := hx.tn' C
  have t1 := hg.n' C
  have p0 := (eucNorm_nonneg _).trans p1
  have q0 := (eucNorm_nonneg _).trans q1
  have t0 := (eucNorm_nonneg _).trans t1
  have hr : eucNorm (realVec y.1 - G.1 *ᵥ X.1) ≤ e' * ε := by
    have h1 := rotated_error h.1 hg.rotation hg.r
    have h2 := hg.r (realVec x.1)
    have h3 : eucNorm (G.1 *ᵥ realVec x.1 - G.1 *ᵥ X.1) ≤ e * ε := by
      rw [← mulVec_sub, eucNorm_mulVec hg.rotation]; exact hx.r
    have h4 := (eucNorm_sub_le_add _ (realRot g.rot *ᵥ realVec x.1) (G.1 *ᵥ X.1)).trans
      (add_le_add h1 ((eucNorm_sub_le_add _ (G.1 *ᵥ realVec x.1) _).trans (add_le_add h2 h3)))
    refine h4.trans (le_trans ?_ (mul_le_mul_of_nonneg_right he hε.le))
    have k1 : (1 + ea * ε) * eucNorm (realVec x.1) ≤ 1.001 * (p + 0.001) := mul_le_mul (by linarith) p1 (eucNorm_nonneg _) (by norm_num)
    have k2 : U * ((1 + ea * ε) * eucNorm (realVec x.1)) ≤ 0.1 * ε * (1.001 * (p + 0.001)) :=
      mul_le_mul hU.2 k1 (mul_nonneg (by linarith) (eucNorm_nonneg _)) (by linarith)
    have k3 : ea * ε * eucNorm (realVec x.1) ≤ ea * ε * (p + 0.001) := mul_le_mul_of_nonneg_left p1 a0
    have k4 := mul_nonneg hε.le p0
    linarith only [k2, k3, k4, hH.2.1, hε]
  have hrn : eucNorm (G.1 *ᵥ X.1) ≤ p := by rw [eucNorm_mulVec hg.rotation]; exact hx.rn
  have hyn : eucNorm (realVec y.1) ≤ p + 0.001 := (norm_near _ _).trans (add_le_add hrn (hr.trans (C.slack he1)))
  refine ⟨hr, ?_, hrn, ?_, he1, hf1⟩
  · have h1 := adTimes_trans hg.rotation hg.r h
    have e1 : realVec g.trans ⨯₃ realVec y.1 + realRot g.rot *ᵥ realVec x.2 - (SE3.adjointTimes G X).2 =
        (realVec g.trans - G.2) ⨯₃ realVec y.1 + (G.2 ⨯₃ (realVec y.1 - G.1 *ᵥ X.1) + ((realRot g.rot *ᵥ realVec x.2 - G.1 *ᵥ realVec x.2) +
          G.1 *ᵥ (realVec x.2 - X.2))) := by
      change _ - (G.2 ⨯₃ (G.1 *ᵥ X.1) + G.1 *ᵥ X.2) = _
      rw [mulVec_sub, map_sub, map_sub, LinearMap.sub_apply]
      abel
    have n1 : eucNorm ((realVec g.trans - G.2) ⨯₃ realVec y.1) ≤ fa * ε * B * (p + 0.001) :=
      (eucNorm_cross_le _ _).trans (mul_le_mul hg.t hyn (eucNorm_nonneg _) ((eucNorm_nonneg _).trans hg.t))
    have n2 : eucNorm (G.2 ⨯₃ (realVec y.1 - G.1 *ᵥ X.1)) ≤ τ * B * (e' * ε) :=
      (eucNorm_cross_le _ _).trans (mul_le_mul hg.n hr (eucNorm_nonneg _) ((eucNorm_nonneg _).trans hg.n))
    have n3 : eucNorm (realRot g.rot *ᵥ realVec x.2 - G.1 *ᵥ realVec x.2) ≤ ea * ε * ((q + 0.001) * B) :=
      (hg.r _).trans (mul_le_mul_of_nonneg_left q1 a0)
    have n4 : eucNorm (G.1 *ᵥ (realVec x.2 - X.2)) ≤ f * ε * B := by rw [eucNorm_mulVec hg.rotation]; exact hx.t
    have n5 := (eucNorm_sub_le_add (realVec y.2) _ (SE3.adjointTimes G X).2).trans (add_le_add h1 le_rfl)
    rw [e1] at n5
    have n6 := n5.trans (add_le_add le_rfl ((eucNorm_add_le _ _).trans (add_le_add n1 ((eucNorm_add_le _ _).trans (add_le_add n2
      ((eucNorm_add_le _ _).trans (add_le_add n3 n4)))))))
    refine n6.trans (le_trans ?_ (mul_le_mul_of_nonneg_right (mul_le_mul_of_nonneg_right hf hε.le) hB.le))
    have m1 : eucNorm (realVec g.trans) * eucNorm (realVec y.1) ≤ (τ + 0.001) * B * (p + 0.001) :=
      mul_le_mul t1 hyn (eucNorm_nonneg _) t0
    have m2 : (1 + ea * ε) * eucNorm (realVec x.2) ≤ 1.001 * ((q + 0.001) * B) := mul_le_mul (by linarith) q1 (eucNorm_nonneg _) (by norm_num)
    have m0 : 0 ≤ eucNorm (realVec g.trans) * eucNorm (realVec y.1) + (1 + ea * ε) * eucNorm (realVec x.2) :=
      add_nonneg (mul_nonneg (eucNorm_nonneg _) (eucNorm_nonneg _)) (mul_nonneg (by linarith) (eucNorm_nonneg _))
    have m3 : U * (eucNorm (realVec g.trans) * eucNorm (realVec y.1) + (1 + ea * ε) * eucNorm (realVec x.2)) ≤
        0.1 * ε * ((τ + 0.001) * B * (p + 0.001) + 1.001 * ((q + 0.001) * B)) := mul_le_mul hU.2 (add_le_add m1 m2) m0 (by linarith)
    have fa0 : 0 ≤ fa * ε * B := (eucNorm_nonneg _).trans hg.t
    have m4 : 0 ≤ ε * ((τ + 0.001) * B * (p + 0.001) + 1.001 * ((q + 0.001) * B)) := mul_nonneg hε.le (m0.trans (add_le_add m1 m2))
    have m5 : 0 ≤ ε * ((τ + 0.001) * B) := mul_nonneg hε.le t0
    linarith only [m3, m4, m5, fa0, hH.2.2, hεB]
  · change eucNorm (G.2 ⨯₃ (G.1 *ᵥ X.1) + G.1 *ᵥ X.2) ≤ _
    have n1 : eucNorm (G.2 ⨯₃ (G.1 *ᵥ X.1)) ≤ τ * B * p :=
      (eucNorm_cross_le _ _).trans (mul_le_mul hg.n hrn (eucNorm_nonneg _) ((eucNorm_nonneg _).trans hg.n))
    have n2 : eucNorm (G.1 *ᵥ X.2) ≤ q * B := by rw [eucNorm_mulVec hg.rotation]; exact hx.tn
    refine (eucNorm_add_le _ _).trans ((add_le_add n1 n2).trans ?_)
    linarith

theorem bracket_trans {x y z : Tangent} (h : Bracket x y z) :
    eucNorm (realVec z.2 - (realVec x.2 ⨯₃ realVec y.1 + realVec x.1 ⨯₃ realVec y.2)) ≤
      2 * (4.001 * U * (eucNorm (realVec x.2) * eucNorm (realVec y.1) + eucNorm (realVec x.1) * eucNorm (realVec y.2)) + 625 * H) := by
  have hU := U_pos
  obtain ⟨-, h0, h1, h2⟩ := h
  obtain ⟨c0, c1, c2⟩ := cross_terms (realVec x.2) (realVec y.1)
  obtain ⟨d0, d1, d2⟩ := cross_terms (realVec x.1) (realVec y.2)
  refine eucNorm_le_of_entries fun i => ?_
  have key : ∀ (i : Fin 3) (z' s : ℝ) (c d : ℝ), |(z.2 i : ℝ) - z'| ≤ 4.001 * U * s + 625 * H → s ≤ c + d →
      c ≤ eucNorm (realVec x.2) * eucNorm (realVec y.1) → d ≤ eucNorm (realVec x.1) * eucNorm (realVec y.2) →
      (realVec x.2 ⨯₃ realVec y.1 + realVec x.1 ⨯₃ realVec y.2) i = z' →
      |(realVec z.2 - (realVec x.2 ⨯₃ realVec y.1 + realVec x.1 ⨯₃ realVec y.2)) i| ≤
        4.001 * U * (eucNorm (realVec x.2) * eucNorm (realVec y.1) + eucNorm (realVec x.1) * eucNorm (realVec y.2)) + 625 * H := by
    intro i z s c d k1 k2 k3 k5 k4
    rw [Pi.sub_apply, k4]
    refine k1.trans (add_le_add (mul_le_mul_of_nonneg_left (by linarith) (by linarith)) le_rfl)
  fin_cases i
  · refine key 0 _ _ _ _ (eval4 h0) ?_ c0 d0 ?_
    · simp only [realVec, Rat.cast_neg, neg_mul, abs_neg]
      linarith
    · simp only [Pi.add_apply, cross_apply, realVec, Matrix.cons_val_zero, Rat.cast_neg]
      ring
  · refine key 1 _ _ _ _ (eval4 h1) ?_ c1 d1 ?_
    · simp only [realVec, Rat.cast_neg, neg_mul, abs_neg]
      linarith
    · simp only [Pi.add_apply, cross_apply, realVec, Matrix.cons_val_one, Matrix.cons_val_zero, Rat.cast_neg]
      ring
  · refine key 2 _ _ _ _ (eval4 h2) ?_ c2 d2 ?_
    · simp only [realVec, Rat.cast_neg, neg_mul, abs_neg]
      linarith
    · simp only [Pi.add_apply, cross_apply, realVec, Matrix.cons_val, Rat.cast_neg]
      ring

theorem cross_near {x y X Y : V3} {s t m N : ℝ} (hx : eucNorm (x - X) ≤ s) (hy : eucNorm (y - Y) ≤ t) (hm : eucNorm y ≤ m) (hN : eucNorm X ≤ N) :
    eucNorm (x ⨯₃ y - X ⨯₃ Y) ≤ s * m + N * t := by
  have e : x ⨯₃ y - X ⨯₃ Y = (x - X) ⨯₃ y + X ⨯₃ (y - Y) := by
    rw [map_sub, map_sub, LinearMap.sub_apply]; abel
  rw [e]
  exact (eucNorm_add_le _ _).trans (add_le_add
    ((eucNorm_cross_le _ _).trans (mul_le_mul hx hm (eucNorm_nonneg _) ((eucNorm_nonneg _).trans hx)))
    ((eucNorm_cross_le _ _).trans (mul_le_mul hN hy (eucNorm_nonneg _) ((eucNorm_nonneg _).trans hN))))

/-- The bracket of two tangent vectors. -/
theorem bracket_near (C : Ctx ε B) {e f p q e₂ f₂ p₂ q₂ e' f' : ℝ} {x y z : Tangent} {X Y : Twist} (hx : TNear ε B e f p q x X)
    (hy : TNear ε B e₂ f₂ p₂ q₂ y Y) (h : Bracket x y z) (he : e * (p₂ + 0.001) + p * e₂ + 0.41 * ((p + 0.001) * (p₂ + 0.001)) + 0.001 ≤ e')
    (hf : f * (p₂ + 0.001) + q * e₂ + e * (q₂ + 0.001) + p * f₂ + 0.81 * ((q + 0.001) * (p₂ + 0.001) + (p + 0.001) * (q₂ + 0.001)) + 0.001 ≤ f')
    (he1 : e' ≤ 1e6) (hf1 : f' ≤ 1e6) : TNear ε B e' f' (p * p₂) (q * p₂ + p * q₂) z (SE3.bracket X Y) := by
  have hU := C.hU
  have hH := C.hH
  have hε := C.pos
  have hB := C.bpos
  have hεB := mul_pos hε hB
  have p1 := hx.rn' C
  have q1 := hx.tn' C
  have p2 := hy.rn' C
  have q2 := hy.tn' C
  have p10 := (eucNorm_nonneg _).trans p1
  have q10 := (eucNorm_nonneg _).trans q1
  have p20 := (eucNorm_nonneg _).trans p2
  have q20 := (eucNorm_nonneg _).trans q2
  have ww : eucNorm (realVec x.1) * eucNorm (realVec y.1) ≤ (p + 0.001) * (p₂ + 0.001) := mul_le_mul p1 p2 (eucNorm_nonneg _) p10
  have vw : eucNorm (realVec x.2) * eucNorm (realVec y.1) ≤ (q + 0.001) * B * (p₂ + 0.001) := mul_le_mul q1 p2 (eucNorm_nonneg _) q10
  have wv : eucNorm (realVec x.1) * eucNorm (realVec y.2) ≤ (p + 0.001) * ((q₂ + 0.001) * B) := mul_le_mul p1 q2 (eucNorm_nonneg _) p10
  have ww0 := mul_nonneg (eucNorm_nonneg (realVec x.1)) (eucNorm_nonneg (realVec y.1))
  have vw0 := mul_nonneg (eucNorm_nonneg (realVec x.2)) (eucNorm_nonneg (realVec y.1))
  have wv0 := mul_nonneg (eucNorm_nonneg (realVec x.1)) (eucNorm_nonneg (realVec y.2))
  refine ⟨?_, ?_, ?_, ?_, he1, hf1⟩
  · have h1 : eucNorm (realVec z.1 - realVec x.1 ⨯₃ realVec y.1) ≤ 2 * (2.001 * U * (eucNorm (realVec x.1) * eucNorm (realVec y.1)) + 4 * H) :=
      eucNorm_le_of_entries fun i => cross_err h.1 i
    have h2 := cross_near hx.r hy.r p2 hx.rn
    refine ((eucNorm_sub_le_add _ (realVec x.1 ⨯₃ realVec y.1) _).trans (add_le_add h1 h2)).trans (le_trans ?_ (mul_le_mul_of_nonneg_right he hε.le))
    have k1 : U * (eucNorm (realVec x.1) * eucNorm (realVec y.1)) ≤ 0.1 * ε * ((p + 0.001) * (p₂ + 0.001)) := mul_le_mul hU.2 ww ww0 (by linarith)
    have k2 := mul_nonneg hε.le (ww0.trans ww)
    linarith only [k1, k2, hH.2.1, hε]
  · have h1 := bracket_trans h
    have h2 := cross_near hx.t hy.r p2 hx.tn
    have h3 := cross_near hx.r hy.t q2 hx.rn
    have e1 : realVec x.2 ⨯₃ realVec y.1 + realVec x.1 ⨯₃ realVec y.2 - (SE3.bracket X Y).2 =
        (realVec x.2 ⨯₃ realVec y.1 - X.2 ⨯₃ Y.1) + (realVec x.1 ⨯₃ realVec y.2 - X.1 ⨯₃ Y.2) := by
      change _ - (X.2 ⨯₃ Y.1 + X.1 ⨯₃ Y.2) = _
      abel
    have n5 := (eucNorm_sub_le_add (realVec z.2) _ (SE3.bracket X Y).2).trans (add_le_add h1 le_rfl)
    rw [e1] at n5
    refine (n5.trans (add_le_add le_rfl ((eucNorm_add_le _ _).trans (add_le_add h2 h3)))).trans
      (le_trans ?_ (mul_le_mul_of_nonneg_right (mul_le_mul_of_nonneg_right hf hε.le) hB.le))
    have k1 := mul_le_mul hU.2 (add_le_add vw wv) (add_nonneg vw0 wv0) (show 0 ≤ 0.1 * ε by linarith)
    have k2 := mul_nonneg hε.le ((add_nonneg vw0 wv0).trans (add_le_add vw wv))
    linarith only [k1, k2, hH.2.2, hεB]
  · exact (eucNorm_cross_le _ _).trans (mul_le_mul hx.rn hy.rn (eucNorm_nonneg _) ((eucNorm_nonneg _).trans hx.rn))
  · have n1 : eucNorm (X.2 ⨯₃ Y.1) ≤ q * B * p₂ := (eucNorm_cross_le _ _).trans (mul_le_mul hx.tn hy.rn (eucNorm_nonneg _) ((eucNorm_nonneg _).trans hx.tn))
    have n2 : eucNorm (X.1 ⨯₃ Y.2) ≤ p * (q₂ * B) := (eucNorm_cross_le _ _).trans (mul_le_mul hx.rn hy.tn (eucNorm_nonneg _) ((eucNorm_nonneg _).trans hx.rn))
    refine (eucNorm_add_le _ _).trans ((add_le_add n1 n2).trans ?_)
    linarith

end Verif.TCurveDouble
