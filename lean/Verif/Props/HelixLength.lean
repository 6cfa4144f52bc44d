import Verif.Proofs.ShortSteps
import Verif.Props.OneCircle
/-! # C89: how long distance curves along a helix are, whatever the turns -/
namespace Verif.Props
open Matrix Verif.Framed Verif.Spec SO3

/-- The length that the code gives a screw motion of less than half a turn: never more than that of its path, less by at most 1e-15 of it, and exactly that
of its path if and only if the motion does not turn, turns by at least 0.002, or runs along its axis. -/
theorem c89_length_iff (x : Twist) (hπ : eucNorm x.1 < Real.pi) (g : Pose) (hg : OnScrew x SE3.ops.one 1 g) :
    SE3.arcLength g ≤ eucNorm x.2 ∧ (1 - 1e-15) * eucNorm x.2 ≤ SE3.arcLength g ∧
    (SE3.arcLength g = eucNorm x.2 ↔ GoodAngle x.1 ∨ x.1 ⨯₃ x.2 = 0) := by
  have e : g = SE3.xexp x := by
    rw [onScrew_pose.mp hg, se3Laws.one_mul, one_smul]
  subst e
  obtain ⟨h1, h2, h3⟩ := SE3.log_near hπ
  have lower : (1 - 1e-15) * eucNorm x.2 ≤ SE3.arcLength (SE3.xexp x) := by
    have := eucNorm_add_le (x.2 - (SE3.log (SE3.xexp x)).2) (SE3.log (SE3.xexp x)).2
    rw [sub_add_cancel, ← eucNorm_neg (x.2 - _), neg_sub] at this
    unfold SE3.arcLength
    linarith
  by_cases hgood : GoodAngle x.1
  · have e : SE3.arcLength (SE3.xexp x) = eucNorm x.2 := by
      unfold SE3.arcLength
      rw [h2 (goodAngle_iff hgood)]
    exact ⟨e.le, lower, ⟨fun _ => .inl hgood, fun _ => e⟩⟩
  by_cases hx : x.1 ⨯₃ x.2 = 0
  · have e : SE3.arcLength (SE3.xexp x) = eucNorm x.2 := by
      unfold SE3.arcLength
      rw [SE3.log_along (SO3.log_exp hπ) hx]
    exact ⟨e.le, lower, ⟨fun _ => .inr hx, fun _ => e⟩⟩
  · unfold GoodAngle at hgood
    rw [not_or, not_le] at hgood
    have hlt : SE3.arcLength (SE3.xexp x) < eucNorm x.2 := SE3.log_short hgood.1 (by
      rw [← eucNorm_sq]
      have := eucNorm_nonneg x.1
      unfold tinySquareAngle
      nlinarith [hgood.2]) hx
    refine ⟨hlt.le, lower, ⟨fun e => absurd e hlt.ne, ?_⟩⟩
    rintro (k | k)
    · rcases k with k | k
      · exact absurd k hgood.1
      · exact absurd k (not_le.mpr hgood.2)
    · exact absurd k hx

/-- The error of a point of a step, as a part of the distance covered. -/
theorem near_part (a : ℝ) (x : Twist) (h0 : 0 ≤ a) (ha : a ≤ 1) (hπ : eucNorm x.1 < Real.pi) :
    SE3.Near (SE3.exp (a • SE3.log (SE3.xexp x))) (SE3.xexp (a • x)) (1.2e-15 * (a * eucNorm x.2)) := by
  obtain ⟨h1, h2, h3⟩ := SE3.log_near hπ
  have hn : eucNorm (a • x).2 = a * eucNorm x.2 := by rw [Prod.smul_snd, eucNorm_smul, abs_of_nonneg h0]
  have hnn : 0 ≤ a * eucNorm x.2 := mul_nonneg h0 (eucNorm_nonneg _)
  obtain ⟨n1, n2⟩ := SE3.exp_near (a • x)
  rw [hn] at n2
  by_cases hg : x.1 = 0 ∨ tinySquareAngle ≤ sqNorm x.1
  · rw [h2 hg]
    exact ⟨n1, n2.trans (by nlinarith)⟩
  · rw [not_or, not_le] at hg
    obtain ⟨-, -, ht⟩ := SE3.smallcoeffs hg.1 hg.2
    have hw : eucNorm (a • x.1) < 0.002 := by
      rw [eucNorm_smul, abs_of_nonneg h0]
      have := eucNorm_nonneg x.1
      nlinarith
    have hsub := SE3.exp_sub_le hw (a • (SE3.log (SE3.xexp x)).2) (a • x.2)
    have e1 : a • SE3.log (SE3.xexp x) = (a • x.1, a • (SE3.log (SE3.xexp x)).2) := by
      rw [← h1]; rfl
    have e2 : a • x = (a • x.1, a • x.2) := rfl
    rw [← e1, ← e2, ← smul_sub, eucNorm_smul, abs_of_nonneg h0] at hsub
    refine ⟨?_, ?_⟩
    · rw [← n1, e1, e2]; rfl
    · have : (SE3.exp (a • SE3.log (SE3.xexp x))).2 - (SE3.xexp (a • x)).2 =
          ((SE3.exp (a • SE3.log (SE3.xexp x))).2 - (SE3.exp (a • x)).2) + ((SE3.exp (a • x)).2 - (SE3.xexp (a • x)).2) := by abel
      rw [this]
      refine (eucNorm_add_le _ _).trans ?_
      have k := mul_le_mul_of_nonneg_left h3 h0
      nlinarith

/-- C89 for distance curves along a line, circle or helix, for steps of any turn below half a turn: every control is, up to 1e-15 of it, as far along the
curve as along the path, and never further; at the distance `r` the curve returns, up to 2e-15 of the distance in position, the point of the path at a
distance that differs from `r` by at most 2e-15 of it, turned along with the path. -/
theorem c89_helix_near (c : DCurve Pose) (h : DBuilt SE3.ops SE3.arcLength c) (x : Twist) (g0 : Pose) (h0 : IsRotation g0.1) (amount : Nat → ℝ)
    (hc : ∀ (i : Nat) (hi : i < c.controls.length), OnScrew x g0 (amount i) c.controls[i].pose.val)
    (hs : ∀ i : Nat, i + 1 < c.controls.length → amount i < amount (i + 1) ∧ eucNorm ((amount (i + 1) - amount i) • x.1) < Real.pi) :
    (∀ (i : Nat) (hi : i < c.controls.length), c.controls[i].arcLength ≤ (amount i - amount 0) * eucNorm x.2 ∧
      (1 - 1e-15) * ((amount i - amount 0) * eucNorm x.2) ≤ c.controls[i].arcLength) ∧
    ∀ (r : ℝ) (g : Framed Pose), DCurve.pointAt SE3.ops c r = .ok g →
      ∃ a p, amount 0 ≤ a ∧ r ≤ (a - amount 0) * eucNorm x.2 ∧ (a - amount 0) * eucNorm x.2 ≤ (1 + 2e-15) * r ∧
        OnScrew x g0 a p ∧ Within (2e-15 * r) g.val p := by
  have hI := dInv_of_built h
  have rel : ∀ (i : Nat) (hi : i + 1 < c.controls.length), SE3.ops.mul (SE3.ops.inv c.controls[i].pose.val) c.controls[i + 1].pose.val =
      SE3.xexp ((amount (i + 1) - amount i) • x) := fun i hi => onScrew_rel h0 (hc i (by omega)) (hc (i + 1) hi)
  have hn : ∀ i : Nat, i + 1 < c.controls.length → eucNorm ((amount (i + 1) - amount i) • x).2 = (amount (i + 1) - amount i) * eucNorm x.2 := by
    intro i hi
    rw [Prod.smul_snd, eucNorm_smul, abs_of_pos (sub_pos.mpr (hs i hi).1)]
  have len : ∀ (i : Nat) (hi : i + 1 < c.controls.length),
      c.controls[i + 1].arcLength ≤ c.controls[i].arcLength + (amount (i + 1) - amount i) * eucNorm x.2 ∧
      c.controls[i].arcLength + (1 - 1e-15) * ((amount (i + 1) - amount i) * eucNorm x.2) ≤ c.controls[i + 1].arcLength := by
    intro i hi
    obtain ⟨k1, k2, -⟩ := c89_length_iff ((amount (i + 1) - amount i) • x) (hs i hi).2 _
      (onScrew_pose.mpr (by rw [se3Laws.one_mul, one_smul]))
    rw [hn i hi] at k1 k2
    rw [hI.chain i hi, rel i hi]
    constructor <;> linarith
  have harc : ∀ (i : Nat) (hi : i < c.controls.length), c.controls[i].arcLength ≤ (amount i - amount 0) * eucNorm x.2 ∧
      (1 - 1e-15) * ((amount i - amount 0) * eucNorm x.2) ≤ c.controls[i].arcLength := by
    intro i
    induction i with
    | zero => intro hi; rw [hI.zero SE3.ops SE3.arcLength hi, sub_self]; simp
    | succ i ih =>
      intro hi
      obtain ⟨l1, l2⟩ := len i hi
      obtain ⟨a1, a2⟩ := ih (by omega)
      constructor <;> linarith
  have hmono : ∀ i : Nat, i < c.controls.length → amount 0 ≤ amount i := by
    intro i
    induction i with
    | zero => intro _; exact le_rfl
    | succ i ih => intro hi; exact (ih (by omega)).trans (hs i hi).1.le
  refine ⟨harc, fun r g hg => ?_⟩
  obtain ⟨i, hi, i1, i2, -, i4, hval⟩ := dcurve_query c h r g hg
  obtain ⟨f, hf⟩ : ∃ f, f = (r - c.controls[i].arcLength) / (c.controls[i + 1].arcLength - c.controls[i].arcLength) := ⟨_, rfl⟩
  have hlen : 0 < c.controls[i + 1].arcLength - c.controls[i].arcLength := by linarith
  have f0 : 0 ≤ f := by rw [hf]; exact div_nonneg (by linarith) hlen.le
  have f1 : f ≤ 1 := by rw [hf, div_le_one hlen]; linarith
  have hr : r = c.controls[i].arcLength + f * (c.controls[i + 1].arcLength - c.controls[i].arcLength) := by
    rw [hf, div_mul_cancel₀ _ hlen.ne']
    ring
  obtain ⟨l1, l2⟩ := len i hi
  obtain ⟨a1, a2⟩ := harc i (by omega)
  obtain ⟨d, hd⟩ : ∃ d, d = amount (i + 1) - amount i := ⟨_, rfl⟩
  have hd0 : 0 < d := by rw [hd]; exact sub_pos.mpr (hs i hi).1
  have hx2 := eucNorm_nonneg x.2
  have hm := hmono i (by omega)
  have hnear := near_part f (d • x) f0 f1 (by rw [hd]; exact (hs i hi).2)
  have hval' : g.val = SE3.ops.mul c.controls[i].pose.val (SE3.exp (f • SE3.log (SE3.xexp (d • x)))) := by
    rw [hval, DCurve.valueOn, rel i hi, ← hf, ← hd]
    rfl
  have hva := onScrew_rotation h0 (hc i (by omega))
  have hmul := SE3.Near.mul (a := c.controls[i].pose.val) (a' := c.controls[i].pose.val) (e := 0) hva ⟨rfl, by rw [sub_self, eucNorm_zero]⟩ hnear
  rw [← hd] at l1 l2
  have hnd : eucNorm (d • x).2 = d * eucNorm x.2 := by rw [Prod.smul_snd, eucNorm_smul, abs_of_pos hd0]
  have b1 : (amount i + f * d - amount 0) * eucNorm x.2 = (amount i - amount 0) * eucNorm x.2 + f * (d * eucNorm x.2) := by ring
  obtain ⟨A, hA⟩ : ∃ A, A = (amount i - amount 0) * eucNorm x.2 := ⟨_, rfl⟩
  obtain ⟨D, hD⟩ : ∃ D, D = d * eucNorm x.2 := ⟨_, rfl⟩
  have hA0 : 0 ≤ A := by rw [hA]; exact mul_nonneg (by linarith) hx2
  have hD0 : 0 ≤ D := by rw [hD]; positivity
  rw [← hA] at a1 a2 b1
  rw [← hD] at l1 l2 b1 hnd
  have up := mul_le_mul_of_nonneg_left l1 f0
  have dn := mul_le_mul_of_nonneg_left l2 f0
  have hfD : 0 ≤ f * D := mul_nonneg f0 hD0
  refine ⟨amount i + f * d, SE3.ops.mul c.controls[i].pose.val (SE3.xexp (f • d • x)), ?_, ?_, ?_, ?_, ?_⟩
  · nlinarith
  · rw [b1, hr]
    linarith
  · rw [b1, hr]
    linarith
  · refine onScrew_add (hc i (by omega)) (onScrew_pose.mpr ?_)
    rw [smul_smul]
  · rw [hval']
    refine ⟨hmul.1, hmul.2.trans ?_⟩
    rw [hnd, hr]
    linarith

/-- A helix about the z axis: one unit sideways and one unit upwards per radian. -/
def risingTurn : Twist := (![0, 0, 1], ![1, 0, 1])

theorem risingTurn_norm (a : ℝ) (h : 0 ≤ a) : eucNorm (a • risingTurn.1) = a := by
  rw [eucNorm_smul, show eucNorm risingTurn.1 = 1 by rw [eucNorm, sqNorm_eq]; simp [risingTurn], mul_one, abs_of_nonneg h]

/-- A distance curve of any number of controls on that helix, each a thousandth of a radian after the one before. -/
theorem rising_curve (n : Nat) : ∃ c, DBuilt SE3.ops SE3.arcLength c ∧ c.controls.length = n ∧
    ∀ (i : Nat) (hi : i < c.controls.length), OnScrew risingTurn SE3.ops.one (i * 0.001) c.controls[i].pose.val := by
  obtain ⟨c, h1, h2⟩ := framed_built ((List.range n).map fun i : Nat => SE3.xexp (((i : ℝ) * 0.001) • risingTurn))
  have hlen : c.controls.length = n := by
    have := congrArg List.length h2
    simpa using this
  refine ⟨c, h1, hlen, fun i hi => ?_⟩
  have e : (c.controls.map (·.pose))[i]'(by simpa using hi) = ⟨SE3.xexp (((i : ℝ) * 0.001) • risingTurn), exFrame 1, exFrame 2⟩ := by
    simp only [h2, List.getElem_map, List.getElem_range]
  rw [List.getElem_map] at e
  rw [onScrew_pose, e, se3Laws.one_mul]

/-- Such curves meet the hypotheses of `c89_helix_near`, though none of their steps is measured exactly. -/
example (n : Nat) : ∃ c, DBuilt SE3.ops SE3.arcLength c ∧ c.controls.length = n ∧
    (∀ (i : Nat) (hi : i < c.controls.length), OnScrew risingTurn SE3.ops.one (i * 0.001) c.controls[i].pose.val) ∧
    ∀ i : Nat, (i : ℝ) * 0.001 < ((i + 1 : ℕ) : ℝ) * 0.001 ∧ eucNorm ((((i + 1 : ℕ) : ℝ) * 0.001 - i * 0.001) • risingTurn.1) < Real.pi := by
  obtain ⟨c, h1, h2, h3⟩ := rising_curve n
  refine ⟨c, h1, h2, h3, fun i => ?_⟩
  have e : ((i + 1 : ℕ) : ℝ) * 0.001 - i * 0.001 = 0.001 := by push_cast; ring
  rw [e, risingTurn_norm _ (by norm_num)]
  refine ⟨by push_cast; linarith, by linarith [Real.pi_gt_three]⟩

/-- The exact claim is false for turns below 0.002: this curve is shorter than the path through its controls. -/
theorem c89_small_turn_short : ∃ c, DBuilt SE3.ops SE3.arcLength c ∧ c.controls.length = 2 ∧
    (∀ (i : Nat) (hi : i < c.controls.length), OnScrew risingTurn SE3.ops.one (i * 0.001) c.controls[i].pose.val) ∧
    DCurve.curveLength c < 0.001 * eucNorm risingTurn.2 := by
  obtain ⟨c, h1, h2, h3⟩ := rising_curve 2
  refine ⟨c, h1, h2, h3, ?_⟩
  have hI := dInv_of_built h1
  have hrel := onScrew_rel (x := risingTurn) (g0 := SE3.ops.one) isRotation_one (h3 0 (by omega)) (h3 1 (by omega))
  have e : ((1 : ℕ) : ℝ) * 0.001 - ((0 : ℕ) : ℝ) * 0.001 = 0.001 := by norm_num
  rw [e] at hrel
  have hlen : DCurve.curveLength c = SE3.arcLength (SE3.xexp ((0.001 : ℝ) • risingTurn)) := by
    unfold DCurve.curveLength
    rw [List.getLast?_eq_getElem?, h2, List.getElem?_eq_getElem (by omega)]
    simp only
    have := hI.chain 0 (by omega)
    rw [hI.zero SE3.ops SE3.arcLength (by omega)] at this
    rw [← hrel]
    exact this.trans (zero_add _)
  have hn := risingTurn_norm 0.001 (by norm_num)
  obtain ⟨k1, -, k3⟩ := c89_length_iff ((0.001 : ℝ) • risingTurn) (by rw [Prod.smul_fst, hn]; linarith [Real.pi_gt_three]) _
    (onScrew_pose.mpr (by rw [se3Laws.one_mul, one_smul]))
  have hx : eucNorm ((0.001 : ℝ) • risingTurn).2 = 0.001 * eucNorm risingTurn.2 := by
    rw [Prod.smul_snd, eucNorm_smul, abs_of_pos (by norm_num)]
  rw [hlen, ← hx]
  refine lt_of_le_of_ne k1 fun heq => ?_
  rcases k3.mp heq with h | h
  · rw [Prod.smul_fst] at h
    rcases h with h | h
    · rw [h, eucNorm_zero] at hn
      norm_num at hn
    · rw [hn] at h
      norm_num at h
  · have := congrFun h 1
    simp [cross_apply, risingTurn] at this
    norm_num at this

end Verif.Props
