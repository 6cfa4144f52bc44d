import Verif.Spec.OneCircle
import Verif.Proofs.OneCircle
import Verif.Props.OneAxis
import Verif.Props.DCurve
/-! # C89: curves through points of one line, circle or helix stay on it

Concrete curves that meet the hypotheses are in `CurveExamples`, `TestCircles` and `MountedExamples`. -/
namespace Verif.Props
open Matrix Verif.Framed Verif.Spec SO3

theorem onScrew_pose {x : Twist} {g0 : Pose} {a : ℝ} {g : Pose} : OnScrew x g0 a g ↔ g = SE3.ops.mul g0 (SE3.xexp (a • x)) := onBodyAxis_pose

theorem xexp_inv (x : Twist) (r : ℝ) : SE3.ops.inv (SE3.xexp (r • x)) = SE3.xexp ((-r) • x) := by
  symm
  apply se3Laws.inv_unique (SE3.xexp_valid _)
  have := (SE3.oneParam x).mul r (-r)
  rw [add_neg_cancel, (SE3.oneParam x).zero] at this
  exact this

/-- The relative pose of two points of a screw motion. -/
theorem onScrew_rel {x : Twist} {g0 : Pose} (h0 : IsRotation g0.1) {a b : ℝ} {g h : Pose} (hg : OnScrew x g0 a g) (hh : OnScrew x g0 b h) :
    SE3.ops.mul (SE3.ops.inv g) h = SE3.xexp ((b - a) • x) := by
  rw [onScrew_pose.mp hg, onScrew_pose.mp hh, se3Laws.inv_mul_rev (valid := PoseValid) h0 (SE3.xexp_valid _), xexp_inv, se3Laws.mul_assoc,
    ← se3Laws.mul_assoc _ g0, se3Laws.inv_mul (valid := PoseValid) h0, se3Laws.one_mul]
  have := (SE3.oneParam x).mul (-a) b
  rw [show -a + b = b - a by ring] at this
  exact this

theorem onScrew_add {x : Twist} {g0 : Pose} {a b : ℝ} {g h : Pose} (hg : OnScrew x g0 a g) (hh : OnScrew x g b h) : OnScrew x g0 (a + b) h := by
  rw [onScrew_pose] at *
  rw [hh, hg, se3Laws.mul_assoc]
  congr 1
  exact (SE3.oneParam x).mul a b

theorem within_of_near {a b : Pose} {e : ℝ} (h : SE3.Near a b e) : Within e a b := h

theorem onScrew_rotation {x : Twist} {g0 : Pose} (h0 : IsRotation g0.1) {a : ℝ} {g : Pose} (h : OnScrew x g0 a g) : IsRotation g.1 := by
  rw [onScrew_pose.mp h]
  exact se3Laws.valid_mul (valid := PoseValid) h0 (SE3.xexp_valid _)

/-- Which piece a successful query of a distance curve evaluates. -/
theorem dcurve_query (c : DCurve Pose) (h : DBuilt SE3.ops SE3.arcLength c) (s : ℝ) (g : Framed Pose) (hg : DCurve.pointAt SE3.ops c s = .ok g) :
    ∃ (i : Nat) (hi : i + 1 < c.controls.length), c.controls[i].arcLength ≤ s ∧ s ≤ c.controls[i + 1].arcLength ∧
      (i = 0 ∨ c.controls[i].arcLength < s) ∧ c.controls[i].arcLength < c.controls[i + 1].arcLength ∧
      g.val = DCurve.valueOn SE3.ops c.controls[i] c.controls[i + 1] s := by
  have hc := dInv_of_built h
  have h2 : 2 ≤ c.controls.length := by
    by_contra hcon
    have := DCurve.pointAt_short SE3.ops SE3.arcLength hc (by omega) s
    rw [hg] at this
    simp at this
  have hin : 0 ≤ s ∧ s ≤ DCurve.curveLength c := by
    by_contra hcon
    have := DCurve.pointAt_outside SE3.ops c hcon
    rw [hg] at this
    simp at this
  obtain ⟨i, hi, e1, e2, e3, e4, e5⟩ := DCurve.pointAt_inside SE3.ops SE3.arcLength hc h2 hin.1 hin.2
  have hlt : c.controls[i].arcLength < c.controls[i + 1].arcLength := by
    rcases (e1.trans e2).lt_or_eq with h | h
    · exact h
    · have := e5 h
      rw [hg] at this
      exact absurd this (by simp)
  refine ⟨i, hi, e1, e2, e3, hlt, ?_⟩
  obtain ⟨f1, f2, e, -⟩ := DCurve.onPiece_eq SE3.ops (hc.whole _ (List.getElem_mem (show i < c.controls.length by omega)))
    (hc.whole _ (List.getElem_mem hi)) s
  rw [e4 hlt, e, Outcome.ok.injEq] at hg
  rw [← hg]
  rfl

/-! ## Pieces of distance curves -/

/-- C89 for one piece of a distance curve.  If a control is reached from the one before by a screw motion `x` of less than half a turn (a straight line, an
arc of a circle, a piece of a helix), then the piece is as long as the path of that motion, and at the distance `r` along it the curve returns the point
of that motion at this distance: exactly the orientation, and the position up to 1e-18 of the distance, exactly outside the small-angle region.  What is
missing is steps that turn by less than 0.002, for which the length of the path is not computed exactly. -/
theorem c89_piece_partial (c : DCurve Pose) (h : DBuilt SE3.ops SE3.arcLength c) (i : Nat) (hi : i + 1 < c.controls.length)
    (hv : IsRotation c.controls[i].pose.val.1) (x : Twist) (hx : OnScrew x c.controls[i].pose.val 1 c.controls[i + 1].pose.val)
    (hπ : eucNorm x.1 < Real.pi) (hgood : GoodAngle x.1) :
    c.controls[i + 1].arcLength = c.controls[i].arcLength + eucNorm x.2 ∧
    ∀ (r : ℝ) (g : Framed Pose), 0 < r → r ≤ eucNorm x.2 → DCurve.pointAt SE3.ops c (c.controls[i].arcLength + r) = .ok g →
      ∃ p, OnScrew x c.controls[i].pose.val (r / eucNorm x.2) p ∧ Within (1e-18 * r) g.val p ∧ (GoodAngle ((r / eucNorm x.2) • x.1) → g.val = p) := by
  have hc := dInv_of_built h
  have hrel : SE3.ops.mul (SE3.ops.inv c.controls[i].pose.val) c.controls[i + 1].pose.val = SE3.xexp x := by
    have h0 : OnScrew x c.controls[i].pose.val 0 c.controls[i].pose.val := by
      rw [onScrew_pose, show SE3.xexp ((0 : ℝ) • x) = SE3.ops.one from (SE3.oneParam x).zero, se3Laws.mul_one]
    have := onScrew_rel hv h0 hx
    rwa [sub_zero, one_smul] at this
  have hlog : SE3.ops.log (SE3.xexp x) = x := (SE3.log_near hπ).2.1 (goodAngle_iff hgood)
  have hlen : c.controls[i + 1].arcLength = c.controls[i].arcLength + eucNorm x.2 := by
    rw [hc.chain i hi, hrel]
    unfold SE3.arcLength
    rw [show SE3.log (SE3.xexp x) = x from hlog]
  refine ⟨hlen, fun r g r0 r1 hg => ?_⟩
  obtain ⟨j, hj, j1, j2, j3, j4, hval⟩ := dcurve_query c h _ g hg
  have hij : j = i := by
    by_contra hne
    rcases Nat.lt_or_gt_of_ne hne with k | k
    · have := hc.le SE3.ops SE3.arcLength (fun _ => eucNorm_nonneg _) (i := j + 1) (j := i) (by omega) k
      linarith
    · have := hc.le SE3.ops SE3.arcLength (fun _ => eucNorm_nonneg _) (i := i + 1) (j := j) (by omega) k
      rcases j3 with j3 | j3
      · omega
      · linarith
  subst hij
  have hval' : g.val = SE3.ops.mul c.controls[j].pose.val (SE3.exp ((r / eucNorm x.2) • x)) := by
    rw [hval, DCurve.valueOn, hrel, hlog, hlen, add_sub_cancel_left, add_sub_cancel_left]
    rfl
  have hpos : 0 < eucNorm x.2 := lt_of_lt_of_le r0 r1
  obtain ⟨n1, n2⟩ := SE3.exp_near ((r / eucNorm x.2) • x)
  have hn : eucNorm ((r / eucNorm x.2) • x).2 = r := by
    rw [Prod.smul_snd, eucNorm_smul, abs_of_pos (div_pos r0 hpos), div_mul_cancel₀ _ hpos.ne']
  rw [hn] at n2
  refine ⟨_, onScrew_pose.mpr rfl, ?_, fun hg' => ?_⟩
  · rw [hval']
    have := SE3.Near.mul (a := c.controls[j].pose.val) (a' := c.controls[j].pose.val) (e := 0) hv ⟨rfl, by rw [sub_self, eucNorm_zero]⟩ ⟨n1, n2⟩
    rw [add_zero] at this
    exact this
  · rw [hval', SE3.xexp_eq (goodAngle_iff hg')]

/-! ## Whole distance curves -/

/-- C89 for distance curves along a line, circle or helix: the controls are points of one screw motion `x`, in order, each less than half a turn after the
one before.  Then the length of the curve is that of the path of the motion from the first control to the last, and at the distance `r` the curve returns
the point of the motion at the distance `r` from the first control.  Missing, as for one piece: steps that turn by less than 0.002, for which this is false; `c89_helix_near` has them up to rounding. -/
theorem c89_helix_partial (c : DCurve Pose) (h : DBuilt SE3.ops SE3.arcLength c) (x : Twist) (g0 : Pose) (h0 : IsRotation g0.1) (amount : Nat → ℝ)
    (hc : ∀ (i : Nat) (hi : i < c.controls.length), OnScrew x g0 (amount i) c.controls[i].pose.val)
    (hs : ∀ i : Nat, i + 1 < c.controls.length → amount i < amount (i + 1) ∧ eucNorm ((amount (i + 1) - amount i) • x.1) < Real.pi ∧
      GoodAngle ((amount (i + 1) - amount i) • x.1)) :
    (∀ (i : Nat) (hi : i < c.controls.length), c.controls[i].arcLength = (amount i - amount 0) * eucNorm x.2) ∧
    ∀ (r : ℝ) (g : Framed Pose), DCurve.pointAt SE3.ops c r = .ok g →
      ∃ p, OnScrew x g0 (amount 0 + r / eucNorm x.2) p ∧ Within (1e-18 * r) g.val p := by
  have hI := dInv_of_built h
  have step : ∀ (i : Nat) (hi : i + 1 < c.controls.length), OnScrew ((amount (i + 1) - amount i) • x) c.controls[i].pose.val 1 c.controls[i + 1].pose.val := by
    intro i hi
    have e := onScrew_rel h0 (hc i (by omega)) (hc (i + 1) hi)
    have hv := onScrew_rotation h0 (hc i (by omega))
    rw [onScrew_pose, one_smul, ← e, ← se3Laws.mul_assoc, se3Laws.mul_inv (valid := PoseValid) hv, se3Laws.one_mul]
  have piece := fun (i : Nat) (hi : i + 1 < c.controls.length) =>
    c89_piece_partial c h i hi (onScrew_rotation h0 (hc i (by omega))) _ (step i hi) (hs i hi).2.1 (hs i hi).2.2
  have hn : ∀ i : Nat, i + 1 < c.controls.length → eucNorm ((amount (i + 1) - amount i) • x).2 = (amount (i + 1) - amount i) * eucNorm x.2 := by
    intro i hi
    rw [Prod.smul_snd, eucNorm_smul, abs_of_pos (sub_pos.mpr (hs i hi).1)]
  have harc : ∀ (i : Nat) (hi : i < c.controls.length), c.controls[i].arcLength = (amount i - amount 0) * eucNorm x.2 := by
    intro i
    induction i with
    | zero => intro hi; rw [hI.zero SE3.ops SE3.arcLength hi]; ring
    | succ i ih =>
      intro hi
      rw [(piece i hi).1, ih (by omega), hn i hi]
      ring
  refine ⟨harc, fun r g hg => ?_⟩
  obtain ⟨i, hi, i1, i2, -, i4, hval⟩ := dcurve_query c h r g hg
  have hpos : 0 < eucNorm x.2 := by
    rcases (eucNorm_nonneg x.2).lt_or_eq with k | k
    · exact k
    · rw [harc, harc, ← k] at i4
      simp at i4
  rcases i1.lt_or_eq with i1 | i1
  · obtain ⟨p, p1, p2, -⟩ := (piece i hi).2 (r - c.controls[i].arcLength) g (by linarith) (by
      have := (piece i hi).1
      linarith) (by rw [add_sub_cancel]; exact hg)
    refine ⟨p, ?_, p2.1, p2.2.trans ?_⟩
    · have e : OnScrew x c.controls[i].pose.val ((r - c.controls[i].arcLength) / eucNorm x.2) p := by
        rw [onScrew_pose] at p1 ⊢
        rw [p1, smul_smul, hn i hi]
        congr 3
        have := sub_pos.mpr (hs i hi).1
        field_simp
      have := onScrew_add (hc i (by omega)) e
      rw [harc] at this
      convert this using 1
      field_simp
      ring
    · have := hI.le SE3.ops SE3.arcLength (fun _ => eucNorm_nonneg _) (i := 0) (j := i) (by omega) (by omega)
      rw [hI.zero SE3.ops SE3.arcLength (by omega)] at this
      nlinarith
  · refine ⟨c.controls[i].pose.val, ?_, ?_⟩
    · have := hc i (by omega)
      rw [← i1, harc]
      convert this using 1
      field_simp
      ring
    · have e : g.val = c.controls[i].pose.val := by
        rw [hval, ← i1]
        exact DCurve.valueOn_orig se3Laws SE3.exp_zero _ _
      rw [e]
      have hr : 0 ≤ r := by
        have := hI.le SE3.ops SE3.arcLength (fun _ => eucNorm_nonneg _) (i := 0) (j := i) (by omega) (by omega)
        rw [hI.zero SE3.ops SE3.arcLength (by omega)] at this
        linarith
      have : SE3.Near c.controls[i].pose.val c.controls[i].pose.val (1e-18 * r) := ⟨rfl, by rw [sub_self, eucNorm_zero]; positivity⟩
      exact this

/-- C89 for distance curves on a circle, whatever the steps between the controls: every point the curve returns is on the circle, up to 1e-14 of the
radius. -/
theorem c89_dcurve_circle (c : DCurve Pose) (h : DBuilt SE3.ops SE3.arcLength c) (w centre : V3) (g0 : Pose) (h0 : IsRotation g0.1)
    (hc : ∀ p ∈ c.controls, ∃ a, OnScrew (w, centre ⨯₃ w) g0 a p.pose.val) (r : ℝ) (g : Framed Pose) (hg : DCurve.pointAt SE3.ops c r = .ok g) :
    ∃ a p, OnScrew (w, centre ⨯₃ w) g0 a p ∧ Within (1e-14 * eucNorm centre) g.val p := by
  obtain ⟨i, hi, i1, i2, -, i4, hval⟩ := dcurve_query c h r g hg
  obtain ⟨a, ha⟩ := hc _ (List.getElem_mem (show i < c.controls.length by omega))
  obtain ⟨b, hb⟩ := hc _ (List.getElem_mem hi)
  obtain ⟨β, b1, b2, b3⟩ := SE3.xexp_about_wrap w centre (b - a)
  have hrel := (onScrew_rel h0 ha hb).trans b1
  obtain ⟨f, hf⟩ : ∃ f, f = (r - c.controls[i].arcLength) / (c.controls[i + 1].arcLength - c.controls[i].arcLength) := ⟨_, rfl⟩
  have hlen : 0 < c.controls[i + 1].arcLength - c.controls[i].arcLength := by linarith
  have f0 : 0 ≤ f := by rw [hf]; exact div_nonneg (by linarith) hlen.le
  have f1 : f ≤ 1 := by rw [hf, div_le_one hlen]; linarith
  have hnear := SE3.near_first f β (w, centre ⨯₃ w) (by rw [abs_of_nonneg f0]; exact f1) b2
  have hval' : g.val = SE3.ops.mul c.controls[i].pose.val (SE3.exp (f • SE3.log (SE3.xexp (β • ((w, centre ⨯₃ w) : Twist))))) := by
    rw [hval, DCurve.valueOn, hrel, ← hf]
    rfl
  have hva := onScrew_rotation h0 ha
  have hm := SE3.Near.mul (a := c.controls[i].pose.val) (a' := c.controls[i].pose.val) (e := 0) hva ⟨rfl, by rw [sub_self, eucNorm_zero]⟩ hnear
  refine ⟨a + f * β, _, onScrew_add ha (onScrew_pose.mpr rfl), ?_⟩
  rw [hval']
  refine ⟨hm.1, hm.2.trans ?_⟩
  have k1 := eucNorm_cross_le centre w
  have k2 : |β| * eucNorm w ≤ Real.pi := by rw [← eucNorm_smul]; exact b3
  have k3 := Real.pi_lt_four
  have k4 := eucNorm_nonneg centre
  have k5 : |β| * eucNorm (centre ⨯₃ w) ≤ 4 * eucNorm centre := by
    calc |β| * eucNorm (centre ⨯₃ w) ≤ |β| * (eucNorm centre * eucNorm w) := mul_le_mul_of_nonneg_left k1 (abs_nonneg _)
      _ = (|β| * eucNorm w) * eucNorm centre := by ring
      _ ≤ 4 * eucNorm centre := mul_le_mul_of_nonneg_right (by linarith) k4
  have k6 : eucNorm ((w, centre ⨯₃ w) : Twist).2 = eucNorm (centre ⨯₃ w) := rfl
  rw [k6]
  nlinarith

/-! ## Time curves and trajectories -/

/-- How far the reported velocities and accelerations would carry over one step, at most, on the steps that contain `t`. -/
def RatesAtMost (l : List (TControl Pose Twist)) (t D : ℝ) : Prop :=
  ∀ a b pre post, l = pre ++ a :: b :: post → a.time ≤ t → t ≤ b.time →
    (b.time - a.time) * (eucNorm a.point.d.2 + eucNorm b.point.d.2) + (b.time - a.time) ^ 2 * (eucNorm a.point.d2.2 + eucNorm b.point.d2.2) ≤ D

/-- C89 for time curves on a circle, whatever the turns between the controls, their times and the speeds: every pose the curve returns is one of the
circle, up to the stated tiny distance. -/
theorem c89_tcurve_circle (c : TCurve Pose Twist) (h : Built c) (hw : WholeFrames c) (w centre : V3) (g0 : Pose) (h0 : IsRotation g0.1)
    (hc : ∀ p ∈ c.controls, CirclingInSpace w centre g0 p.point.g.val p.point.d p.point.d2) (t D : ℝ) (hD : RatesAtMost c.controls t D)
    (p : TwoJetL Pose Twist) (hp : TCurve.pointAt SE3.ops c t = .ok p) :
    ∃ a g, OnSpaceScrew (w, centre ⨯₃ w) g0 a g ∧ Within (2e-15 * (4 * eucNorm centre + D)) p.g.val g := by
  obtain ⟨x, hx⟩ : ∃ x : Twist, x = (w, centre ⨯₃ w) := ⟨_, rfl⟩
  have hc' : ∀ p, ∃ f f1 f2 : ℝ, p ∈ c.controls → p.point.g.val = SE3.ops.mul (SE3.xexp (f • x)) g0 ∧ p.point.d = f1 • x ∧ p.point.d2 = f2 • x := by
    intro p
    by_cases hp : p ∈ c.controls
    · obtain ⟨⟨f, hf⟩, ⟨f1, h1⟩, f2, h2⟩ := hc p hp
      rw [← hx] at hf h1 h2
      exact ⟨f, f1, f2, fun _ => ⟨onAxis_pose.mp hf, h1, h2⟩⟩
    · exact ⟨0, 0, 0, fun h => absurd h hp⟩
  choose f f1 f2 hf using hc'
  have P := SE3.oneParam x
  obtain ⟨a, b, pre, post, hctl, ha, hb, hlt, seg, hseg, k1, k2, k3, k4, k5, m1, -, -⟩ := axis_query_of se3Laws P (fun s => SE3.xexp_valid _) h0 f f1 f2 c h hw
    hf t p hp
  have hpos : 0 < b.time - a.time := sub_pos.mpr hlt
  obtain ⟨β, b1, b2, b3⟩ := SE3.xexp_about_wrap w centre (f b - f a)
  rw [← hx] at b1
  have hx1 : x.1 = w := by rw [hx]
  rw [← hx1] at b2 b3
  have hn := SE3.vpoint_near seg x ((t - a.time) / (b.time - a.time)) β _ _ _ _ (div_nonneg (by linarith) hpos.le)
    ((div_le_one hpos).mpr (by linarith)) b2 (k1.trans b1) k2 k3 k4 k5
  generalize (quintic β _ _ _ _ _).a = σ at hn
  have hga : PoseValid (SE3.ops.mul (SE3.xexp (f a • x)) g0) := se3Laws.valid_mul (valid := PoseValid) (SE3.xexp_valid _) h0
  refine ⟨σ + f a, SE3.ops.mul (SE3.xexp ((σ + f a) • x)) g0, by rw [← hx]; exact onAxis_pose.mpr rfl, ?_⟩
  have hm : SE3.ops.mul (SE3.xexp ((σ + f a) • x)) g0 = SE3.ops.mul (SE3.xexp (σ • x)) (SE3.ops.mul (SE3.xexp (f a • x)) g0) := by
    rw [← se3Laws.mul_assoc]
    congr 1
    exact (P.mul σ (f a)).symm
  rw [m1, hm]
  have hv : PoseValid (vpoint SE3.ops seg ((t - a.time) / (b.time - a.time))).1 := by
    change IsRotation _
    rw [hn.1]
    exact SE3.xexp_valid _
  have key := SE3.Near.mul hv hn (b := SE3.ops.mul (SE3.xexp (f a • x)) g0) (b' := SE3.ops.mul (SE3.xexp (f a • x)) g0) (f := 0)
    ⟨rfl, by rw [sub_self, eucNorm_zero]⟩
  refine ⟨key.1, key.2.trans ?_⟩
  rw [zero_add]
  refine mul_le_mul_of_nonneg_left ?_ (by norm_num)
  have hD' := hD a b pre post hctl ha hb
  obtain ⟨-, ea, ea'⟩ := hf a (by rw [hctl]; simp)
  obtain ⟨-, eb, eb'⟩ := hf b (by rw [hctl]; simp)
  rw [ea, ea', eb, eb'] at hD'
  simp only [Prod.smul_snd, eucNorm_smul] at hD'
  rw [abs_mul, abs_mul, abs_mul, abs_mul, abs_of_pos hpos, abs_of_pos (pow_pos hpos 2)]
  have e1 := eucNorm_cross_le centre w
  have e2 : |β| * eucNorm w ≤ Real.pi := by rw [← hx1, ← eucNorm_smul]; exact b3
  have e3 := Real.pi_lt_four
  have e5 : eucNorm x.2 * |β| ≤ 4 * eucNorm centre := by
    have hx2 : x.2 = centre ⨯₃ w := by rw [hx]
    rw [hx2]
    calc eucNorm (centre ⨯₃ w) * |β| ≤ (eucNorm centre * eucNorm w) * |β| := mul_le_mul_of_nonneg_right e1 (abs_nonneg _)
      _ = (|β| * eucNorm w) * eucNorm centre := by ring
      _ ≤ 4 * eucNorm centre := mul_le_mul_of_nonneg_right (by linarith) (eucNorm_nonneg _)
  linarith

/-- The same for the controls of a trajectory: how far the velocities and accelerations of the states would carry over one step. -/
def StateRatesAtMost (start : Int) (l : List TrajControl) (t : Int) (D : ℝ) : Prop :=
  ∀ a b pre post, l = pre ++ a :: b :: post →
    (Binary64.asSeconds (a.atTime - start) : ℝ) ≤ Binary64.asSeconds (t - start) → (Binary64.asSeconds (t - start) : ℝ) ≤ Binary64.asSeconds (b.atTime - start) →
    ((Binary64.asSeconds (b.atTime - start) : ℝ) - Binary64.asSeconds (a.atTime - start)) * (eucNorm a.state.twoJet.d.2 + eucNorm b.state.twoJet.d.2)
      + ((Binary64.asSeconds (b.atTime - start) : ℝ) - Binary64.asSeconds (a.atTime - start)) ^ 2 *
        (eucNorm a.state.twoJet.d2.2 + eucNorm b.state.twoJet.d2.2) ≤ D

/-- C89 for trajectories on a circle: if every accepted state circles one point, whatever the timestamps, the speeds and the turns between them, then every
state the trajectory returns has a pose on that circle, up to the stated tiny distance. -/
theorem c89_trajectory_circle (T : Trajectory) (first : TrajControl) (rest : List TrajControl) (h : Reached T (first :: rest)) (w centre : V3) (g0 : Pose)
    (h0 : IsRotation g0.1)
    (hc : ∀ p ∈ first :: rest, Circling w centre g0 p.state.refFromBody.val p.state.twoJet.d p.state.twoJet.d2)
    (t : Int) (D : ℝ) (hD : StateRatesAtMost first.atTime (first :: rest) t D) (s : RBState) (hs : Trajectory.pointAt T t = .ok s) :
    (∃ a g, OnScrew (w, centre ⨯₃ w) g0 a g ∧ Within (2e-15 * (4 * eucNorm centre + D)) s.refFromBody.val g) ∧
    |eucNorm (s.refFromBody.val.2 - (g0.1 *ᵥ centre + g0.2)) - eucNorm centre| ≤ 2e-15 * (4 * eucNorm centre + D) := by
  have hI := inv_of_reached h
  have hst := c50_start_time T first rest h
  obtain ⟨x, hx⟩ : ∃ x : Twist, x = (w, centre ⨯₃ w) := ⟨_, rfl⟩
  have hinvP : ∀ r : ℝ, SE3.ops.inv (SE3.ops.mul g0 (SE3.xexp (r • x))) = SE3.ops.mul (SE3.xexp ((-r) • x)) (SE3.ops.inv g0) := by
    intro r
    rw [se3Laws.inv_mul_rev (valid := PoseValid) h0 (SE3.xexp_valid _), xexp_inv]
  unfold Trajectory.pointAt at hs
  obtain ⟨d, hd, hs1⟩ := bind_ok hs
  obtain ⟨j, hj, hs2⟩ := bind_ok hs1
  obtain ⟨r, hr, hs3⟩ := bind_ok hs2
  have hd' : d = t - first.atTime := by
    unfold i64 at hd
    split_ifs at hd
    rw [← hst]
    exact (Outcome.ok.inj hd).symm
  subst hd'
  obtain ⟨a, g, g1, g2, g3⟩ := c89_tcurve_circle T.curve hI.built (whole_curve hI) w centre (SE3.ops.inv g0) (se3Laws.valid_inv (valid := PoseValid) h0)
    (fun p hp => by
      rw [hI.controls, List.mem_map] at hp
      obtain ⟨p, hp, rfl⟩ := hp
      obtain ⟨⟨a, c1⟩, ⟨r1, c2⟩, r2, c3⟩ := hc p hp
      rw [← hx] at c1 c2 c3
      refine ⟨⟨-a, ?_⟩, ⟨-r1, ?_⟩, -r2, ?_⟩
      · rw [← hx]
        apply onAxis_pose.mpr
        simp only [Trajectory.toControl]
        rw [onScrew_pose.mp c1, hinvP]
      · simp only [Trajectory.toControl]
        rw [c2, ← hx, neg_smul]
      · simp only [Trajectory.toControl]
        rw [c3, ← hx, neg_smul]) _ D (by
      intro a b pre post e e1 e2
      rw [hI.controls] at e
      obtain ⟨pre', post', el, rfl, e'⟩ := List.map_eq_append_iff.mp e
      rw [List.map_eq_cons_iff] at e'
      obtain ⟨a', l, rfl, rfl, e'⟩ := e'
      rw [List.map_eq_cons_iff] at e'
      obtain ⟨b', l, rfl, rfl, e'⟩ := e'
      have := hD a' b' _ _ el
      simp only [Trajectory.toControl, hst, Prod.snd_neg, eucNorm_neg] at e1 e2 ⊢
      exact this e1 e2) j hj
  unfold TwoJetL.right at hr
  obtain ⟨i, hi, hr⟩ := bind_ok hr
  rw [Framed.inverse, mk'_eq_ok_iff] at hi
  have hval : s.refFromBody.val = SE3.ops.inv j.g.val := by
    rw [← Outcome.ok.inj hs3]
    change r.g.val = _
    rw [← Outcome.ok.inj hr, hi.2]
  rw [← hx] at g1
  have e := onAxis_pose.mp g1
  have hon : OnScrew (w, centre ⨯₃ w) g0 (-a) (SE3.ops.inv g) := by
    rw [← hx]
    apply onScrew_pose.mpr
    rw [e, se3Laws.inv_mul_rev (valid := PoseValid) (SE3.xexp_valid _) (se3Laws.valid_inv (valid := PoseValid) h0),
      se3Laws.inv_inv (valid := PoseValid) h0, xexp_inv]
  have hwi : Within (2e-15 * (4 * eucNorm centre + D)) s.refFromBody.val (SE3.ops.inv g) := by
    have hg : IsRotation g.1 := by
      rw [e]
      exact se3Laws.valid_mul (valid := PoseValid) (SE3.xexp_valid _) (se3Laws.valid_inv (valid := PoseValid) h0)
    have e' : (SE3.ops.inv j.g.val).2 - (SE3.ops.inv g).2 = g.1.transpose *ᵥ (-(j.g.val.2 - g.2)) := by
      change j.g.val.1.transpose *ᵥ (-j.g.val.2) - g.1.transpose *ᵥ (-g.2) = _
      rw [g2, ← Matrix.mulVec_sub]
      congr 1
      abel
    refine ⟨?_, ?_⟩
    · rw [hval]
      change j.g.val.1.transpose = g.1.transpose
      rw [g2]
    · change eucNorm (s.refFromBody.val.2 - (SE3.ops.inv g).2) ≤ _
      rw [hval, e', eucNorm_mulVec (isRotation_transpose hg), eucNorm_neg]
      exact g3
  refine ⟨⟨-a, _, hon, hwi⟩, ?_⟩
  have hgc : eucNorm ((SE3.ops.inv g).2 - (g0.1 *ᵥ centre + g0.2)) = eucNorm centre := by
    rw [onScrew_pose.mp hon, SE3.xexp_about]
    generalize hR : SO3.exp ((_ : ℝ) • w) = R
    have hR' : IsRotation R := by rw [← hR]; exact SO3.isRotation_exp _
    have e : (SE3.ops.mul g0 (R, centre - R *ᵥ centre)).2 - (g0.1 *ᵥ centre + g0.2) = -(g0.1 *ᵥ (R *ᵥ centre)) := by
      change (g0.1 *ᵥ (centre - R *ᵥ centre) + g0.2) - _ = _
      rw [Matrix.mulVec_sub]
      abel
    rw [e, eucNorm_neg, eucNorm_mulVec h0, eucNorm_mulVec hR']
  have hw2 : eucNorm (s.refFromBody.val.2 - (SE3.ops.inv g).2) ≤ 2e-15 * (4 * eucNorm centre + D) := hwi.2
  generalize g0.1 *ᵥ centre + g0.2 = o at *
  generalize (SE3.ops.inv g).2 = y at *
  refine le_trans ?_ hw2
  rw [← hgc]
  have a1 := eucNorm_add_le (s.refFromBody.val.2 - y) (y - o)
  have a2 := eucNorm_add_le (y - s.refFromBody.val.2) (s.refFromBody.val.2 - o)
  rw [sub_add_sub_cancel] at a1 a2
  have a3 : eucNorm (y - s.refFromBody.val.2) = eucNorm (s.refFromBody.val.2 - y) := by rw [← eucNorm_neg, neg_sub]
  rw [abs_le]
  constructor <;> linarith

end Verif.Props
