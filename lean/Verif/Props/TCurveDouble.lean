import Verif.Proofs.TCurveDoubleTimes
import Verif.Props.DCurveDouble
/-! # C112: rounding errors of time curves -/
namespace Verif.Props
open Verif.CurveExamples (zAxis)
open Verif.Spec hiding Jet
open Verif.TransformDouble Verif.ExpDouble Verif.LogDouble Verif.TCurveDouble Matrix SO3

/-- C112, segments: there is an exact motion with the given poses, velocities and accelerations at its ends, given by a formula and with the derivatives it is
said to have; whatever the compiler makes of the sums, pose, velocity and acceleration computed for the time `t` are near those of this motion at `t`. -/
theorem c112_segment {δ B : ℝ} (hδ : δ ≤ 1e-10) (hB : 2 ^ (-1000 : ℤ) ≤ B) {o d : Jet} {J J' : Pose × Twist × Twist} {x : Twist}
    (ho : StoresJet δ B o J) (hd : StoresJet δ B d J') (hx : LeadsTo δ B x J.1 J'.1) :
    ∃ γ, IsQuinticMotion x J J' γ ∧ ∀ (t : ℚ) (out : Jet), 0 ≤ t → t ≤ 1 → SegmentPointAt o d t out →
      JetWithin (1210 * (δ + 10 * 2 ^ (-53 : ℤ))) (6600 * (δ + 10 * 2 ^ (-53 : ℤ)) * B) (11000 * (δ + 10 * 2 ^ (-53 : ℤ)))
        (19900 * (δ + 10 * 2 ^ (-53 : ℤ)) * B) (263000 * (δ + 10 * 2 ^ (-53 : ℤ))) (550000 * (δ + 10 * 2 ^ (-53 : ℤ)) * B) out (γ t) := by
  have hδ0 : 0 ≤ δ := turnsAlike_nonneg ho.pose.rot
  have hW : eucNorm x.1 < Real.pi := by
    have h1 : eucNorm x.1 ≤ Real.pi - (330 * δ + 4300 * U) := hx.turn
    have := U_pos
    linarith
  exact ⟨motion J J', motion_quintic ho.pose.rotation hx.leads hW, fun t out h0 h1 h => (segment_answer hδ hB ho hd hx h0 h1 h).within⟩

/-- C112, curves: between any two control points there is such a motion in the time between them, and what is computed for a time is near what one of these
motions has at a time within 2^-50 of the length of the piece. -/
theorem c112_curve {δ B : ℝ} (hδ : δ ≤ 9e-11) (hB : 2 ^ (-800 : ℤ) ≤ B) {ts : List ℚ} {ps : List Jet} {J : ℕ → Pose × Twist × Twist} {x : ℕ → Twist}
    (hs : StoresCurve δ B ts ps J x) :
    ∃ Γ : ℕ → ℝ → Pose × Twist × Twist, (∀ (i : ℕ) (h : i + 1 < ts.length), IsPiece (x i) ts[i] ts[i + 1] (J i) (J (i + 1)) (Γ i)) ∧
      ∀ (q : ℚ) (out : Jet), IsDouble q → PointAt ts ps q out → ∃ (i : ℕ) (h : i + 1 < ts.length) (τ : ℝ),
        (ts[i] : ℝ) ≤ q ∧ (q : ℝ) ≤ ts[i + 1] ∧ ts[i] ≤ τ ∧ τ ≤ ts[i + 1] ∧ |τ - q| ≤ 2 ^ (-50 : ℤ) * ((ts[i + 1] : ℝ) - ts[i]) ∧
        JetWithin (1210 * (δ + 91 * 2 ^ (-53 : ℤ))) (6600 * (δ + 91 * 2 ^ (-53 : ℤ)) * B) (11010 * (δ + 91 * 2 ^ (-53 : ℤ)) / ((ts[i + 1] : ℝ) - ts[i]))
          (19910 * (δ + 91 * 2 ^ (-53 : ℤ)) * B / ((ts[i + 1] : ℝ) - ts[i])) (263200 * (δ + 91 * 2 ^ (-53 : ℤ)) / ((ts[i + 1] : ℝ) - ts[i]) ^ 2)
          (550200 * (δ + 91 * 2 ^ (-53 : ℤ)) * B / ((ts[i + 1] : ℝ) - ts[i]) ^ 2) out (Γ i τ) := by
  have hU := U_pos
  have hl := hs.length
  refine ⟨fun i => if h : i + 1 < ts.length then piece ts[i] ts[i + 1] (J i) (J (i + 1)) else fun _ => J i, ?_, ?_⟩
  · intro i h
    beta_reduce
    rw [dif_pos h]
    have hδ0 : 0 ≤ δ := turnsAlike_nonneg (hs.pose i (by omega)).rot
    have hx := hs.leads i (by omega)
    refine piece_isPiece ?_ (hs.pose i (by omega)).rotation hx.leads ?_
    · have : 0 < ts[i + 1] - ts[i] := lt_of_lt_of_le (by positivity) (hs.step i h).1
      exact_mod_cast (by linarith : ts[i] < ts[i + 1])
    · have h1 : eucNorm (x i).1 ≤ Real.pi - (330 * (δ + 81 * U) + 4300 * U) := hx.turn
      linarith
  · intro q out hq h
    obtain ⟨i, hi, τ, h1, h2, h3, h4, h5, h6⟩ := curve_answer hδ hB hs hq h
    refine ⟨i, hi, τ, h1, h2, h3, h4, h5, ?_⟩
    beta_reduce
    rw [dif_pos hi]
    exact h6.1

/-- C112, answers: every segment answers at every time, and a curve with two or more controls exactly at the times from its first to its last. -/
theorem c112_computed : (∀ o d t, ∃ out, SegmentPointAt o d t out) ∧
    ∀ (ts : List ℚ) (ps : List Jet), (∀ t ∈ ts, IsDouble t) → ps.length = ts.length →
      (∀ (i : ℕ) (h : i + 1 < ts.length), (2 : ℚ) ^ (-1021 : ℤ) ≤ ts[i + 1] - ts[i] ∧ ts[i + 1] - ts[i] ≤ 2 ^ (100 : ℤ)) → ∀ q, IsDouble q →
      ((∃ out, PointAt ts ps q out) ↔ ∃ h : 2 ≤ ts.length, ts[0] ≤ q ∧ q ≤ ts[ts.length - 1]) := by
  refine ⟨segment_some, fun ts ps hd hlen hstep q hq => ⟨?_, fun ⟨h2, h0, h1⟩ => point_some h2 hd hlen hstep hq h0 h1⟩⟩
  rintro ⟨out, c, i, dt, inv, t, p, p', o, d, r, hm, hqu, -⟩
  have hl : (ts.map Double.num).length = ts.length := List.length_map _
  have h2' : 2 ≤ ts.length := by
    by_contra hno
    have := c97_too_short _ c hm (by omega) (.num q)
    rw [hqu] at this
    exact absurd this (by simp)
  have hok := (c97_answers _ c hm (by omega) (.num q) (by simp)).1.mp ⟨_, hqu⟩
  exact ⟨h2', by simpa [Double.le] using hok.1, by simpa [Double.le] using hok.2⟩

/-- The control points of the example below: from the origin with a speed of 1/2 to a pose at rest a quarter of a circle further, two seconds later. -/
def quarterControls : List Jet := [⟨⟨1, 0⟩, (0, ![1 / 2, 0, 0]), 0⟩, ⟨⟨!![0, -1, 0; 1, 0, 0; 0, 0, 1], ![1, 1, 0]⟩, 0, 0⟩]

theorem quarter_curve : StoresCurve 0 2 [0, 2] quarterControls
    (fun i => if i = 0 then ((1, 0), (0, ![1 / 2, 0, 0]), 0) else ((!![0, -1, 0; 1, 0, 0; 0, 0, 1], ![1, 1, 0]), 0, 0))
    (fun _ => ((Real.pi / 2) • zAxis, ![Real.pi / 2, 0, 0])) := by
  have e3 : realVec 0 = 0 := by ext i; simp [realVec]
  have e4 : realVec ![1 / 2, 0, 0] = ![1 / 2, 0, 0] := by ext i; fin_cases i <;> simp [realVec]
  have n1 : eucNorm ((Real.pi / 2) • zAxis) = Real.pi / 2 := by
    rw [eucNorm_smul, zAxis_norm, mul_one, abs_of_pos Real.pi_div_two_pos]
  have n2 : eucNorm ![Real.pi / 2, 0, 0] = Real.pi / 2 := by
    rw [eucNorm, sqNorm_eq]
    simp [Real.sqrt_sq Real.pi_div_two_pos.le]
  have n3 : eucNorm ![1 / 2, 0, 0] = 1 / 2 := by
    rw [eucNorm, sqNorm_eq]
    simp [Real.sqrt_sq]
  have hU1 := U_tiny.1
  have hpi := Real.pi_gt_d4
  have hpi' := Real.pi_lt_d4
  have S := quarter_stored
  refine ⟨rfl, ?_, ?_, ?_, ?_, ?_⟩
  · simp only [List.forall_mem_cons, List.not_mem_nil, false_imp_iff, implies_true, and_true]
    exact ⟨SampleIntervalDouble.isDouble_zero, ⟨2, 0, by norm_num, by norm_num, by norm_num, by norm_num⟩⟩
  · intro i h
    have hi : i = 0 := by simp at h; omega
    subst hi
    have l1 : (2 : ℚ) ^ (-1021 : ℤ) ≤ 2 ^ (1 : ℤ) := zpow_le_zpow_right₀ (by norm_num) (by norm_num)
    have l2 : (2 : ℚ) ^ (1 : ℤ) ≤ 2 ^ (100 : ℤ) := zpow_le_zpow_right₀ (by norm_num) (by norm_num)
    rw [zpow_one] at l1 l2
    exact ⟨by simpa using l1, by simpa using l2⟩
  · intro i h
    match i, h with
    | 0, _ => exact S.stores 0 (by simp)
    | 1, _ => exact S.stores 1 (by simp)
  · intro i h
    have hi : i = 0 := by simp [quarterControls] at h; omega
    subst hi
    refine ⟨?_, ?_, ?_⟩
    · have := S.leads 0 (by simp)
      change SE3.H _ = SE3.H (1, 0) * _ at this
      change SE3.H _ = _ * SE3.H (1, 0)
      rw [show (1, 0) = SE3.one from rfl, SE3.H_one, one_mul] at this
      rw [show (1, 0) = SE3.one from rfl, SE3.H_one, mul_one]
      exact this
    · change eucNorm ((Real.pi / 2) • zAxis) ≤ Real.pi - (330 * (0 + 81 * U) + 4300 * U)
      rw [n1]
      linarith
    · change eucNorm ![Real.pi / 2, 0, 0] ≤ 2
      rw [n2]
      linarith
  · intro i h k hk hki
    have hi : i = 0 := by simp at h; omega
    subst hi
    have T : ((([0, 2] : List ℚ)[0 + 1] : ℚ) : ℝ) - (([0, 2] : List ℚ)[0] : ℚ) = 2 := by norm_num
    rw [T]
    have z : ∀ T : ℝ, StoresRate 0 2 T 0 0 := fun T => by
      refine ⟨?_, ?_, ?_, ?_⟩ <;> simp [e3, eucNorm_zero]
    match k, hk, hki with
    | 0, _, _ =>
      refine ⟨⟨?_, ?_, ?_, ?_⟩, z _⟩
      · change 2 * eucNorm 0 ≤ 10
        simp [eucNorm_zero]
      · change 2 * eucNorm ![1 / 2, 0, 0] ≤ 2
        rw [n3]
        norm_num
      · change 2 * eucNorm (realVec 0 - 0) ≤ 0
        simp [e3, eucNorm_zero]
      · change 2 * eucNorm (realVec ![1 / 2, 0, 0] - ![1 / 2, 0, 0]) ≤ 0 * 2
        rw [e4, sub_self, eucNorm_zero]; simp
    | 1, _, _ => exact ⟨z _, z _⟩

/-- These control points meet the conditions, and a query at 1 is answered: the pose is within 1e-9 of the exact curve at a time within 1e-14 of 1, the
velocity within 1e-8 and the acceleration within 1e-7. -/
example : ∃ (out : Jet) (Γ : ℝ → Pose × Twist × Twist) (τ : ℝ), PointAt [0, 2] quarterControls 1 out ∧ Γ 0 = ((1, 0), (0, ![1 / 2, 0, 0]), 0) ∧
    Γ 2 = ((!![0, -1, 0; 1, 0, 0; 0, 0, 1], ![1, 1, 0]), 0, 0) ∧ (∀ s, HasLeftJet poseMatrix twistHat (fun r => (Γ r).1) s (Γ s).2.1 (Γ s).2.2) ∧
    |τ - 1| ≤ 1e-14 ∧ JetWithin 1e-9 1e-9 1e-8 1e-8 1e-7 1e-7 out (Γ τ) := by
  have C := quarter_curve
  obtain ⟨out, h⟩ := (c112_computed.2 [0, 2] quarterControls C.double C.length C.step 1 SampleIntervalDouble.isDouble_one).mpr ⟨by simp, by simp, by simp⟩
  have hB : (2 : ℝ) ^ (-800 : ℤ) ≤ 2 := (zpow_le_zpow_right₀ (by norm_num) (by norm_num : (-800 : ℤ) ≤ 1)).trans (by norm_num)
  obtain ⟨Γ, h1, h2⟩ := c112_curve (by norm_num) hB C
  obtain ⟨i, hi, τ, -, -, -, -, h3, h4⟩ := h2 1 out SampleIntervalDouble.isDouble_one h
  have hi0 : i = 0 := by simp at hi; omega
  subst hi0
  have P := h1 0 (by simp)
  have T : ((([0, 2] : List ℚ)[0 + 1] : ℚ) : ℝ) - (([0, 2] : List ℚ)[0] : ℚ) = 2 := by norm_num
  have T0 : ((([0, 2] : List ℚ)[0] : ℚ) : ℝ) = 0 := by norm_num
  have T1 : ((([0, 2] : List ℚ)[0 + 1] : ℚ) : ℝ) = 2 := by norm_num
  rw [T] at h3 h4
  rw [T0, T1] at P
  have hU1 := U_tiny.1
  have hU := U_pos
  refine ⟨out, Γ 0, τ, h, P.start, P.stop, P.jet, ?_, ?_⟩
  · rw [Rat.cast_one] at h3
    refine h3.trans (by norm_num)
  · unfold U at hU1
    obtain ⟨a1, a2, a3, a4, a5, a6⟩ := h4
    exact ⟨turnsAlike_mono a1 (by norm_num), a2.trans (by norm_num), a3.trans (by norm_num), a4.trans (by norm_num), a5.trans (by norm_num), a6.trans (by norm_num)⟩

end Verif.Props
