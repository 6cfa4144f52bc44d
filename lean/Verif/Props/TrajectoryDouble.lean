import Verif.Proofs.TrajectoryDouble
import Verif.Props.TCurveDouble
/-! # C113: rounding errors of trajectories -/
namespace Verif.Props
open Verif.CurveExamples (zAxis)
open Verif.Spec hiding Jet
open Verif.TransformDouble Verif.ExpDouble Verif.LogDouble Verif.TCurveDouble Verif.TrajectoryDouble Verif.Binary64 Matrix SO3

/-- C113: between any two controls there is an exact motion of the body with the given states at its ends, given by a formula, whose velocities and
accelerations are those of the motion; the state computed for a time after the start is near what one of these motions has at a time within 2^-50 of the
length of the piece. -/
theorem c113_state {δ B : ℝ} (hδ : δ ≤ 4e-11) (hB : 2 ^ (-800 : ℤ) ≤ B) {ats : List ℤ} {ss : List State} {S : ℕ → Pose × Twist × Twist} {y : ℕ → Twist}
    (hs : StoresTrajectory δ B ats ss S y) :
    ∃ Γ : ℕ → ℝ → Pose × Twist × Twist,
      (∀ i, i + 1 < ats.length → IsBodyPiece (y i) (secondsTo ats i) (secondsTo ats (i + 1)) (S i) (S (i + 1)) (Γ i)) ∧
      ∀ (d : ℤ) (out : State), InI64 d → PointAfter ats ss d out → ∃ (i : ℕ) (τ T : ℝ), i + 1 < ats.length ∧
        T = (secondsTo ats (i + 1) : ℝ) - secondsTo ats i ∧ (secondsTo ats i : ℝ) ≤ asSeconds d ∧ (asSeconds d : ℝ) ≤ secondsTo ats (i + 1) ∧
        secondsTo ats i ≤ τ ∧ τ ≤ secondsTo ats (i + 1) ∧ |τ - asSeconds d| ≤ 2 ^ (-50 : ℤ) * T ∧
        StateWithin (2430 * (δ + 49 * 2 ^ (-53 : ℤ))) (19800 * (δ + 49 * 2 ^ (-53 : ℤ)) * B) (22040 * (δ + 49 * 2 ^ (-53 : ℤ)) / T)
          (39850 * (δ + 49 * 2 ^ (-53 : ℤ)) * B / T) (526700 * (δ + 49 * 2 ^ (-53 : ℤ)) / T ^ 2)
          (1101000 * (δ + 49 * 2 ^ (-53 : ℤ)) * B / T ^ 2) out (Γ i τ) := by
  have hU := U_pos
  have hU1 := U_tiny.1
  have hB1 : (2 : ℝ) ^ (-1000 : ℤ) ≤ B := (zpow_le_zpow_right₀ (by norm_num) (by norm_num)).trans hB
  have hB0 : 0 < B := lt_of_lt_of_le (by positivity) hB
  have hl := hs.length
  have hbp : ∀ i, i + 1 < ats.length → (∀ s, IsRotation (piece (secondsTo ats i) (secondsTo ats (i + 1)) (reversed (S i)) (reversed (S (i + 1))) s).1.1) ∧
      IsBodyPiece (y i) (secondsTo ats i) (secondsTo ats (i + 1)) (S i) (S (i + 1))
        (fun s => reversed (piece (secondsTo ats i) (secondsTo ats (i + 1)) (reversed (S i)) (reversed (S (i + 1))) s)) := by
    intro i hi
    have h0 : 0 ≤ δ := turnsAlike_nonneg (hs.pose i (by omega)).rot
    have k1 := (hs.pose i (by omega)).rotation
    have k2 := (hs.pose (i + 1) (by omega)).rotation
    refine body_piece k1 k2 (piece_isPiece (by exact_mod_cast hs.order i hi) ?_ (leads_reversed k1 k2 (hs.leads i (by omega))) ?_)
    · change IsRotation (SE3.inv (S i).1).1
      rw [inv_eq]
      exact isRotation_transpose k1
    · change eucNorm (-(y i).1) < _
      rw [eucNorm_neg]
      have : eucNorm (y i).1 ≤ Real.pi - (661 * δ + 33400 * U) := hs.turn i (by omega)
      linarith
  refine ⟨fun i s => reversed (piece (secondsTo ats i) (secondsTo ats (i + 1)) (reversed (S i)) (reversed (S (i + 1))) s), fun i hi => (hbp i hi).2, ?_⟩
  rintro d out hd ⟨a₀, js, q, ha, -, hj, hp, hr⟩
  have ha' : ats.getD 0 0 = a₀ := by
    cases ats with
    | nil => simp at ha
    | cons b l => simpa using ha
  subst ha'
  have hc := stores_curve hδ hB1 hs hj
  have hδ' : 2.001 * δ + 7 * U ≤ 9e-11 := by norm_num at hδ hU1 ⊢; linarith
  obtain ⟨i, hi, τ, h1, h2, h3, h4, h5, h6, h7⟩ := curve_answer hδ' hB hc (Double.asSeconds_multiple hd).1 hp
  have hi' : i + 1 < ats.length := by rwa [curveTimes_length] at hi
  rw [curveTimes_get] at h1 h2 h3 h4 h5 h6 h7
  rw [curveTimes_get] at h5 h6 h7
  have h0 : 0 ≤ δ := turnsAlike_nonneg (hs.pose i (by omega)).rot
  obtain ⟨T, hT⟩ : ∃ T : ℝ, T = (secondsTo ats (i + 1) : ℝ) - secondsTo ats i := ⟨_, rfl⟩
  have hTpos : 0 < T := by
    have : (secondsTo ats i : ℝ) < secondsTo ats (i + 1) := by exact_mod_cast hs.order i hi'
    linarith
  rw [← hT] at h5 h6
  refine ⟨i, τ, T, hi', hT, h1, h2, h3, h4, h5, ?_⟩
  obtain ⟨ε, hε⟩ : ∃ ε, ε = 2.001 * δ + 98 * U := ⟨_, rfl⟩
  have eε : 2.001 * δ + 7 * U + 91 * U = ε := by rw [hε]; ring
  rw [eε] at h6
  obtain ⟨p1, p2⟩ := answer_pose hε h0 hδ hB1 ((hbp i hi').1 τ) h6.rot h6.trans h7 hr.1
  have le : ε ≤ 2.001 * (δ + 49 * U) := by linarith
  have hη : 0 ≤ δ + 49 * U := by linarith
  have hpB := mul_nonneg hη hB0.le
  refine stateWithin_of_jet h6 hr p1 p2 ?_ ?_ ?_ ?_
  · exact div_le_div_of_nonneg_right (show 11010 * ε ≤ 22040 * (δ + 49 * U) by linarith) hTpos.le
  · refine div_le_div_of_nonneg_right (show 19910 * ε * B ≤ 39850 * (δ + 49 * U) * B from mul_le_mul_of_nonneg_right (by linarith) hB0.le) hTpos.le
  · exact div_le_div_of_nonneg_right (show 263200 * ε ≤ 526700 * (δ + 49 * U) by linarith) (sq_nonneg T)
  · refine div_le_div_of_nonneg_right (show 550200 * ε * B ≤ 1101000 * (δ + 49 * U) * B from mul_le_mul_of_nonneg_right (by linarith) hB0.le) (sq_nonneg T)

/-- C113, answers: a trajectory with two or more controls answers exactly for the times from the first control to the last, as seconds go; a query by time stamp
is the query by the time since the first control. -/
theorem c113_computed (ats : List ℤ) (ss : List State) (hl : ss.length = ats.length) (span : ∀ a ∈ ats, InI64 (a - ats.getD 0 0))
    (order : ∀ i, i + 1 < ats.length → secondsTo ats i < secondsTo ats (i + 1)) (h2 : 2 ≤ ats.length) :
    (∀ d, InI64 d → ((∃ out, PointAfter ats ss d out) ↔ 0 ≤ asSeconds d ∧ asSeconds d ≤ secondsTo ats (ats.length - 1))) ∧
    ∀ t out, PointAtTime ats ss t out ↔ InI64 (t - ats.getD 0 0) ∧ PointAfter ats ss (t - ats.getD 0 0) out := by
  obtain ⟨t1, t2⟩ := times_ok span order
  have hh : ats.head? = some (ats.getD 0 0) := by
    cases ats with
    | nil => simp at h2
    | cons b l => simp
  have z0 : secondsTo ats 0 = 0 := by
    unfold secondsTo
    rw [sub_self]
    simp [asSeconds, fl]
  have hlen : (curveTimes ats).length = ats.length := curveTimes_length
  constructor
  · intro d hd
    have hd' := (Double.asSeconds_multiple hd).1
    have key : ∀ js : List Jet, js.length = ats.length → ((∃ out, PointAt (curveTimes ats) js (asSeconds d) out) ↔
        0 ≤ asSeconds d ∧ asSeconds d ≤ secondsTo ats (ats.length - 1)) := by
      intro js hj
      rw [c112_computed.2 (curveTimes ats) js t1 (by rw [hj, hlen]) t2 (asSeconds d) hd']
      constructor
      · rintro ⟨k, k1, k2⟩
        rw [curveTimes_get, z0] at k1
        rw [curveTimes_get, hlen] at k2
        exact ⟨k1, k2⟩
      · rintro ⟨k1, k2⟩
        refine ⟨by omega, ?_, ?_⟩
        · rw [curveTimes_get, z0]; exact k1
        · rw [curveTimes_get, hlen]; exact k2
    constructor
    · rintro ⟨out, a₀, js, q, ha, -, hj, hp, -⟩
      rw [hh, Option.some.injEq] at ha
      subst ha
      exact (key js (hj.length_eq.symm.trans hl)).mp ⟨q, hp⟩
    · intro hr
      have ex : ∀ s : State, ∃ j, LeftOf s j := fun s => by
        obtain ⟨c, hc⟩ := inverse_some s.g
        exact ⟨⟨c, -s.d, -s.d2⟩, hc, rfl, rfl⟩
      choose f hf using ex
      have hj : List.Forall₂ LeftOf ss (ss.map f) := by
        rw [List.forall₂_map_right_iff]
        exact List.forall₂_same.mpr fun s _ => hf s
      obtain ⟨q, hq⟩ := (key (ss.map f) (by rw [List.length_map, hl])).mpr hr
      obtain ⟨c, hc⟩ := inverse_some q.g
      exact ⟨⟨c, -q.d, -q.d2⟩, _, ss.map f, q, hh, span, hj, hq, hc, rfl, rfl⟩
  · intro t out
    constructor
    · rintro ⟨a₀, ha, h1, h2⟩
      rw [hh, Option.some.injEq] at ha
      subst ha
      exact ⟨h1, h2⟩
    · rintro ⟨h1, h2⟩
      exact ⟨_, hh, h1, h2⟩

/-- The controls of the example below: from the origin at five seconds with a speed of 1/2 to rest a quarter of a circle further, two seconds later. -/
def quarterStates : List State := [⟨⟨1, 0⟩, (0, ![1 / 2, 0, 0]), 0⟩, ⟨⟨!![0, -1, 0; 1, 0, 0; 0, 0, 1], ![1, 1, 0]⟩, 0, 0⟩]

theorem quarter_times : secondsTo [5000000000, 7000000000] 0 = 0 ∧ secondsTo [5000000000, 7000000000] 1 = 2 ∧ asSeconds 1000000000 = 1 := by
  decide +kernel

theorem quarter_trajectory : StoresTrajectory 0 2 [5000000000, 7000000000] quarterStates
    (fun i => if i = 0 then ((1, 0), (0, ![1 / 2, 0, 0]), 0) else ((!![0, -1, 0; 1, 0, 0; 0, 0, 1], ![1, 1, 0]), 0, 0))
    (fun _ => ((Real.pi / 2) • zAxis, ![Real.pi / 2, 0, 0])) := by
  have C := quarter_curve
  obtain ⟨z0, z1, -⟩ := quarter_times
  have n1 : eucNorm ((Real.pi / 2) • zAxis) = Real.pi / 2 := by
    rw [eucNorm_smul, zAxis_norm, mul_one, abs_of_pos Real.pi_div_two_pos]
  have hU1 := U_tiny.1
  have hpi := Real.pi_gt_d4
  refine ⟨rfl, ?_, ?_, ?_, ?_, ?_, ?_, ?_⟩
  · simp only [List.forall_mem_cons, List.not_mem_nil, false_imp_iff, implies_true, and_true]
    exact ⟨⟨by decide, by decide⟩, ⟨by decide, by decide⟩⟩
  · intro i h
    have hi : i = 0 := by simp at h; omega
    subst hi
    rw [z0, z1]
    norm_num
  · intro i h
    match i, h with
    | 0, _ => exact C.pose 0 (by simp [quarterControls])
    | 1, _ => exact C.pose 1 (by simp [quarterControls])
  · intro i h
    have hi : i = 0 := by simp [quarterStates] at h; omega
    subst hi
    exact quarter_stored.leads 0 (by simp)
  · intro i h
    change eucNorm ((Real.pi / 2) • zAxis) ≤ Real.pi - (661 * 0 + 33400 * U)
    rw [n1]
    linarith
  · intro i h
    exact (C.leads 0 (by simp [quarterControls])).bound
  · intro i h k hk hki
    have hi : i = 0 := by simp at h; omega
    subst hi
    rw [z0, z1]
    have T : ((([0, 2] : List ℚ)[0 + 1] : ℚ) : ℝ) - (([0, 2] : List ℚ)[0] : ℚ) = ((2 : ℚ) : ℝ) - ((0 : ℚ) : ℝ) := by norm_num
    have R := C.rates 0 (by simp) k hk hki
    rw [T] at R
    match k, hk with
    | 0, _ => exact R
    | 1, _ => exact R

/-- These controls meet the conditions, and a query at six seconds is answered: position and orientation are within 1e-9 of the exact motion at a time within
1e-14 of a second after the start, the velocities within 1e-8 and the accelerations within 1e-7. -/
example : ∃ (out : State) (Γ : ℝ → Pose × Twist × Twist) (τ : ℝ), PointAtTime [5000000000, 7000000000] quarterStates 6000000000 out ∧
    Γ 0 = ((1, 0), (0, ![1 / 2, 0, 0]), 0) ∧ Γ 2 = ((!![0, -1, 0; 1, 0, 0; 0, 0, 1], ![1, 1, 0]), 0, 0) ∧
    (∀ s, BodyKinematics (fun r => (Γ r).1) s (Γ s).2.1.2 (Γ s).2.1.1 (Γ s).2.2.2 (Γ s).2.2.1) ∧
    |τ - 1| ≤ 1e-14 ∧ StateWithin 1e-9 1e-9 1e-8 1e-8 1e-7 1e-7 out (Γ τ) := by
  have C := quarter_trajectory
  obtain ⟨z0, z1, z2⟩ := quarter_times
  have hd : InI64 1000000000 := ⟨by decide, by decide⟩
  obtain ⟨k1, k2⟩ := c113_computed [5000000000, 7000000000] quarterStates C.length C.span C.order (by simp)
  obtain ⟨out, h⟩ := (k1 1000000000 hd).mpr ⟨by rw [z2]; norm_num, by
    change asSeconds 1000000000 ≤ secondsTo [5000000000, 7000000000] 1
    rw [z1, z2]; norm_num⟩
  have hB : (2 : ℝ) ^ (-800 : ℤ) ≤ 2 := (zpow_le_zpow_right₀ (by norm_num) (by norm_num : (-800 : ℤ) ≤ 1)).trans (by norm_num)
  obtain ⟨Γ, h1, h2⟩ := c113_state (by norm_num) hB C
  obtain ⟨i, τ, T, hi, hT, -, -, -, -, h3, h4⟩ := h2 1000000000 out hd h
  have hi0 : i = 0 := by simp at hi; omega
  subst hi0
  have P := h1 0 (by simp)
  rw [z0, z1] at P hT
  have hT2 : T = 2 := by rw [hT]; norm_num
  subst hT2
  rw [Rat.cast_zero, Rat.cast_ofNat] at P
  have hU1 := U_tiny.1
  refine ⟨out, Γ 0, τ, (k2 6000000000 out).mpr ⟨hd, h⟩, P.start, P.stop, P.kinematics, ?_, ?_⟩
  · rw [z2, Rat.cast_one] at h3
    refine h3.trans (by norm_num)
  · unfold U at hU1
    obtain ⟨a1, a2, a3, a4, a5, a6⟩ := h4
    exact ⟨turnsAlike_mono a1 (by norm_num), a2.trans (by norm_num), a3.trans (by norm_num), a4.trans (by norm_num), a5.trans (by norm_num), a6.trans (by norm_num)⟩

end Verif.Props
