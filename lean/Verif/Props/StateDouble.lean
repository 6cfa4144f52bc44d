import Verif.Proofs.StateDouble
import Verif.Props.TrajectoryDouble
/-! # C115: rounding errors of composed and relative states -/
namespace Verif.Props
open Verif.CurveExamples (zAxis)
open Verif.Spec hiding Jet
open Verif.TransformDouble Verif.ExpDouble Verif.LogDouble Verif.TCurveDouble Verif.TrajectoryDouble Verif.StateDouble Matrix SO3

/-- C115, `a * b`: when one motion is in the first state and another is in the second, the one following the other is a motion whose state the computed state
is near. -/
theorem c115_composed {δ B : ℝ} (hδ : δ ≤ 1e-10) (hB : 2 ^ (-1000 : ℤ) ≤ B) {a b c : State} {S S' : Pose × Twist × Twist} (ha : StoresState δ B a S)
    (hb : StoresState δ B b S') (hc : Composed a b c) {γ γ' : ℝ → Pose} {t : ℝ} (h : MovesThrough γ t S) (h' : MovesThrough γ' t S') :
    ∃ (Γ : ℝ → Pose) (Q : Pose × Twist × Twist), (∀ r, poseMatrix (Γ r) = poseMatrix (γ r) * poseMatrix (γ' r)) ∧ MovesThrough Γ t Q ∧
      StateWithin (3.01 * (δ + 10 * 2 ^ (-53 : ℤ))) (4.63 * (δ + 10 * 2 ^ (-53 : ℤ)) * B) (22.3 * (δ + 10 * 2 ^ (-53 : ℤ)))
        (60.1 * (δ + 10 * 2 ^ (-53 : ℤ)) * B) (269.6 * (δ + 10 * 2 ^ (-53 : ℤ))) (788.3 * (δ + 10 * 2 ^ (-53 : ℤ)) * B) c Q := by
  obtain ⟨C, na⟩ := stored_near hδ hB ha
  obtain ⟨-, nb⟩ := stored_near hδ hB hb
  exact ⟨_, _, fun r => SE3.H_mul _ _, moves_compose h h', (composed_stored C na nb hc).within⟩

/-- C115, `a.inverse_times(b)`: the motion of the second body seen from the first is a motion whose state the computed state is near. -/
theorem c115_relative {δ B : ℝ} (hδ : δ ≤ 1e-10) (hB : 2 ^ (-1000 : ℤ) ≤ B) {a b c : State} {S S' : Pose × Twist × Twist} (ha : StoresState δ B a S)
    (hb : StoresState δ B b S') (hc : Relative a b c) {γ γ' : ℝ → Pose} {t : ℝ} (h : MovesThrough γ t S) (h' : MovesThrough γ' t S') :
    ∃ (Γ : ℝ → Pose) (Q : Pose × Twist × Twist), (∀ r, poseMatrix (γ r) * poseMatrix (Γ r) = poseMatrix (γ' r)) ∧ MovesThrough Γ t Q ∧
      StateWithin (3.01 * (δ + 10 * 2 ^ (-53 : ℤ))) (6.25 * (δ + 10 * 2 ^ (-53 : ℤ)) * B) (38.5 * (δ + 10 * 2 ^ (-53 : ℤ)))
        (137.8 * (δ + 10 * 2 ^ (-53 : ℤ)) * B) (447.7 * (δ + 10 * 2 ^ (-53 : ℤ))) (1752 * (δ + 10 * 2 ^ (-53 : ℤ)) * B) c Q := by
  obtain ⟨C, na⟩ := stored_near hδ hB ha
  obtain ⟨-, nb⟩ := stored_near hδ hB hb
  refine ⟨_, _, fun r => ?_, moves_compose (moves_invert h) h', (relative_stored C na nb hc).within⟩
  have e : poseMatrix (SE3.mul (SE3.inv (γ r)) (γ' r)) = poseMatrix (SE3.inv (γ r)) * poseMatrix (γ' r) := SE3.H_mul _ _
  rw [e, ← Matrix.mul_assoc, (poseMatrix_inv (h.rotation r)).2, Matrix.one_mul]

/-- C115, round trip: a state that is taken relative to another one and composed with it again is near what it was; and a state relative to itself is near
the identity at rest. -/
theorem c115_roundtrip {δ B : ℝ} (hδ : δ ≤ 1e-10) (hB : 2 ^ (-1000 : ℤ) ≤ B) {a b c d : State} {S S' : Pose × Twist × Twist} (ha : StoresState δ B a S)
    (hb : StoresState δ B b S') (hc : Relative a b c) (hd : Composed a c d) :
    StateWithin (5.03 * (δ + 10 * 2 ^ (-53 : ℤ))) (11.7 * (δ + 10 * 2 ^ (-53 : ℤ)) * B) (81.9 * (δ + 10 * 2 ^ (-53 : ℤ)))
      (381.4 * (δ + 10 * 2 ^ (-53 : ℤ)) * B) (1790.5 * (δ + 10 * 2 ^ (-53 : ℤ))) (10444.5 * (δ + 10 * 2 ^ (-53 : ℤ)) * B) d S' ∧
    (S = S' → StateWithin (3.01 * (δ + 10 * 2 ^ (-53 : ℤ))) (6.25 * (δ + 10 * 2 ^ (-53 : ℤ)) * B) (38.5 * (δ + 10 * 2 ^ (-53 : ℤ)))
        (137.8 * (δ + 10 * 2 ^ (-53 : ℤ)) * B) (447.7 * (δ + 10 * 2 ^ (-53 : ℤ))) (1752 * (δ + 10 * 2 ^ (-53 : ℤ)) * B) c ((1, 0), 0, 0)) := by
  obtain ⟨C, na⟩ := stored_near hδ hB ha
  obtain ⟨-, nb⟩ := stored_near hδ hB hb
  constructor
  · obtain ⟨_, _, _, _, _, k⟩ := roundtrip_stored C na nb hc hd
    exact k.within
  · intro e
    subst e
    have k := (relative_stored C na nb hc).within
    rw [invert_compose ha.pose.rotation] at k
    exact k

/-- C115: every two states have a product and a relative state, and every state is one that some motion is in. -/
theorem c115_computed (a b : State) (S : Pose × Twist × Twist) (h : IsRotation S.1.1) (t : ℝ) :
    (∃ c, Composed a b c) ∧ (∃ c, Relative a b c) ∧ ∃ γ, MovesThrough γ t S :=
  ⟨composed_some a b, relative_some a b, moves_some h t⟩

/-- A vehicle at the origin that moves forward with speed 1 and turns left with one radian per second. -/
def turningState : State := ⟨⟨1, 0⟩, (![0, 0, 1], ![1, 0, 0]), 0⟩
/-- A sensor mounted two metres to the left that spins with two radians per second. -/
def mountedState : State := ⟨⟨1, ![0, 2, 0]⟩, (![0, 0, 2], 0), 0⟩

theorem realVec_zero : realVec 0 = 0 := by ext i; simp [realVec]

theorem turnsAlike_one : TurnsAlike 0 (realRot 1) 1 := by
  have : realRot 1 = 1 := by ext i j; fin_cases i <;> fin_cases j <;> simp [realRot]
  rw [this]
  intro v
  simp [eucNorm_zero]

theorem stores_rest {B : ℝ} (hB : 0 ≤ B) : StoresTwist 0 B 0 0 := by
  refine ⟨?_, ?_, ?_, ?_⟩ <;> simp [realVec_zero, eucNorm_zero, hB]

theorem norm_axis (x : ℝ) (hx : 0 ≤ x) : eucNorm ![x, 0, 0] = x ∧ eucNorm ![0, x, 0] = x ∧ eucNorm ![0, 0, x] = x := by
  refine ⟨?_, ?_, ?_⟩ <;> · rw [eucNorm, sqNorm_eq]; simp [Real.sqrt_sq hx]

theorem turning_stored : StoresState 0 2 turningState ((1, 0), (![0, 0, 1], ![1, 0, 0]), 0) := by
  have e1 : realVec ![0, 0, 1] = ![0, 0, 1] := by ext i; fin_cases i <;> simp [realVec]
  have e2 : realVec ![1, 0, 0] = ![1, 0, 0] := by ext i; fin_cases i <;> simp [realVec]
  obtain ⟨n1, -, n3⟩ := norm_axis 1 (by norm_num)
  refine ⟨⟨⟨by simp, by simp⟩, turnsAlike_one, ?_, ?_⟩, ⟨?_, ?_, ?_, ?_⟩, stores_rest (by norm_num)⟩
  · simp [eucNorm_zero]
  · simp [turningState, realVec_zero, eucNorm_zero]
  · rw [n3]; norm_num
  · rw [n1]; norm_num
  · simp only [turningState]; rw [e1]; simp [eucNorm_zero]
  · simp only [turningState]; rw [e2]; simp [eucNorm_zero]

theorem mounted_stored : StoresState 0 2 mountedState ((1, ![0, 2, 0]), (![0, 0, 2], 0), 0) := by
  have e1 : realVec ![0, 0, 2] = ![0, 0, 2] := by ext i; fin_cases i <;> simp [realVec]
  have e2 : realVec ![0, 2, 0] = ![0, 2, 0] := by ext i; fin_cases i <;> simp [realVec]
  obtain ⟨-, n2, n3⟩ := norm_axis 2 (by norm_num)
  refine ⟨⟨⟨by simp, by simp⟩, turnsAlike_one, ?_, ?_⟩, ⟨?_, ?_, ?_, ?_⟩, stores_rest (by norm_num)⟩
  · rw [n2]
  · simp only [mountedState]; rw [e2]; simp [eucNorm_zero]
  · rw [n3]; norm_num
  · simp [eucNorm_zero]
  · simp only [mountedState]; rw [e1]; simp [eucNorm_zero]
  · simp [mountedState, realVec_zero, eucNorm_zero]

/-- The hypotheses are met: the sensor moves backwards with speed 1 and turns with three radians per second, as computed to within 1e-12. -/
example : ∃ c, Composed turningState mountedState c ∧
    StateWithin 1e-12 1e-12 1e-12 1e-12 1e-12 2e-12 c ((1, ![0, 2, 0]), (![0, 0, 3], ![-1, 0, 0]), (0, ![0, 2, 0])) := by
  obtain ⟨c, hc⟩ := composed_some turningState mountedState
  have hB : (2 : ℝ) ^ (-1000 : ℤ) ≤ 2 := (zpow_le_zpow_right₀ (by norm_num) (by norm_num : (-1000 : ℤ) ≤ 1)).trans (by norm_num)
  obtain ⟨C, na⟩ := stored_near (by norm_num) hB turning_stored
  obtain ⟨-, nb⟩ := stored_near (by norm_num) hB mounted_stored
  have k := (composed_stored C na nb hc).within
  have e : compose ((1, 0), (![0, 0, 1], ![1, 0, 0]), 0) ((1, ![0, 2, 0]), (![0, 0, 2], 0), 0) =
      ((1, ![0, 2, 0]), (![0, 0, 3], ![-1, 0, 0]), (0, ![0, 2, 0])) := by
    simp only [compose, SE3.mul, SE3.inv, SE3.adjointTimes, SE3.bracket, SO3.mul, SO3.inv, SO3.act]
    refine Prod.ext (Prod.ext (by simp) ?_) (Prod.ext (Prod.ext ?_ ?_) (Prod.ext ?_ ?_))
    all_goals funext i; fin_cases i <;> norm_num [cross_apply, Matrix.one_mulVec, Matrix.transpose_one]
    · change -(2 * (1 : ℝ)) + 1 = -1
      norm_num
    · change -((2 : ℝ) * (-(2 * 1) + 1)) = 2
      norm_num
  rw [e] at k
  refine ⟨c, hc, ?_⟩
  obtain ⟨a1, a2, a3, a4, a5, a6⟩ := k
  have hU1 := U_tiny.1
  exact ⟨turnsAlike_mono a1 (by linarith), a2.trans (by linarith), a3.trans (by linarith), a4.trans (by linarith), a5.trans (by linarith),
    a6.trans (by linarith)⟩

/-- There are motions in these states, a relative state, and a state composed again, so that the hypotheses of the theorems are met together. -/
example : ∃ γ γ' c d, MovesThrough γ 0 ((1, 0), (![0, 0, 1], ![1, 0, 0]), 0) ∧ MovesThrough γ' 0 ((1, ![0, 2, 0]), (![0, 0, 2], 0), 0) ∧
    Relative turningState mountedState c ∧ Composed turningState c d := by
  obtain ⟨γ, h⟩ := moves_some (S := ((1, 0), (![0, 0, 1], ![1, 0, 0]), 0)) ⟨by simp, by simp⟩ 0
  obtain ⟨γ', h'⟩ := moves_some (S := ((1, ![0, 2, 0]), (![0, 0, 2], 0), 0)) ⟨by simp, by simp⟩ 0
  obtain ⟨c, hc⟩ := relative_some turningState mountedState
  obtain ⟨d, hd⟩ := composed_some turningState c
  exact ⟨γ, γ', c, d, h, h', hc, hd⟩

end Verif.Props
