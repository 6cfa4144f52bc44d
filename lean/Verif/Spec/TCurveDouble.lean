import Verif.Spec.DCurveDouble
import Verif.Model.TCurveDouble
/-! # The time curve a user expects between given poses, velocities and accelerations -/
namespace Verif.Spec
open Verif.TransformDouble Verif.TCurveDouble Matrix

/-- `y` is the intended twist `x` up to a relative error `δ`, where twists turn by up to 10 and move by up to `B`. -/
structure StoresTwist (δ B : ℝ) (y : Tangent) (x : Twist) : Prop where
  turn : SO3.eucNorm x.1 ≤ 10
  bound : SO3.eucNorm x.2 ≤ B
  rot : SO3.eucNorm (realVec y.1 - x.1) ≤ δ
  trans : SO3.eucNorm (realVec y.2 - x.2) ≤ δ * B

/-- A pose with a velocity and an acceleration, as stored and as meant. -/
structure StoresJet (δ B : ℝ) (j : Jet) (J : Pose × Twist × Twist) : Prop where
  pose : StoresPose δ B j.g J.1
  velocity : StoresTwist δ B j.d J.2.1
  acceleration : StoresTwist δ B j.d2 J.2.2

/-- The twist `x` leads from the pose `G` to the pose `G'`, with a translation of up to `B` and by less than half a turn (by a margin that depends on the
error `δ`). -/
structure LeadsTo (δ B : ℝ) (x : Twist) (G G' : Pose) : Prop where
  leads : poseMatrix G' = NormedSpace.exp (twistHat x) * poseMatrix G
  turn : SO3.eucNorm x.1 ≤ Real.pi - (330 * δ + 4300 * 2 ^ (-53 : ℤ))
  bound : SO3.eucNorm x.2 ≤ B

/-- The motion from `J` to `J'` in unit time, where `x` leads from the one pose to the other: one screw for every quantity given at the ends, each by a
polynomial of degree five. -/
noncomputable def quinticMotion (x : Twist) (J J' : Pose × Twist × Twist) (u : ℝ) : Matrix (Fin 3 ⊕ Unit) (Fin 3 ⊕ Unit) ℝ :=
  NormedSpace.exp ((1 / 2 * u ^ 3 - u ^ 4 + 1 / 2 * u ^ 5) • twistHat J'.2.2) *
  NormedSpace.exp ((1 / 2 * u ^ 2 - 3 / 2 * u ^ 3 + 3 / 2 * u ^ 4 - 1 / 2 * u ^ 5) • twistHat J.2.2) *
  NormedSpace.exp ((-4 * u ^ 3 + 7 * u ^ 4 - 3 * u ^ 5) • twistHat J'.2.1) *
  NormedSpace.exp ((u - 6 * u ^ 3 + 8 * u ^ 4 - 3 * u ^ 5) • twistHat J.2.1) *
  NormedSpace.exp ((10 * u ^ 3 - 15 * u ^ 4 + 6 * u ^ 5) • twistHat x) * poseMatrix J.1

/-- `γ` is that motion with its velocity and its acceleration, which has the given values at both ends. -/
structure IsQuinticMotion (x : Twist) (J J' : Pose × Twist × Twist) (γ : ℝ → Pose × Twist × Twist) : Prop where
  formula : ∀ u, poseMatrix (γ u).1 = quinticMotion x J J' u
  jet : ∀ u, HasLeftJet poseMatrix twistHat (fun s => (γ s).1) u (γ u).2.1 (γ u).2.2
  start : γ 0 = J
  stop : γ 1 = J'

/-- The computed pose, velocity and acceleration `j` are within given distances of the exact ones. -/
structure JetWithin (r t dr dt d2r d2t : ℝ) (j : Jet) (J : Pose × Twist × Twist) : Prop where
  rot : TurnsAlike r (realRot j.g.rot) J.1.1
  trans : SO3.eucNorm (realVec j.g.trans - J.1.2) ≤ t
  drot : SO3.eucNorm (realVec j.d.1 - J.2.1.1) ≤ dr
  dtrans : SO3.eucNorm (realVec j.d.2 - J.2.1.2) ≤ dt
  d2rot : SO3.eucNorm (realVec j.d2.1 - J.2.2.1) ≤ d2r
  d2trans : SO3.eucNorm (realVec j.d2.2 - J.2.2.2) ≤ d2t

/-- The same point with time counted in units of `T`. -/
noncomputable def inUnits (T : ℝ) (J : Pose × Twist × Twist) : Pose × Twist × Twist := (J.1, T • J.2.1, T ^ 2 • J.2.2)

/-- `y` is the intended velocity or acceleration `x` up to a relative error `δ`, where in the time `T` (or its square) it turns by up to 10 and moves by up
to `B`. -/
structure StoresRate (δ B T : ℝ) (y : Tangent) (x : Twist) : Prop where
  turn : T * SO3.eucNorm x.1 ≤ 10
  bound : T * SO3.eucNorm x.2 ≤ B
  rot : T * SO3.eucNorm (realVec y.1 - x.1) ≤ δ
  trans : T * SO3.eucNorm (realVec y.2 - x.2) ≤ δ * B

/-- The control points of a time curve, as stored and as meant: `x i` leads from pose `i` to the next. -/
structure StoresCurve (δ B : ℝ) (ts : List ℚ) (ps : List Jet) (J : ℕ → Pose × Twist × Twist) (x : ℕ → Twist) : Prop where
  length : ps.length = ts.length
  double : ∀ t ∈ ts, IsDouble t
  step : ∀ (i : ℕ) (h : i + 1 < ts.length), (2 : ℚ) ^ (-1021 : ℤ) ≤ ts[i + 1] - ts[i] ∧ ts[i + 1] - ts[i] ≤ 2 ^ (100 : ℤ)
  pose : ∀ (i : ℕ) (h : i < ps.length), StoresPose δ B ps[i].g (J i).1
  leads : ∀ i, i + 1 < ps.length → LeadsTo (δ + 81 * 2 ^ (-53 : ℤ)) B (x i) (J i).1 (J (i + 1)).1
  rates : ∀ (i : ℕ) (h : i + 1 < ts.length) (k : ℕ) (hk : k < ps.length), k = i ∨ k = i + 1 →
    StoresRate δ B ((ts[i + 1] : ℝ) - ts[i]) ps[k].d (J k).2.1 ∧ StoresRate δ B (((ts[i + 1] : ℝ) - ts[i]) ^ 2) ps[k].d2 (J k).2.2

/-- `Γ` is the motion from `J` at time `t` to `J'` at time `t'`, with its velocity and its acceleration. -/
structure IsPiece (x : Twist) (t t' : ℝ) (J J' : Pose × Twist × Twist) (Γ : ℝ → Pose × Twist × Twist) : Prop where
  formula : ∀ s, poseMatrix (Γ s).1 = quinticMotion x (inUnits (t' - t) J) (inUnits (t' - t) J') ((s - t) / (t' - t))
  jet : ∀ s, HasLeftJet poseMatrix twistHat (fun r => (Γ r).1) s (Γ s).2.1 (Γ s).2.2
  start : Γ t = J
  stop : Γ t' = J'

end Verif.Spec
