import Verif.Spec.Motion
/-! # What a rigid body state is to its user: five independent values -/
namespace Verif.Spec

/-- The five values a user reads from a state (`P` is the type of poses). -/
@[ext] structure BodyReading (P : Type) where
  pose : P
  linearVelocity : V3
  angularVelocity : V3
  linearAcceleration : V3
  angularAcceleration : V3

/-- The setter calls a user can make. -/
inductive BodyWrite (P : Type)
  | pose (p : P)
  | linearVelocity (v : V3)
  | angularVelocity (v : V3)
  | linearAcceleration (v : V3)
  | angularAcceleration (v : V3)

/-- What a setter call ought to do: replace one of the five values. -/
def BodyReading.after {P : Type} (r : BodyReading P) : BodyWrite P → BodyReading P
  | .pose p => { r with pose := p }
  | .linearVelocity v => { r with linearVelocity := v }
  | .angularVelocity v => { r with angularVelocity := v }
  | .linearAcceleration v => { r with linearAcceleration := v }
  | .angularAcceleration v => { r with angularAcceleration := v }

open Matrix Topology in
/-- Body-frame kinematics of a moving pose at time `t`, with `R` the orientation and `p` the position: near `t` there are body-frame linear and angular
velocities `u`, `w` with `p' = R u` and `R' = R [w]ₓ`; they are `v`, `om` at `t` and have there the derivatives `a`, `al`. -/
def BodyKinematics (g : ℝ → M3 × V3) (t : ℝ) (v om a al : V3) : Prop :=
  ∃ u w : ℝ → V3,
    (∀ᶠ s in 𝓝 t, HasDerivAt (fun r => (g r).2) ((g s).1 *ᵥ u s) s ∧
      ∀ x : V3, HasDerivAt (fun r => (g r).1 *ᵥ x) ((g s).1 *ᵥ crossProduct (w s) x) s) ∧
    u t = v ∧ w t = om ∧ HasDerivAt u a t ∧ HasDerivAt w al t

end Verif.Spec
