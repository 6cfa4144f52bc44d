import Verif.Spec.Motion
/-! # How sharply a path bends -/
namespace Verif.Spec
open Matrix Topology

/-- The path `pos` has a velocity near time `t`, it moves at time `t`, its velocity has the derivative `acc` there, and its curvature there is `κ`:
the length of velocity times acceleration over the cube of the speed.  On a circle this is one over the radius. -/
def Bends (pos : ℝ → Fin 3 → ℝ) (t : ℝ) (acc : Fin 3 → ℝ) (κ : ℝ) : Prop :=
  ∃ vel : ℝ → Fin 3 → ℝ, (∀ᶠ r in 𝓝 t, HasDerivAt pos (vel r) r) ∧ HasDerivAt vel acc t ∧ vel t ≠ 0 ∧
    κ = Real.sqrt ((vel t ⨯₃ acc) ⬝ᵥ (vel t ⨯₃ acc)) / Real.sqrt (vel t ⬝ᵥ vel t) ^ 3

end Verif.Spec
