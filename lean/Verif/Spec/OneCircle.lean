import Verif.Spec.Motion
import Mathlib.Analysis.Normed.Algebra.MatrixExponential
/-! # Points of one screw motion or circle, stated with the matrix exponential -/
namespace Verif.Spec
open Matrix

/-- The pose `g` is `g0` followed by the amount `a` of the screw motion `x` fixed in the body (a line, a circle or a helix). -/
def OnScrew (x : V3 × V3) (g0 : M3 × V3) (a : ℝ) (g : M3 × V3) : Prop :=
  poseMatrix g = poseMatrix g0 * NormedSpace.exp (a • twistHat x)

/-- The body turns about the point `c` fixed in it, with its velocity and acceleration those of such a turn: the screw is `(w, c × w)`. -/
def Circling (w c : V3) (g0 g : M3 × V3) (d d2 : V3 × V3) : Prop :=
  (∃ a, OnScrew (w, crossProduct c w) g0 a g) ∧ (∃ r : ℝ, d = r • (w, crossProduct c w)) ∧ ∃ r : ℝ, d2 = r • (w, crossProduct c w)

/-- The same for curves of poses seen from the other side: `g` is the amount `a` of the screw motion `x`, fixed in space, after `g0`. -/
def OnSpaceScrew (x : V3 × V3) (g0 : M3 × V3) (a : ℝ) (g : M3 × V3) : Prop :=
  poseMatrix g = NormedSpace.exp (a • twistHat x) * poseMatrix g0

/-- Turning about the point `c` fixed in space. -/
def CirclingInSpace (w c : V3) (g0 g : M3 × V3) (d d2 : V3 × V3) : Prop :=
  (∃ a, OnSpaceScrew (w, crossProduct c w) g0 a g) ∧ (∃ r : ℝ, d = r • (w, crossProduct c w)) ∧ ∃ r : ℝ, d2 = r • (w, crossProduct c w)

/-- The pose `p` has exactly the orientation of `g` and a position at most `e` away from that of `g`. -/
def Within (e : ℝ) (p g : M3 × V3) : Prop := p.1 = g.1 ∧ Real.sqrt ((p.2 - g.2) ⬝ᵥ (p.2 - g.2)) ≤ e

end Verif.Spec
