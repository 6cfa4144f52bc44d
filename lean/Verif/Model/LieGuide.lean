import Verif.Model.SO3Construct
import Verif.Model.SE3
/-! # Code of the Lie group guide (docs/resim/transforms/using_liegroups.md and its companion resim/examples/liegroups.cc) -/
namespace Verif.LieGuide
open Framed

/-- `scene_from_a * (scene_from_a.inverse() * scene_from_b).interp(FRACTION)`, resim/examples/liegroups.cc:67-69, the documented way of interpolating
between two transforms (docs/resim/transforms/using_liegroups.md:115-117), for either class. -/
def interpBetween {R G A V : Type} (L : LieOps R G A V) (a b : Framed G) (fraction : R) : Outcome (Framed G) := do
  let aFromScene ← inverse L a
  let aFromB ← mul L aFromScene b
  let part ← interp L aFromB fraction
  mul L a part

/-- `SO3(phi, {1., 0., 0.}) * SO3(theta, {0., 1., 0.}) * SO3(psi, {0., 0., 1.})`, resim/examples/liegroups.cc:33-35. -/
noncomputable def eulerAngles (phi theta psi : ℝ) : Outcome (Framed M3) := do
  let first ← mul SO3.ops (SO3.ofAngleAxis phi ![1, 0, 0]) (SO3.ofAngleAxis theta ![0, 1, 0])
  mul SO3.ops first (SO3.ofAngleAxis psi ![0, 0, 1])

/-- `SO3::exp({phi, theta, psi})`, resim/examples/liegroups.cc:40. -/
noncomputable def expOfAngles (phi theta psi : ℝ) : Framed M3 := expUnframed SO3.ops ![phi, theta, psi]

end Verif.LieGuide
