import Verif.Model.TestCurves
/-! # What C125 asks of random test curves -/
namespace Verif

/-- The frames are not null, as those of `new_frame` are. -/
structure TestCurves.Frames.Named (F : TestCurves.Frames) : Prop where
  into : F.into ≠ Frame.null
  src : F.src ≠ Frame.null
  point : F.point ≠ Frame.null
  ref : F.ref ≠ Frame.null

namespace Spec

/-- Three successive numbers, from the number `k` on. -/
def nextThree (r : ℕ → ℝ) (k : ℕ) : V3 := fun j => r (k + j)

/-- Six successive numbers, from the number `k` on. -/
def nextSix (r : ℕ → ℝ) (k : ℕ) : Twist := (nextThree r k, nextThree r (k + 3))

/-- The nine numbers that a point of a random rotation curve was made from: three each for the rotation, the velocity and the acceleration. -/
noncomputable def numbersOf (p : TControl M3 V3) : List ℝ :=
  let x := SO3.ops.log p.point.g.val
  [x 0, x 1, x 2, p.point.d 0, p.point.d 1, p.point.d 2, p.point.d2 0, p.point.d2 1, p.point.d2 2]

/-- The times go up. -/
def Increasing (times : List ℝ) : Prop := times.Pairwise (· < ·)

end Spec
end Verif
