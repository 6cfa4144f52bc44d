import Verif.Model.TestElements
import Verif.Model.TCurve
/-! # Random two-jets and curves for tests: resim/curves/two_jet_test_helpers.cc and resim/curves/t_curve_test_helpers.cc

The numbers a helper draws are an arbitrary sequence `r`, which its seed determines; real arithmetic.  The fixed frames of the helpers are
parameters. -/
namespace Verif.TestCurves
open TestElements

/-- What the templates resim/curves/two_jet_test_helpers.cc:75-78 and resim/curves/t_curve_test_helpers.cc:50-51 are instantiated with: the
operations of the group, the `random_vector` of its tangent vectors (resim/testing/random_matrix.hh:42-60) and how many numbers that draws. -/
structure Kind (G A V : Type) where
  ops : LieOps ℝ G A V
  vector : (ℕ → ℝ) → ℕ → A
  dof : ℕ

/-- `SO3`, resim/curves/t_curve_test_helpers.cc:51. -/
noncomputable def so3 : Kind M3 V3 V3 := ⟨SO3.ops, random3, 3⟩

/-- `SE3`, resim/curves/t_curve_test_helpers.cc:50. -/
noncomputable def se3 : Kind Pose Twist V3 := ⟨SE3.ops, random6, 6⟩

/-- A `TwoJetTestHelper`, resim/curves/two_jet_test_helpers.hh:28: the generator `rng_`, as the numbers of its seed and how many have been drawn. -/
structure Helper where
  numbers : ℕ → ℝ
  drawn : ℕ

/-- `TwoJetTestHelper(seed)`, resim/curves/two_jet_test_helpers.cc:34-37, and `TCurveTestHelper(seed)`, resim/curves/t_curve_test_helpers.cc:22-24;
the numbers are those of the seed. -/
def Helper.make (numbersOf : ℕ → ℕ → ℝ) (seed : ℕ) : Helper := ⟨numbersOf seed, 0⟩

variable {G A V : Type}

/-- `test_vector`, resim/curves/two_jet_test_helpers.cc:27-30. -/
def testVector (K : Kind G A V) (h : Helper) : A × Helper := (K.vector h.numbers h.drawn, ⟨h.numbers, h.drawn + K.dof⟩)

/-- `make_test_two_jet` for a left two-jet, resim/curves/two_jet_test_helpers.cc:39-48, and the helper afterwards.  The two calls in the argument
list (lines 46 and 47) may be made in either order; `late` says that the one for the second derivative is made first. -/
def makeTestTwoJet (K : Kind G A V) (late : Bool) (into src : Frame) (h : Helper) : Outcome (TwoJetL G A) × Helper :=
  let (x, h) := testVector K h
  match Framed.exp K.ops x into src with
  | .ok pointFromRef =>
    let (u, h) := testVector K h
    let (v, h) := testVector K h
    (.ok (if late then ⟨pointFromRef, v, u⟩ else ⟨pointFromRef, u, v⟩), h)
  | .throw m => (.throw m, h)
  | .ub w => (.ub w, h)

/-- The fixed frames of the two classes, resim/curves/two_jet_test_helpers.hh:32-33 and resim/curves/t_curve_test_helpers.hh:23-24: `INTO_FRAME`,
`FROM_FRAME`, `POINT_FRAME`, `REF_FRAME`. -/
structure Frames where
  into : Frame
  src : Frame
  point : Frame
  ref : Frame

/-- The loop of `make_t_curve`, resim/curves/t_curve_test_helpers.cc:36-46, and the helper afterwards. -/
noncomputable def makeTCurveFrom [AddCommGroup A] [Module ℝ A] (K : Kind G A V) (late : Bool) (F : Frames) (framed : Bool) (curve : TCurve G A) (h : Helper) :
    List ℝ → Outcome (TCurve G A) × Helper
  | [] => (.ok curve, h)
  | t :: times =>
    match makeTestTwoJet K late F.into F.src h with
    | (.ok jet, h) =>
      match (if framed then Framed.setFrames jet.g F.point F.ref else .ok (Framed.setUnframed jet.g)) with
      | .ok group =>
        match TCurve.append curve ⟨t, { jet with g := group }⟩ with
        | (curve, .ok ()) => makeTCurveFrom K late F framed curve h times
        | (_, .throw m) => (.throw m, h)
        | (_, .ub w) => (.ub w, h)
      | .throw m => (.throw m, h)
      | .ub w => (.ub w, h)
    | (.throw m, h) => (.throw m, h)
    | (.ub w, h) => (.ub w, h)

/-- `make_t_curve`, resim/curves/t_curve_test_helpers.cc:31-48. -/
noncomputable def makeTCurve [AddCommGroup A] [Module ℝ A] (K : Kind G A V) (late : Bool) (F : Frames) (h : Helper) (times : List ℝ) (framed : Bool) :
    Outcome (TCurve G A) × Helper := makeTCurveFrom K late F framed TCurve.empty h times

end Verif.TestCurves
