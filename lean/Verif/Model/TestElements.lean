import Verif.Model.SE3
import Verif.Model.Outcome
import Verif.Model.TwoJet
/-! # Test inputs: resim/transforms/liegroup_test_helpers.cc

The generator of pseudo-random numbers is an arbitrary sequence `r` of numbers, the same at every call as the seed is constant (line 58); real arithmetic; the count fits an `int`. -/
namespace Verif.TestElements

/-- `random_vector` of three entries, resim/testing/random_matrix.hh:42-60, which draws the next three numbers. -/
def random3 (r : ℕ → ℝ) (n : ℕ) : V3 := ![r n, r (n + 1), r (n + 2)]

/-- `make_large_vector` for `SO3::TangentVector`, resim/transforms/liegroup_test_helpers.cc:32-41.  As `Eigen::Vector3d` is the same type, this one
is used for it too. -/
noncomputable def largeRotation : V3 :=
  let l := (Real.pi - 0.01) / 1.732
  ![l, l, -l]

/-- `make_test_vectors<Eigen::Vector3d>`, which is `make_test_algebra_elements<SO3>`, resim/transforms/liegroup_test_helpers.cc:55-86. -/
noncomputable def makeTestVectors3 (r : ℕ → ℝ) (count : ℕ) : Outcome (List V3) := do
  Outcome.reassert (count ≥ 7) "The minimum number of test elements you can request is seven. Please increase the count."
  .ok ([0, 1, -1, largeRotation, (1e-6 : ℝ) • random3 r 0] ++ (List.range (count - 5)).map fun i => random3 r (3 + 3 * i))

/-- `random_vector` of six entries, resim/testing/random_matrix.hh:42-60. -/
def random6 (r : ℕ → ℝ) (n : ℕ) : Twist := (random3 r n, random3 r (n + 3))

/-- `make_test_algebra_elements<SE3>`, resim/transforms/liegroup_test_helpers.cc:43-86. -/
noncomputable def makeTestVectors6 (r : ℕ → ℝ) (count : ℕ) : Outcome (List Twist) := do
  Outcome.reassert (count ≥ 7) "The minimum number of test elements you can request is seven. Please increase the count."
  .ok ([0, (1, 1), (-1, -1), (largeRotation, (1e6 : ℝ) • random3 r 0), (1e-6 : ℝ) • random6 r 3] ++
    (List.range (count - 5)).map fun i => random6 r (9 + 6 * i))

/-- `make_test_group_elements<SO3>`, resim/transforms/liegroup_test_helpers.cc:88-102. -/
noncomputable def makeTestRotations (r : ℕ → ℝ) (count : ℕ) : Outcome (List M3) := do
  let vs ← makeTestVectors3 r count
  .ok (vs.map SO3.exp)

/-- `make_test_group_elements<SE3>`, resim/transforms/liegroup_test_helpers.cc:88-102. -/
noncomputable def makeTestPoses (r : ℕ → ℝ) (count : ℕ) : Outcome (List Pose) := do
  let vs ← makeTestVectors6 r count
  .ok (vs.map SE3.exp)

/-- `make_test_two_jet_elements` for `SE3`, resim/curves/two_jet_test_helpers.cc:50-73; `into` and `src` are its constant frames. -/
noncomputable def makeTestTwoJets (into src : Frame) (r : ℕ → ℝ) (count : ℕ) : Outcome (List (TwoJetL Pose Twist)) := do
  Outcome.reassert (count ≥ 7) "The minimum number of test elements you can request is seven. Please increase the count."
  let groups ← makeTestPoses r count
  let algebra₁ ← makeTestVectors6 r count
  let algebra₂ ← makeTestVectors6 r count
  .ok ((groups.zip (algebra₁.zip algebra₂)).map fun e => ⟨⟨e.1, into, src⟩, e.2.1, e.2.2⟩)

end Verif.TestElements
