import Verif.Model.TCurveDouble
import Verif.Model.Binary64
/-! # Trajectories in binary64 arithmetic

resim/actor/state/trajectory.cc on top of time curves in doubles (`TCurveDouble`) and of `as_seconds` (`Binary64`).  As there, a finite double is its
rational value, the model is a relation that admits every order of the sums inside an expression and every fusing of a product with an addition there,
overflow of doubles is not modelled, and frames are left out. -/
namespace Verif.TrajectoryDouble
open TransformDouble TCurveDouble Binary64

/-- `RigidBodyState<SE3>`, resim/actor/state/rigid_body_state.hh:144 with the members of `TwoJetR` (resim/curves/two_jet.hh:174-184): the transform from the
body to the reference frame and its right derivatives. -/
structure State where
  g : Stored
  d : Tangent
  d2 : Tangent

/-- `TwoJetR::left_two_jet`, resim/curves/two_jet.cc:173-178. -/
def LeftOf (s : State) (j : Jet) : Prop := Inverse s.g j.g ∧ j.d = -s.d ∧ j.d2 = -s.d2

/-- `TwoJetL::right_two_jet`, resim/curves/two_jet.cc:75-81. -/
def RightOf (j : Jet) (s : State) : Prop := Inverse j.g s.g ∧ s.d = -j.d ∧ s.d2 = -j.d2

/-- `Trajectory::point_at(const time::Duration &)`, resim/actor/state/trajectory.cc:63-67, on a trajectory whose controls were appended at the times `ats`
(nanoseconds) with the states `ss` (trajectory.cc:32-50, 52-56): the first time is the start, the curve holds the time from the start to each control, in
seconds, and the left two-jet of each state. -/
def PointAfter (ats : List ℤ) (ss : List State) (d : ℤ) (out : State) : Prop :=
  ∃ a₀ js q, ats.head? = some a₀ ∧ (∀ a ∈ ats, InI64 (a - a₀)) ∧ List.Forall₂ LeftOf ss js ∧
    PointAt (ats.map fun a => asSeconds (a - a₀)) js (asSeconds d) q ∧ RightOf q out

/-- `Trajectory::point_at(const time::Timestamp &)`, resim/actor/state/trajectory.cc:58-61. -/
def PointAtTime (ats : List ℤ) (ss : List State) (t : ℤ) (out : State) : Prop :=
  ∃ a₀, ats.head? = some a₀ ∧ InI64 (t - a₀) ∧ PointAfter ats ss (t - a₀) out

end Verif.TrajectoryDouble
