import Verif.Model.TrajectoryDouble
/-! # Composed and relative rigid body states in binary64 arithmetic

resim/actor/state/rigid_body_state.cc:60-70 on top of resim/curves/two_jet.cc, with `operator*`, `inverse` and `adjoint_times` of transforms in doubles
(`TransformDouble`, `TCurveDouble`).  As there, a finite double is its rational value, the model is a relation that admits every order of the sums inside an
expression and every fusing of a product with an addition there, overflow of doubles is not modelled, and frames are left out. -/
namespace Verif.StateDouble
open TransformDouble TCurveDouble TrajectoryDouble

/-- `RigidBodyState::operator*`, resim/actor/state/rigid_body_state.cc:60-64, that is `TwoJetR::operator*`, resim/curves/two_jet.cc:158-170; the inverse
of the other pose is computed three times and `adjoint_times(d_ref_from_frame_)` twice. -/
def Composed (a b c : State) : Prop :=
  Mul a.g b.g c.g ∧ (∃ i r, Inverse b.g i ∧ AdTimes i a.d r ∧ Added b.d r c.d) ∧
  ∃ i i' r r2 s z, Inverse b.g i ∧ Inverse b.g i' ∧ AdTimes i a.d2 r2 ∧ Added b.d2 r2 s ∧ AdTimes i' a.d r ∧ Bracket b.d r z ∧ Added s (-z) c.d2

/-- `TwoJetR::inverse`, resim/curves/two_jet.cc:148-156. -/
def Reversed (a c : State) : Prop :=
  Inverse a.g c.g ∧ (∃ r, AdTimes a.g a.d r ∧ c.d = -r) ∧ ∃ r, AdTimes a.g a.d2 r ∧ c.d2 = -r

/-- `RigidBodyState::inverse_times`, resim/actor/state/rigid_body_state.cc:66-70. -/
def Relative (a b c : State) : Prop := ∃ i, Reversed a i ∧ Composed i b c

end Verif.StateDouble
