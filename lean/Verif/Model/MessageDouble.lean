import Verif.Model.TrajectoryDouble
import Verif.Model.DCurveDouble
/-! # Transforms, states, curves and trajectories relayed through messages, in binary64 arithmetic

What is read back from a message that was written (packed and unpacked).  Messages keep doubles and times exactly (C53, C56), so that a transform changes only
by the logarithm that is written and the exponential that is taken when it is read.  As in `LogDouble` a finite double is its rational value and the model is
a relation; overflow is not modelled, and frames are left out (they are kept, C55). -/
namespace Verif.MessageDouble
open TransformDouble ExpDouble LogDouble TCurveDouble TrajectoryDouble Binary64

/-- `pack_liegroup` and then `unpack_liegroup` for `SO3`, resim/transforms/proto/liegroup_to_proto.cc:20-34. -/
def RelayRotation (m m' : Matrix (Fin 3) (Fin 3) ℚ) : Prop := ∃ w, LogSO3 m w ∧ ExpSO3 w m'

/-- `pack_liegroup` and then `unpack_liegroup` for `SE3`, resim/transforms/proto/liegroup_to_proto.cc:20-34. -/
def Relay (g g' : Stored) : Prop := ∃ w v, LogSE3 g w v ∧ ExpSE3 w v g'

/-- `pack_two_jetl` and then `unpack_two_jetl`, resim/curves/proto/two_jet_to_proto.cc:20-31,51-59. -/
def RelayJet (j j' : Jet) : Prop := Relay j.g j'.g ∧ j'.d = j.d ∧ j'.d2 = j.d2

/-- `pack_two_jetr` and then `unpack_two_jetr`, resim/curves/proto/two_jet_to_proto.cc:33-44,61-69. -/
def RelayState (s s' : State) : Prop := Relay s.g s'.g ∧ s'.d = s.d ∧ s'.d2 = s.d2

/-- The points of a time curve after `pack_t_curve` and then `unpack_t_curve`, resim/curves/proto/t_curve_to_proto.cc:20-30,35-43; the times stay. -/
def RelayCurve (ps ps' : List Jet) : Prop := List.Forall₂ RelayJet ps ps'

/-- The poses that a distance curve is made of after `pack_d_curve` and then `unpack_d_curve`, resim/curves/proto/d_curve_to_proto.cc:16-38; the rest of the
curve is computed anew from them. -/
def RelayPoses (ps ps' : List Stored) : Prop := List.Forall₂ Relay ps ps'

/-- The `n`-th process of a chain where each reads what the one before it has written, and writes it again (resim/transforms/proto/liegroup_to_proto.cc:20-34,
and what is built on it). -/
def Times {α : Type} (r : α → α → Prop) : ℕ → α → α → Prop
  | 0, a, b => b = a
  | n + 1, a, b => ∃ c, Times r n a c ∧ r c b

/-- `Trajectory::point_at(const time::Duration &)`, resim/actor/state/trajectory.cc:63-67, on a trajectory (see `TrajectoryDouble.PointAfter`) that went
through `n` messages (resim/actor/state/proto/trajectory_to_proto.cc:18-34 with resim/actor/state/trajectory.cc:28-30): the curve is relayed, and the start
stays. -/
def PointAfterRelays (n : ℕ) (ats : List ℤ) (ss : List State) (d : ℤ) (out : State) : Prop :=
  ∃ a₀ js js' q, ats.head? = some a₀ ∧ (∀ a ∈ ats, InI64 (a - a₀)) ∧ List.Forall₂ LeftOf ss js ∧ Times RelayCurve n js js' ∧
    PointAt (ats.map fun a => asSeconds (a - a₀)) js' (asSeconds d) q ∧ RightOf q out

end Verif.MessageDouble
