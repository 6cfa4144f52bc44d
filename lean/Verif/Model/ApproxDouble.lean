import Verif.Model.MessageDouble
/-! # Approximate equality in binary64 arithmetic

`is_approx` of rotations, rigid motions and two-jets, and `isApprox` of framed vectors, as computed in doubles.  Eigen's `a.isApprox(b)` is
`(a - b).cwiseAbs2().sum() <= prec * prec * min(a.cwiseAbs2().sum(), b.cwiseAbs2().sum())` with `prec` 1e-12 (Eigen is not part of /repo).  As in
`TransformDouble` a finite double is its rational value, and the model is a relation that admits every order of the sums; overflow is not modelled.  The
comparison of the frames is left out (it is part of `Approx`, in exact arithmetic). -/
namespace Verif.ApproxDouble
open SampleIntervalDouble TransformDouble TCurveDouble TrajectoryDouble

variable {ι : Type} [DecidableEq ι] [Fintype ι]

/-- `a.isApprox(b)` may be computed to be `r`, as called at resim/transforms/so3.cc:137, resim/transforms/se3.cc:213, resim/curves/two_jet.cc:102-103,199-200 and
resim/transforms/framed_vector.hh:98,107 (there without a precision given). -/
def ApproxOf (a b : ι → ℚ) (r : Bool) : Prop :=
  ∃ d sa sb, Evaluates (fun i => round64 (a i - b i)) (fun i => round64 (a i - b i)) Finset.univ d ∧ Evaluates a a Finset.univ sa ∧
    Evaluates b b Finset.univ sb ∧ r = decide (d ≤ round64 (round64 (round64 1e-12 * round64 1e-12) * min sa sb))

/-- The nine entries of a `Matrix3d`, resim/transforms/so3.cc:137. -/
def entries (m : Matrix (Fin 3) (Fin 3) ℚ) : Fin 3 × Fin 3 → ℚ := fun p => m p.1 p.2

/-- The six entries of `SE3::TangentVector`, resim/curves/two_jet.cc:102-103,199-200. -/
def six (x : Tangent) : Fin 3 ⊕ Fin 3 → ℚ := Sum.elim x.1 x.2

/-- `SO3::is_approx_transform`, resim/transforms/so3.cc:136-138. -/
def RotationApprox (a b : Matrix (Fin 3) (Fin 3) ℚ) (r : Bool) : Prop := ApproxOf (entries a) (entries b) r

/-- `SE3::is_approx_transform`, resim/transforms/se3.cc:211-214; the translation is compared only if the rotations agree. -/
def TransformApprox (a b : Stored) (r : Bool) : Prop :=
  ∃ x, RotationApprox a.rot b.rot x ∧ if x = true then ApproxOf a.trans b.trans r else r = false

/-- `TwoJetL<SE3>::is_approx`, resim/curves/two_jet.cc:98-104, from left to right. -/
def JetApprox (a b : Jet) (r : Bool) : Prop :=
  ∃ x, TransformApprox a.g b.g x ∧ if x = true then ∃ y, ApproxOf (six a.d) (six b.d) y ∧ if y = true then ApproxOf (six a.d2) (six b.d2) r else r = false
    else r = false

/-- `TwoJetR<SE3>::is_approx`, resim/curves/two_jet.cc:195-201, from left to right. -/
def StateApprox (a b : State) (r : Bool) : Prop :=
  ∃ x, TransformApprox a.g b.g x ∧ if x = true then ∃ y, ApproxOf (six a.d) (six b.d) y ∧ if y = true then ApproxOf (six a.d2) (six b.d2) r else r = false
    else r = false

end Verif.ApproxDouble
