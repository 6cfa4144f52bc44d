import Verif.Model.LogDouble
import Verif.Model.CurveDouble
/-! # Time curves of rigid motions in binary64 arithmetic

resim/curves/quintic_poly_coeffs.cc, two_jet.cc, t_curve_segment.cc and t_curve.cc for `SE3`, put together from the models of the parts: `operator*`,
`inverse` (`TransformDouble`), `exp` (`ExpDouble`), `log` (`LogDouble`) and the arithmetic with times (`CurveDouble`).  As there, a finite double is its
rational value, the model is a relation that admits every order of the sums inside an expression and every fusing of a product with an addition
there; results that overflow are not modelled (the theorems bound the data), and frames are left out. -/
namespace Verif.TCurveDouble
open SampleIntervalDouble TransformDouble ExpDouble LogDouble

/-- `SE3::TangentVector`, resim/transforms/se3.hh (a six-vector): the rotation part and the translation part. -/
abbrev Tangent := (Fin 3 → ℚ) × (Fin 3 → ℚ)

/-- The loop of `two_jet_single_coeff`, resim/curves/quintic_poly_coeffs.cc:32-36, from the highest index down; `ms` holds `d_mult.at(i) * coeffs.at(i)`
from the smallest index up.  These products are small multiples of one half and hence exact.  The product with the time may be fused with the addition
of the next round. -/
def Horner (t : ℚ) : List ℚ → ℚ → Prop
  | [], r => r = 0
  | m :: ms, r => ∃ acc, Horner t ms acc ∧ (r = round64 (t * round64 (m + acc)) ∨ r = t * round64 (m + acc))

/-- `DEST_ORIG`, resim/curves/quintic_poly_coeffs.hh:69. -/
def destOrigTable : Fin 5 → ℚ := ![0, 0, 10, -15, 6]
/-- `D_ORIG`, resim/curves/quintic_poly_coeffs.hh:70. -/
def dOrigTable : Fin 5 → ℚ := ![1, 0, -6, 8, -3]
/-- `D_DEST`, resim/curves/quintic_poly_coeffs.hh:71. -/
def dDestTable : Fin 5 → ℚ := ![0, 0, -4, 7, -3]
/-- `D2_ORIG`, resim/curves/quintic_poly_coeffs.hh:72. -/
def d2OrigTable : Fin 5 → ℚ := ![0, 1 / 2, -3 / 2, 3 / 2, -1 / 2]
/-- `D2_DEST`, resim/curves/quintic_poly_coeffs.hh:73. -/
def d2DestTable : Fin 5 → ℚ := ![0, 0, 1 / 2, -1, 1 / 2]

/-- `two_jet_coeffs`, resim/curves/quintic_poly_coeffs.cc:39-48, with the multipliers `A`, `DA` and `D2A` of quintic_poly_coeffs.hh:81-83. -/
structure Coeffs (c : Fin 5 → ℚ) (t a da d2a : ℚ) : Prop where
  a : ∃ h, Horner t [c 0, c 1, c 2, c 3, c 4] h ∧ a = round64 h
  da : ∃ h, Horner t [2 * c 1, 3 * c 2, 4 * c 3, 5 * c 4] h ∧ da = round64 (c 0 + h)
  d2a : ∃ h, Horner t [6 * c 2, 12 * c 3, 20 * c 4] h ∧ d2a = round64 (2 * c 1 + h)

/-- A scalar times a tangent vector, resim/curves/t_curve_segment.cc:127-129, resim/curves/t_curve.cc:76-77,80-81,162-163. -/
def Scaled (k : ℚ) (x y : Tangent) : Prop := (∀ i, y.1 i = round64 (k * x.1 i)) ∧ ∀ i, y.2 i = round64 (k * x.2 i)

/-- The sum of two tangent vectors, resim/curves/two_jet.cc:66-72. -/
def Added (x y z : Tangent) : Prop := (∀ i, z.1 i = round64 (x.1 i + y.1 i)) ∧ ∀ i, z.2 i = round64 (x.2 i + y.2 i)

/-- `SE3::adjoint_times(alg)`, resim/transforms/se3.cc:183-192: an entry of the translation part is a sum of five products. -/
def AdTimes (g : Stored) (x y : Tangent) : Prop :=
  Rotated g.rot x.1 y.1 ∧
  Evaluates ![g.trans 1, -g.trans 2, g.rot 0 0, g.rot 0 1, g.rot 0 2] ![y.1 2, y.1 1, x.2 0, x.2 1, x.2 2] Finset.univ (y.2 0) ∧
  Evaluates ![g.trans 2, -g.trans 0, g.rot 1 0, g.rot 1 1, g.rot 1 2] ![y.1 0, y.1 2, x.2 0, x.2 1, x.2 2] Finset.univ (y.2 1) ∧
  Evaluates ![g.trans 0, -g.trans 1, g.rot 2 0, g.rot 2 1, g.rot 2 2] ![y.1 1, y.1 0, x.2 0, x.2 1, x.2 2] Finset.univ (y.2 2)

/-- `SE3::adjoint_times(alg_0, alg_1)`, resim/transforms/se3.cc:194-205: an entry of the translation part is a sum of four products. -/
def Bracket (x y z : Tangent) : Prop :=
  Cross x.1 y.1 z.1 ∧
  Evaluates ![x.2 1, -x.2 2, x.1 1, -x.1 2] ![y.1 2, y.1 1, y.2 2, y.2 1] Finset.univ (z.2 0) ∧
  Evaluates ![x.2 2, -x.2 0, x.1 2, -x.1 0] ![y.1 0, y.1 2, y.2 0, y.2 2] Finset.univ (z.2 1) ∧
  Evaluates ![x.2 0, -x.2 1, x.1 0, -x.1 1] ![y.1 1, y.1 0, y.2 1, y.2 0] Finset.univ (z.2 2)

/-- `TwoJetL<SE3>`, resim/curves/two_jet.hh: `frame_from_ref_`, `d_frame_from_ref_`, `d2_frame_from_ref_`. -/
structure Jet where
  g : Stored
  d : Tangent
  d2 : Tangent

/-- `TwoJetL::operator*`, resim/curves/two_jet.cc:62-73; `adjoint_times(other.d_frame_from_ref_)` is computed twice. -/
def JetMul (a b c : Jet) : Prop :=
  Mul a.g b.g c.g ∧ (∃ r, AdTimes a.g b.d r ∧ Added a.d r c.d) ∧
  ∃ r r2 s z, AdTimes a.g b.d r ∧ AdTimes a.g b.d2 r2 ∧ Added a.d2 r2 s ∧ Bracket a.d r z ∧ Added s z c.d2

/-- `point_value_accumulator`, resim/curves/t_curve_segment.cc:121-133, with the coefficients of the table `c`. -/
def Accumulates (t : ℚ) (c : Fin 5 → ℚ) (x : Tangent) (point point' : Jet) : Prop :=
  ∃ a da d2a y inc, Coeffs c t a da d2a ∧ Scaled a x y ∧ ExpSE3 y.1 y.2 inc.g ∧ Scaled da x inc.d ∧ Scaled d2a x inc.d2 ∧ JetMul inc point point'

/-- The point that `point_at` starts from, resim/curves/t_curve_segment.cc:42-48. -/
def start : Jet := ⟨⟨1, 0⟩, 0, 0⟩

/-- `TCurveSegment::point_at`, resim/curves/t_curve_segment.cc:40-92. -/
def SegmentPointAt (orig dest : Jet) (t : ℚ) (out : Jet) : Prop :=
  ∃ i r x p1 p2 p3 p4 p5, Inverse orig.g i ∧ Mul dest.g i r ∧ LogSE3 r x.1 x.2 ∧
    Accumulates t destOrigTable x start p1 ∧ Accumulates t dOrigTable orig.d p1 p2 ∧ Accumulates t dDestTable dest.d p2 p3 ∧
    Accumulates t d2OrigTable orig.d2 p3 p4 ∧ Accumulates t d2DestTable dest.d2 p4 p5 ∧
    Mul p5.g orig.g out.g ∧ out.d = p5.d ∧ out.d2 = p5.d2

/-- The control point of a segment, resim/curves/t_curve.cc:73-81, and `unnormalize_derivatives`, resim/curves/t_curve.cc:158-164: the derivative times
`k` and the second derivative times `k` twice. -/
def Rescaled (k : ℚ) (p q : Jet) : Prop :=
  q.g = p.g ∧ Scaled k p.d q.d ∧ ∃ y, Scaled k p.d2 y ∧ Scaled k y q.d2

/-- `TCurve::point_at`, resim/curves/t_curve.cc:114-120,134-164, for controls at the times `ts` with the points `ps` (appended as in
resim/curves/t_curve.cc:55-89), where times, steps and the normalised time are finite doubles. -/
def PointAt (ts : List ℚ) (ps : List Jet) (x : ℚ) (out : Jet) : Prop :=
  ∃ c i dt inv t p p' o d q, TTimes.make (ts.map .num) = .ok c ∧ TTimes.query c (.num x) = .ok (i, .num inv, .num t) ∧
    (∃ s s', ts[i]? = some s ∧ ts[i + 1]? = some s' ∧ Double.sub (.num s') (.num s) = .num dt) ∧
    ps[i]? = some p ∧ ps[i + 1]? = some p' ∧ Rescaled dt p o ∧ Rescaled dt p' d ∧ SegmentPointAt o d t q ∧ Rescaled inv q out

end Verif.TCurveDouble
