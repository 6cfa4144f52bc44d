import Verif.Model.LogDouble
import Verif.Model.CurveDouble
/-! # Distance curves of rigid motions in binary64 arithmetic

resim/curves/d_curve.cc for `SE3`, put together from the models of the parts: `operator*` and `inverse` (`TransformDouble`), `interp` and `arc_length`
(`LogDouble`) and the arithmetic with arc lengths (`CurveDouble`).  As there, a finite double is its rational value, the model is a relation that admits
every order of the sums, and frames are left out. -/
namespace Verif.DCurveDouble
open SampleIntervalDouble TransformDouble LogDouble

/-- `append`, resim/curves/d_curve.cc:50-64, and the constructors, d_curve.cc:21-31,69-74: for the poses `ps` the segments have `orig_from_dest` as in
`rels` and the lengths `lens`.  A length is a double; of `std::sqrt` in `arc_length` only the error is modelled, which is why the rounding is written out
(it does not change a double). -/
structure Made (ps rels : List Stored) (lens : List ℚ) : Prop where
  rels_length : rels.length + 1 = ps.length
  lens_length : lens.length + 1 = ps.length
  rel : ∀ (i : ℕ) (h : i + 1 < ps.length), ∃ c, Inverse ps[i] c ∧ Mul c ps[i + 1] rels[i]
  len : ∀ (i : ℕ) (h : i + 1 < ps.length), ∃ r, ArcLength rels[i] r ∧ lens[i] = round64 r

/-- `point_at`, resim/curves/d_curve.cc:76-82, for a query whose fraction is a finite double. -/
def PointAt (ps rels : List Stored) (lens : List ℚ) (x : ℚ) (g : Stored) : Prop :=
  ∃ i f p r q, DLengths.query (DLengths.make (lens.map .num)) (.num x) = .ok (i, .num f) ∧ ps[i]? = some p ∧ rels[i]? = some r ∧
    InterpSE3 r f q ∧ Mul p q g

end Verif.DCurveDouble
