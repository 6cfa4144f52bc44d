import Verif.Model.ConstructDouble
/-! # Interpolation as in the Lie group guide, in binary64 arithmetic

resim/examples/liegroups.cc.  Simplifications: as in `TransformDouble`, `LogDouble` and `ConstructDouble`. -/
namespace Verif.GuideDouble
open SampleIntervalDouble TransformDouble ExpDouble LogDouble ConstructDouble

/-- The rotation at a fraction of the way from `a` to `b`, resim/examples/liegroups.cc:67-69: `a * (a.inverse() * b).interp(f)`. -/
def Between (a b : Matrix (Fin 3) (Fin 3) ℚ) (f : ℚ) (c : Matrix (Fin 3) (Fin 3) ℚ) : Prop :=
  ∃ r p, MulRot a.transpose b r ∧ InterpSO3 r f p ∧ MulRot a p c

/-- The product of the transform at a fraction with itself, resim/examples/liegroups.cc:107-109: `g.interp(f) * g.interp(f)`, computed once. -/
def Twice (g : Stored) (f : ℚ) (c : Stored) : Prop := ∃ p, InterpSE3 g f p ∧ Mul p p c

/-- The generalisation of resim/examples/liegroups.cc:107-109 to unequal parts: `g.interp(f) * g.interp(1 - f)`.  The logarithm (resim/transforms/se3.cc:106-108)
is the same in both, as the same code runs on the same numbers. -/
def Parts (g : Stored) (f : ℚ) (c : Stored) : Prop :=
  ∃ w v p q, LogSE3 g w v ∧ ExpSE3 (fun i => round64 (w i * f)) (fun i => round64 (v i * f)) p ∧
    ExpSE3 (fun i => round64 (w i * round64 (1 - f))) (fun i => round64 (v i * round64 (1 - f))) q ∧ Mul p q c

end Verif.GuideDouble
