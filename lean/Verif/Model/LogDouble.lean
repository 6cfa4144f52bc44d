import Verif.Model.ExpDouble
import Mathlib.Analysis.SpecialFunctions.Complex.Arg
/-! # The logarithms and the interpolation in binary64 arithmetic

resim/transforms/so3.cc and se3.cc, with the conversions of Eigen that they call.  As in `ExpDouble` a finite double is its rational value and the model is a
relation.  Of `std::atan2` an error of one unit in the last place is admitted, and of Eigen's `stableNorm` only that it is within a factor of two is used.
Simplifications: results that overflow are not modelled; frames are left out. -/
namespace Verif.LogDouble
open SampleIntervalDouble TransformDouble ExpDouble

/-- A quaternion of doubles, the `Eigen::Quaterniond` made at resim/transforms/so3.cc:110,143. -/
structure Quat64 where
  w : ℚ
  v : Fin 3 → ℚ

/-- The index of the largest diagonal entry as Eigen finds it in `Quaterniond(matrix)`, resim/transforms/so3.cc:110,143. -/
def largest (m : Matrix (Fin 3) (Fin 3) ℚ) : Fin 3 :=
  let i : Fin 3 := if m 1 1 > m 0 0 then 1 else 0
  if m 2 2 > m i i then 2 else i

/-- `Eigen::Quaterniond(matrix)`, used at resim/transforms/so3.cc:143 and inside `AngleAxisd(matrix)` at so3.cc:110.  The trace may be added up in any
order; the doubles multiplied by one stand for themselves. -/
def QuatOf (m : Matrix (Fin 3) (Fin 3) ℚ) (q : Quat64) : Prop :=
  ∃ tr, Evaluates ![1, 1, 1] ![m 0 0, m 1 1, m 2 2] Finset.univ tr ∧
    if tr > 0 then
      ∃ t, SqrtOf (round64 (tr + 1)) t ∧
        let r := round64 (1 / 2 / t)
        q = ⟨round64 (1 / 2 * t), ![round64 (round64 (m 2 1 - m 1 2) * r), round64 (round64 (m 0 2 - m 2 0) * r),
          round64 (round64 (m 1 0 - m 0 1) * r)]⟩
    else
      let i := largest m
      let j : Fin 3 := i + 1
      let k : Fin 3 := j + 1
      ∃ t, SqrtOf (round64 (round64 (round64 (m i i - m j j) - m k k) + 1)) t ∧
        let r := round64 (1 / 2 / t)
        q = ⟨round64 (round64 (m k j - m j k) * r), fun l => if l = i then round64 (1 / 2 * t) else
          if l = j then round64 (round64 (m j i + m i j) * r) else round64 (round64 (m k i + m i k) * r)⟩

/-- `Eigen::Vector3d::stableNorm`, called by `AngleAxisd(quaternion)` (resim/transforms/so3.cc:110) where the norm may have underflowed. -/
def StableNorm (v : Fin 3 → ℚ) (n : ℚ) : Prop := (v = 0 ∧ n = 0) ∨ (n : ℝ) ^ 2 ≤ 4 * ∑ i, (v i : ℝ) ^ 2 ∧ ∑ i, (v i : ℝ) ^ 2 ≤ 4 * (n : ℝ) ^ 2 ∧ 0 < n

/-- `std::atan2(y, x)` inside `AngleAxisd(quaternion)`, resim/transforms/so3.cc:110: the argument of `x + y i` up to one unit in the last place. -/
def Atan2Of (y x r : ℚ) : Prop := |(r : ℝ) - Complex.arg ⟨x, y⟩| ≤ 2 ^ (-52 : ℤ) * |Complex.arg ⟨x, y⟩| + 2 ^ (-1074 : ℤ)

/-- `Eigen::AngleAxisd(quaternion)`, used inside `AngleAxisd(matrix)` at resim/transforms/so3.cc:110. -/
def AngleAxisOf (q : Quat64) (angle : ℚ) (axis : Fin 3 → ℚ) : Prop :=
  ∃ r n, Norm q.v r ∧ (if r < 2 ^ (-52 : ℤ) then StableNorm q.v n else n = r) ∧
    if n ≠ 0 then ∃ a, Atan2Of n |q.w| a ∧ angle = 2 * a ∧ ∀ i, axis i = round64 (q.v i / if q.w < 0 then -n else n)
    else angle = 0 ∧ axis = ![1, 0, 0]

/-- `SO3::log`, resim/transforms/so3.cc:109-113. -/
def LogSO3 (m : Matrix (Fin 3) (Fin 3) ℚ) (w : Fin 3 → ℚ) : Prop :=
  ∃ q angle axis, QuatOf m q ∧ AngleAxisOf q angle axis ∧ ∀ i, w i = round64 (axis i * angle)

/-- The coefficient `order_2_coeff` of `SE3::log`, resim/transforms/se3.cc:129-151 (with the expression of line 146 as written); every difference or sum may
be fused with the product next to it. -/
def Order2 (q a b c k : ℚ) : Prop :=
  if q < round64 4e-6 then Evaluates ![1, q] ![round64 (1 / 12), round64 (round64 (round64 (1 / 720) + q) + round64 (1 / 30240))] Finset.univ k
  else if q > 9 then ∃ n, Evaluates ![1, -(1 / 2)] ![b, a] Finset.univ n ∧ k = round64 (n / round64 (b * q))
  else ∃ n, Evaluates ![b, -1] ![1 / 2, c] Finset.univ n ∧ k = round64 (n / a)

/-- `SE3::log`, resim/transforms/se3.cc:129-158: every entry of the translation part is a sum of three products. -/
def LogSE3 (g : Stored) (w v : Fin 3 → ℚ) : Prop :=
  LogSO3 g.rot w ∧ ∃ q a b c k x y, SquaredNorm w q ∧ ExpDiffCoeffs q a b c ∧ Order2 q a b c k ∧ Cross w g.trans x ∧ Cross w x y ∧
    ∀ i, Evaluates ![1, -(1 / 2), k] ![g.trans i, x i, y i] Finset.univ (v i)

/-- `SO3::interp`, resim/transforms/so3.cc:83-85. -/
def InterpSO3 (m : Matrix (Fin 3) (Fin 3) ℚ) (f : ℚ) (m' : Matrix (Fin 3) (Fin 3) ℚ) : Prop :=
  ∃ w, LogSO3 m w ∧ ExpSO3 (fun i => round64 (w i * f)) m'

/-- `SE3::interp`, resim/transforms/se3.cc:106-108. -/
def InterpSE3 (g : Stored) (f : ℚ) (g' : Stored) : Prop :=
  ∃ w v, LogSE3 g w v ∧ ExpSE3 (fun i => round64 (w i * f)) (fun i => round64 (v i * f)) g'

/-- `SE3::arc_length`, resim/transforms/se3.cc:102-104. -/
def ArcLength (g : Stored) (s : ℚ) : Prop := ∃ w v, LogSE3 g w v ∧ Norm v s

end Verif.LogDouble
