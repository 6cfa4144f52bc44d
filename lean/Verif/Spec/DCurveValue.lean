import Verif.Model.DCurveHeap
/-! # Curves as values: what a client expects of variables that hold curves -/
namespace Verif.Spec
open Verif DHeap
variable {G A V : Type}

/-- The statement does not write through a pointer that a curve handed out. -/
def Plain : Op G → Prop
  | .write _ _ _ => False
  | _ => True

/-- One statement, with each variable holding a curve of its own. -/
noncomputable def valueStep (L : LieOps ℝ G A V) (arc : G → ℝ) (vars : List (DCurve G)) : Op G → List (DCurve G) × Outcome Unit
  | .declare => (vars ++ [DCurve.empty], .ok ())
  | .copy i =>
    match vars[i]? with
    | none => (vars, .ub "no such variable")
    | some c => (vars ++ [c], .ok ())
  | .append i p =>
    match vars[i]? with
    | none => (vars, .ub "no such variable")
    | some c => (vars.set i (DCurve.append L arc c p).1, (DCurve.append L arc c p).2)
  | .write _ _ _ => (vars, .ub "not for values")

/-- A program on values. -/
noncomputable def valueRun (L : LieOps ℝ G A V) (arc : G → ℝ) (vars : List (DCurve G)) : List (Op G) → List (DCurve G) × List (Outcome Unit)
  | [] => (vars, [])
  | op :: ops =>
    let r := valueStep L arc vars op
    let q := valueRun L arc r.1 ops
    (q.1, r.2 :: q.2)

end Verif.Spec
