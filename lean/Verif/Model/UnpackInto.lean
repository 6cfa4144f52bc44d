import Verif.Model.Proto
/-! # Unpacking into a variable, and what it holds if that fails

The unpackers that write to an `InOut` argument, and the ones that return a value and use them: resim/transforms/proto/{liegroup,se3,so3}_to_proto.cc,
resim/curves/proto/*_to_proto.cc.  Each function returns what the variable holds afterwards and how the call ended; a caller that catches the exception goes on with
the former. -/
namespace Verif.UnpackInto
open Proto

variable {G A V : Type}

/-- `*out = value`, where computing the value may fail, in which case nothing is assigned: resim/transforms/proto/liegroup_to_proto.cc:33,
resim/curves/proto/two_jet_to_proto.cc:58,68, resim/curves/proto/d_curve_to_proto.cc:37. -/
def assign {α : Type} (dest : α) : Outcome α → α × Outcome Unit
  | .ok v => (v, .ok ())
  | .throw m => (dest, .throw m)
  | .ub w => (dest, .ub w)

/-- `unpack_liegroup`, resim/transforms/proto/liegroup_to_proto.cc:29-34. -/
noncomputable def group (L : LieOps ℝ G A V) (F : Layout A) (dest : Framed G) (m : GroupMsg) : Framed G × Outcome Unit := assign dest (unpackGroup L F m)

/-- `unpack_two_jetl`, resim/curves/proto/two_jet_to_proto.cc:51-59. -/
noncomputable def twoJetL (L : LieOps ℝ G A V) (F : Layout A) (dest : TwoJetL G A) (m : JetMsg) : TwoJetL G A × Outcome Unit :=
  assign dest (unpackTwoJetL L F m)

/-- `unpack_two_jetr`, resim/curves/proto/two_jet_to_proto.cc:61-69. -/
noncomputable def twoJetR (L : LieOps ℝ G A V) (F : Layout A) (dest : TwoJetR G A) (m : JetMsg) : TwoJetR G A × Outcome Unit :=
  assign dest (unpackTwoJetR L F m)

/-- `unpack_d_curve`, resim/curves/proto/d_curve_to_proto.cc:26-38: the points are collected and the curve made of them before it is assigned. -/
noncomputable def dCurve (L : LieOps ℝ G A V) (arc : G → ℝ) (F : Layout A) (dest : DCurve G) (m : DCurveMsg) : DCurve G × Outcome Unit :=
  assign dest (do
    let points ← unpackPoses L F [] m.refFromControl
    DCurve.make L arc points)

/-- The loop of `unpack_t_curve`, resim/curves/proto/t_curve_to_proto.cc:38-42: the points are appended to the variable itself. -/
noncomputable def tLoop [AddCommGroup A] [Module ℝ A] (L : LieOps ℝ G A V) (F : Layout A) (c : TCurve G A) : List ControlMsg → TCurve G A × Outcome Unit
  | [] => (c, .ok ())
  | p :: ps =>
    match unpackTwoJetL L F (p.point.getD {}) with
    | .throw m => (c, .throw m)
    | .ub w => (c, .ub w)
    | .ok j =>
      match TCurve.append c ⟨p.time, j⟩ with
      | (c', .ok ()) => tLoop L F c' ps
      | (c', o) => (c', o)

/-- `unpack_t_curve`, resim/curves/proto/t_curve_to_proto.cc:35-43: the variable is emptied first (36). -/
noncomputable def tCurve [AddCommGroup A] [Module ℝ A] (L : LieOps ℝ G A V) (F : Layout A) (dest : TCurve G A) (m : TCurveMsg) : TCurve G A × Outcome Unit :=
  let cleared : TCurve G A := { dest with controls := [], segments := [] }
  tLoop L F cleared m.points

/-- The functions `unpack` that return a value: resim/transforms/proto/se3_to_proto.cc:17-21, resim/transforms/proto/so3_to_proto.cc:17-21,
resim/curves/proto/t_curve_se3_to_proto.cc:22-26, resim/curves/proto/t_curve_so3_to_proto.cc:22-26, resim/curves/proto/d_curve_se3_to_proto.cc:20-24,
resim/curves/proto/two_jetl_se3_to_proto.cc:21-25, resim/curves/proto/two_jetl_so3_to_proto.cc:21-25, resim/curves/proto/two_jetr_se3_to_proto.cc:22-26,
resim/curves/proto/two_jetr_so3_to_proto.cc:22-26.  They unpack into a local variable, which holds `dflt` before. -/
def fresh {α M : Type} (into : α → M → α × Outcome Unit) (dflt : α) (m : M) : Outcome α :=
  match into dflt m with
  | (v, .ok ()) => .ok v
  | (_, .throw e) => .throw e
  | (_, .ub w) => .ub w

/-- A variable that several messages are unpacked into, one after the other, where the caller catches what is thrown; the unpackers of
resim/transforms/proto/liegroup_to_proto.cc:29-34 and resim/curves/proto/t_curve_to_proto.cc:35-43 take it by reference. -/
def history {α M : Type} (into : α → M → α × Outcome Unit) (start : α) (ms : List M) : α := ms.foldl (fun v m => (into v m).1) start

end Verif.UnpackInto
