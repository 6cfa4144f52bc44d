import Verif.Model.Uuid
/-! # resim/transforms/frame.hh, framed_vector.hh and the frame bookkeeping of liegroup.hh, so3.cc, se3.cc -/
namespace Verif

/-- `Frame<dims>`, resim/transforms/frame.hh:22-44: a wrapped identifier (`id_`, line 43).  The dimension is a compile-time tag. -/
structure Frame where
  id : Uuid
  deriving DecidableEq

namespace Frame

/-- Default constructor and `null_frame`, resim/transforms/frame.hh:27,32. -/
def null : Frame := ⟨Uuid.null⟩

/-- `is_null`, resim/transforms/frame.hh:38. -/
def isNull (f : Frame) : Bool := f.id.isNull

/-- `operator==`, resim/transforms/frame.hh:35. -/
def eq (a b : Frame) : Bool := a.id.eq b.id

end Frame

/-- `FramedVector<dims>`, resim/transforms/framed_vector.hh:33,117; `A` is the vector type of the base class. -/
structure FramedVector (A : Type u) where
  vector : A
  frame : Frame

namespace FramedVector

/-- `operator+` on two framed vectors, resim/transforms/framed_vector.hh:59-62. -/
def add {A : Type u} [Add A] (v w : FramedVector A) : Outcome (FramedVector A) :=
  if v.frame.eq w.frame then .ok ⟨v.vector + w.vector, v.frame⟩ else .throw "Vector frames must match"

/-- `operator*` with a number on either side, resim/transforms/framed_vector.hh:64-70. -/
def scale {A : Type u} {K : Type w} [SMul K A] (d : K) (v : FramedVector A) : FramedVector A := ⟨d • v.vector, v.frame⟩

/-- `operator+` with a plain vector, resim/transforms/framed_vector.hh:75-77: the result is plain. -/
def addPlain {A : Type u} [Add A] (v : FramedVector A) (w : A) : A := v.vector + w

/-- `operator==`, resim/transforms/framed_vector.hh:83-85. -/
noncomputable def eq {A : Type u} (v w : FramedVector A) : Bool := by
  classical exact decide (v.vector = w.vector) && v.frame.eq w.frame

/-- `set_frame`, resim/transforms/framed_vector.hh:110. -/
def setFrame {A : Type u} (v : FramedVector A) (f : Frame) : FramedVector A := { v with frame := f }

end FramedVector

/-- The operations the `LieGroupType` concept demands of a group class (resim/transforms/liegroup_concepts.hh:163-177;
`SO3` and `SE3` supply them), stripped of frames. `G` is the data of a group element, `A` its tangent vectors, `R` the
scalars and `V` the vectors acted on by the rotation part. -/
structure LieOps (R G A V : Type) where
  one : G
  mul : G → G → G
  inv : G → G
  exp : A → G
  log : G → A
  Ad : G → A → A
  ad : A → A → A
  smul : R → A → A
  rotate : G → V → V

/-- A transform: group data with the frames of the base class `LieGroup`, resim/transforms/liegroup.hh:99-101. -/
structure Framed (G : Type) where
  val : G
  into : Frame
  src : Frame

namespace Framed
variable {R G A V : Type}

/-- Error text of resim/transforms/liegroup.hh:39-42. -/
def semiFramedErr : String := "We currently do not support semi-framed LieGroups. Neither or both frames can be null, but one null frame results in this error."

/-- `LieGroup(into, from)`, resim/transforms/liegroup.hh:35-44, as used by every framed constructor (resim/transforms/so3.cc:25-42,
resim/transforms/se3.cc:30-51). -/
def mk' (g : G) (into src : Frame) : Outcome (Framed G) :=
  if into.isNull = src.isNull then .ok ⟨g, into, src⟩ else .throw semiFramedErr

/-- The constructors without frames (default constructed `LieGroup`, resim/transforms/liegroup.hh:28). -/
def unframed (g : G) : Framed G := ⟨g, Frame.null, Frame.null⟩

/-- `is_framed`, resim/transforms/liegroup.hh:80. -/
def isFramed (a : Framed G) : Bool := !a.into.isNull

/-- `set_frames`, resim/transforms/liegroup.hh:57-65. -/
def setFrames (a : Framed G) (into src : Frame) : Outcome (Framed G) :=
  if !(into.isNull || src.isNull) then .ok ⟨a.val, into, src⟩
  else .throw "Cannot set frames as null {0}. If you want to make this group unframed use set_unframed()"

/-- `set_unframed`, resim/transforms/liegroup.hh:67-70. -/
def setUnframed (a : Framed G) : Framed G := ⟨a.val, Frame.null, Frame.null⟩

/-- `verify_into`, resim/transforms/liegroup.hh:83-85. -/
def verifyInto (a : Framed G) (f : Frame) : Bool := a.into.eq f

/-- `verify_from`, resim/transforms/liegroup.hh:88-90. -/
def verifyFrom (a : Framed G) (f : Frame) : Bool := a.src.eq f

/-- `verify_frames`, resim/transforms/liegroup.hh:93-97. -/
def verifyFrames (a : Framed G) (into src : Frame) : Bool := a.verifyInto into && a.verifyFrom src

/-- `identity()`, resim/transforms/so3.cc:44-47, resim/transforms/se3.cc:53-59, without frames. -/
def identityUnframed (L : LieOps R G A V) : Framed G := unframed L.one

/-- `identity(into, from)`, resim/transforms/so3.cc:44-47, resim/transforms/se3.cc:53-59. -/
def identity (L : LieOps R G A V) (into src : Frame) : Outcome (Framed G) := mk' L.one into src

/-- `operator*`, resim/transforms/so3.cc:49-58, resim/transforms/se3.cc:61-72. -/
def mul (L : LieOps R G A V) (a b : Framed G) : Outcome (Framed G) :=
  if !a.isFramed || !b.isFramed then .ok (unframed (L.mul a.val b.val))
  else if a.src.eq b.into then mk' (L.mul a.val b.val) a.into b.src
  else .throw "Inner frames must match for valid composition"

/-- `inverse`, resim/transforms/so3.cc:79-81, resim/transforms/se3.cc:93-100. -/
def inverse (L : LieOps R G A V) (a : Framed G) : Outcome (Framed G) := mk' (L.inv a.val) a.src a.into

/-- `exp(alg)` without frames, resim/transforms/so3.cc:95-100, resim/transforms/se3.cc:118-127. -/
def expUnframed (L : LieOps R G A V) (x : A) : Framed G := unframed (L.exp x)

/-- `exp(alg, into, from)`, resim/transforms/so3.cc:95-100, resim/transforms/se3.cc:118-127. -/
def exp (L : LieOps R G A V) (x : A) (into src : Frame) : Outcome (Framed G) := mk' (L.exp x) into src

/-- `interp(fraction)`, resim/transforms/so3.cc:83-85, resim/transforms/se3.cc:106-108. -/
def interp (L : LieOps R G A V) (a : Framed G) (fraction : R) : Outcome (Framed G) :=
  exp L (L.smul fraction (L.log a.val)) a.into a.src

/-- `interp(fraction, new_from)`, resim/transforms/so3.cc:87-93, resim/transforms/se3.cc:110-116.  The two classes'
error texts differ in the class name; the model has one text. -/
def interpNewFrom (L : LieOps R G A V) (a : Framed G) (fraction : R) (newFrom : Frame) : Outcome (Framed G) :=
  if a.isFramed then exp L (L.smul fraction (L.log a.val)) a.into newFrom
  else .throw "Please don't interpolate unframed groups with a new from frame, we cannot return meaningful results. Use interp(double fraction) instead."

/-- `rotate(FramedVector)`, resim/transforms/so3.cc:68-77, resim/transforms/se3.cc:82-91.  One error text for both classes, as above. -/
def rotateFramed (L : LieOps R G A V) (a : Framed G) (v : FramedVector V) : Outcome (FramedVector V) :=
  if a.isFramed then
    if a.src.eq v.frame then .ok ⟨L.rotate a.val v.vector, a.into⟩
    else .throw "Vector frame must match the from frame."
  else .throw "Please don't use unframed groups on framed vectors, we cannot return meaningful results. Pass a regular Eigen Vector to rotate instead."

/-- The constructors of `SE3` taking an `SO3` (resim/transforms/se3.cc:23-28): the frames of the rotation are stripped, whatever
they are; `build` makes group data from the rotation data. -/
def fromRotation {H : Type} (build : H → G) (r : Framed H) : Framed G := unframed (build r.setUnframed.val)

/-- `SE3(rotation, into, from)` and `SE3(rotation, translation, into, from)`, resim/transforms/se3.cc:30-36,44-51. -/
def fromRotationFramed {H : Type} (build : H → G) (r : Framed H) (into src : Frame) : Outcome (Framed G) :=
  mk' (build r.setUnframed.val) into src

end Framed
end Verif
