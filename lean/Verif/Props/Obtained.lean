import Verif.Proofs.Obtained
/-! # C77: every transform a client obtains is a rigid motion -/
namespace Verif.Props
open Verif Verif.Proto Verif.Framed Verif.Spec

/-- The kinds of objects that hold a transform: transforms, two-jets (left, right) and time curves (`C`) of rotations and of poses, rigid body
states, distance curves and trajectories. -/
inductive Obj where
  | so3 (g : Framed M3)
  | so3L (j : TwoJetL M3 V3)
  | so3R (j : TwoJetR M3 V3)
  | so3C (c : TCurve M3 V3)
  | se3 (g : Framed Pose)
  | se3L (j : TwoJetL Pose Twist)
  | se3R (j : TwoJetR Pose Twist)
  | se3C (c : TCurve Pose Twist)
  | state (s : RBState)
  | dCurve (c : DCurve Pose)
  | traj (T : Trajectory)

/-- The objects a client can obtain through the public interfaces of these classes, from rotation matrices, unit quaternions, unit axes and any
messages; one constructor for each constructor, operation and query.  A curve obtained from an append is the one the append left, whether or not
it threw.  Setters of derivatives are covered by `LMake` and `RMake`.  Left out: writing through the pointers that `DCurve::control_pts()` and
`segments()` hand out (d_curve.hh:27-43). -/
inductive Obtained : Obj → Prop
  | so3Matrix (R) : IsRotation R → Obtained (.so3 (unframed R))
  | so3MatrixFramed (R i s g) : IsRotation R → mk' R i s = .ok g → Obtained (.so3 g)
  | so3Quaternion (q : SO3.Quat) : q.w ^ 2 + q.v ⬝ᵥ q.v = 1 → Obtained (.so3 (unframed (SO3.quatMatrix q)))
  | so3QuaternionFramed (q : SO3.Quat) (i s g) : q.w ^ 2 + q.v ⬝ᵥ q.v = 1 → mk' (SO3.quatMatrix q) i s = .ok g → Obtained (.so3 g)
  | so3AngleAxis (t n) : n ⬝ᵥ n = 1 → Obtained (.so3 (unframed (SO3.angleAxisMatrix t n)))
  | so3AngleAxisFramed (t n i s g) : n ⬝ᵥ n = 1 → mk' (SO3.angleAxisMatrix t n) i s = .ok g → Obtained (.so3 g)
  | so3Default : Obtained (.so3 (identityUnframed SO3.ops))
  | so3Identity (i s g) : Framed.identity SO3.ops i s = .ok g → Obtained (.so3 g)
  | so3SetFrames (a i s b) : Obtained (.so3 a) → Framed.setFrames a i s = .ok b → Obtained (.so3 b)
  | so3SetUnframed (a) : Obtained (.so3 a) → Obtained (.so3 (Framed.setUnframed a))
  | so3Mul (a b c) : Obtained (.so3 a) → Obtained (.so3 b) → Framed.mul SO3.ops a b = .ok c → Obtained (.so3 c)
  | so3Inverse (a b) : Obtained (.so3 a) → Framed.inverse SO3.ops a = .ok b → Obtained (.so3 b)
  | so3Exp (x) : Obtained (.so3 (expUnframed SO3.ops x))
  | so3ExpFramed (x i s b) : Framed.exp SO3.ops x i s = .ok b → Obtained (.so3 b)
  | so3Interp (a f b) : Obtained (.so3 a) → Framed.interp SO3.ops a f = .ok b → Obtained (.so3 b)
  | so3InterpNewFrom (a f n b) : Obtained (.so3 a) → Framed.interpNewFrom SO3.ops a f n = .ok b → Obtained (.so3 b)
  | so3Unpack (m b) : unpackGroup SO3.ops so3Layout m = .ok b → Obtained (.so3 b)
  | so3LMake (g d d2) : Obtained (.so3 g) → Obtained (.so3L ⟨g, d, d2⟩)
  | so3LDefault : Obtained (.so3L (TwoJetL.identityUnframed SO3.ops))
  | so3LIdentity (i s j) : TwoJetL.identity SO3.ops i s = .ok j → Obtained (.so3L j)
  | so3LInverse (a b) : Obtained (.so3L a) → TwoJetL.inverse SO3.ops a = .ok b → Obtained (.so3L b)
  | so3LMul (a b c) : Obtained (.so3L a) → Obtained (.so3L b) → TwoJetL.mul SO3.ops a b = .ok c → Obtained (.so3L c)
  | so3LFromRight (a b) : Obtained (.so3R a) → TwoJetR.left SO3.ops a = .ok b → Obtained (.so3L b)
  | so3LPart (j) : Obtained (.so3L j) → Obtained (.so3 j.g)
  | so3LUnpack (m j) : unpackTwoJetL SO3.ops so3Layout m = .ok j → Obtained (.so3L j)
  | so3RMake (g d d2) : Obtained (.so3 g) → Obtained (.so3R ⟨g, d, d2⟩)
  | so3RDefault : Obtained (.so3R (TwoJetR.identityUnframed SO3.ops))
  | so3RIdentity (i s j) : TwoJetR.identity SO3.ops i s = .ok j → Obtained (.so3R j)
  | so3RInverse (a b) : Obtained (.so3R a) → TwoJetR.inverse SO3.ops a = .ok b → Obtained (.so3R b)
  | so3RMul (a b c) : Obtained (.so3R a) → Obtained (.so3R b) → TwoJetR.mul SO3.ops a b = .ok c → Obtained (.so3R c)
  | so3RFromLeft (a b) : Obtained (.so3L a) → TwoJetL.right SO3.ops a = .ok b → Obtained (.so3R b)
  | so3RPart (j) : Obtained (.so3R j) → Obtained (.so3 j.g)
  | so3RUnpack (m j) : unpackTwoJetR SO3.ops so3Layout m = .ok j → Obtained (.so3R j)
  | so3Curve : Obtained (.so3C TCurve.empty)
  | so3CurveAppend (c p) : Obtained (.so3C c) → Obtained (.so3L p.point) → Obtained (.so3C (TCurve.append c p).1)
  | so3CurveControl (c p) : Obtained (.so3C c) → p ∈ c.controls → Obtained (.so3L p.point)
  | so3CurveOrig (c) (s : TPiece _ _) : Obtained (.so3C c) → s ∈ c.segments → Obtained (.so3L s.curve.orig)
  | so3CurveDest (c) (s : TPiece _ _) : Obtained (.so3C c) → s ∈ c.segments → Obtained (.so3L s.curve.dest)
  | so3CurvePoint (c t j) : Obtained (.so3C c) → TCurve.pointAt SO3.ops c t = .ok j → Obtained (.so3L j)
  | so3CurveUnpack (m c) : unpackTCurve SO3.ops so3Layout m = .ok c → Obtained (.so3C c)
  | so3Segment (a b s t j) : Obtained (.so3L a) → Obtained (.so3L b) → TSegment.make a b = .ok s → TSegment.pointAt SO3.ops s t = .ok j → Obtained (.so3L j)
  | se3Parts (r : Framed M3) (t : V3) : Obtained (.so3 r) → Obtained (.se3 (fromRotation (fun R => (R, t)) r))
  | se3PartsFramed (r : Framed M3) (t : V3) (i s g) : Obtained (.so3 r) → fromRotationFramed (fun R => (R, t)) r i s = .ok g → Obtained (.se3 g)
  | se3Rotation (g : Framed Pose) : Obtained (.se3 g) → Obtained (.so3 (unframed g.val.1))
  | se3Default : Obtained (.se3 (identityUnframed SE3.ops))
  | se3Identity (i s g) : Framed.identity SE3.ops i s = .ok g → Obtained (.se3 g)
  | se3SetFrames (a i s b) : Obtained (.se3 a) → Framed.setFrames a i s = .ok b → Obtained (.se3 b)
  | se3SetUnframed (a) : Obtained (.se3 a) → Obtained (.se3 (Framed.setUnframed a))
  | se3Mul (a b c) : Obtained (.se3 a) → Obtained (.se3 b) → Framed.mul SE3.ops a b = .ok c → Obtained (.se3 c)
  | se3Inverse (a b) : Obtained (.se3 a) → Framed.inverse SE3.ops a = .ok b → Obtained (.se3 b)
  | se3Exp (x) : Obtained (.se3 (expUnframed SE3.ops x))
  | se3ExpFramed (x i s b) : Framed.exp SE3.ops x i s = .ok b → Obtained (.se3 b)
  | se3Interp (a f b) : Obtained (.se3 a) → Framed.interp SE3.ops a f = .ok b → Obtained (.se3 b)
  | se3InterpNewFrom (a f n b) : Obtained (.se3 a) → Framed.interpNewFrom SE3.ops a f n = .ok b → Obtained (.se3 b)
  | se3Unpack (m b) : unpackGroup SE3.ops se3Layout m = .ok b → Obtained (.se3 b)
  | se3LMake (g d d2) : Obtained (.se3 g) → Obtained (.se3L ⟨g, d, d2⟩)
  | se3LDefault : Obtained (.se3L (TwoJetL.identityUnframed SE3.ops))
  | se3LIdentity (i s j) : TwoJetL.identity SE3.ops i s = .ok j → Obtained (.se3L j)
  | se3LInverse (a b) : Obtained (.se3L a) → TwoJetL.inverse SE3.ops a = .ok b → Obtained (.se3L b)
  | se3LMul (a b c) : Obtained (.se3L a) → Obtained (.se3L b) → TwoJetL.mul SE3.ops a b = .ok c → Obtained (.se3L c)
  | se3LFromRight (a b) : Obtained (.se3R a) → TwoJetR.left SE3.ops a = .ok b → Obtained (.se3L b)
  | se3LPart (j) : Obtained (.se3L j) → Obtained (.se3 j.g)
  | se3LUnpack (m j) : unpackTwoJetL SE3.ops se3Layout m = .ok j → Obtained (.se3L j)
  | se3RMake (g d d2) : Obtained (.se3 g) → Obtained (.se3R ⟨g, d, d2⟩)
  | se3RDefault : Obtained (.se3R (TwoJetR.identityUnframed SE3.ops))
  | se3RIdentity (i s j) : TwoJetR.identity SE3.ops i s = .ok j → Obtained (.se3R j)
  | se3RInverse (a b) : Obtained (.se3R a) → TwoJetR.inverse SE3.ops a = .ok b → Obtained (.se3R b)
  | se3RMul (a b c) : Obtained (.se3R a) → Obtained (.se3R b) → TwoJetR.mul SE3.ops a b = .ok c → Obtained (.se3R c)
  | se3RFromLeft (a b) : Obtained (.se3L a) → TwoJetL.right SE3.ops a = .ok b → Obtained (.se3R b)
  | se3RPart (j) : Obtained (.se3R j) → Obtained (.se3 j.g)
  | se3RUnpack (m j) : unpackTwoJetR SE3.ops se3Layout m = .ok j → Obtained (.se3R j)
  | se3Curve : Obtained (.se3C TCurve.empty)
  | se3CurveAppend (c p) : Obtained (.se3C c) → Obtained (.se3L p.point) → Obtained (.se3C (TCurve.append c p).1)
  | se3CurveControl (c p) : Obtained (.se3C c) → p ∈ c.controls → Obtained (.se3L p.point)
  | se3CurveOrig (c) (s : TPiece _ _) : Obtained (.se3C c) → s ∈ c.segments → Obtained (.se3L s.curve.orig)
  | se3CurveDest (c) (s : TPiece _ _) : Obtained (.se3C c) → s ∈ c.segments → Obtained (.se3L s.curve.dest)
  | se3CurvePoint (c t j) : Obtained (.se3C c) → TCurve.pointAt SE3.ops c t = .ok j → Obtained (.se3L j)
  | se3CurveUnpack (m c) : unpackTCurve SE3.ops se3Layout m = .ok c → Obtained (.se3C c)
  | se3Segment (a b s t j) : Obtained (.se3L a) → Obtained (.se3L b) → TSegment.make a b = .ok s → TSegment.pointAt SE3.ops s t = .ok j → Obtained (.se3L j)
  | statePose (old g) : Obtained (.se3 g) → Obtained (.state (RBState.ofPose old g))
  | stateDerivatives (g v) : Obtained (.se3 g) → Obtained (.state (RBState.ofDerivatives g v))
  | stateJet (j) : Obtained (.se3R j) → Obtained (.state ⟨j⟩)
  | stateDefault : Obtained (.state RBState.identityUnframed)
  | stateIdentity (i s r) : RBState.identity i s = .ok r → Obtained (.state r)
  | stateMul (a b c) : Obtained (.state a) → Obtained (.state b) → RBState.mul a b = .ok c → Obtained (.state c)
  | stateInverseTimes (a b c) : Obtained (.state a) → Obtained (.state b) → RBState.inverseTimes a b = .ok c → Obtained (.state c)
  | stateSetPose (s g) : Obtained (.se3 g) → Obtained (.state s) → Obtained (.state (RBState.setRefFromBody s g))
  | stateSetLinearVelocity (s v) : Obtained (.state s) → Obtained (.state (RBState.setLinearVelocity s v))
  | stateSetAngularVelocity (s v) : Obtained (.state s) → Obtained (.state (RBState.setAngularVelocity s v))
  | stateSetLinearAcceleration (s v) : Obtained (.state s) → Obtained (.state (RBState.setLinearAcceleration s v))
  | stateSetAngularAcceleration (s v) : Obtained (.state s) → Obtained (.state (RBState.setAngularAcceleration s v))
  | statePart (s) : Obtained (.state s) → Obtained (.se3 (RBState.refFromBody s))
  | stateTwoJet (s) : Obtained (.state s) → Obtained (.se3R (RBState.twoJet s))
  | dCurve : Obtained (.dCurve DCurve.empty)
  | dCurveAppend (c g) : Obtained (.dCurve c) → Obtained (.se3 g) → Obtained (.dCurve (DCurve.append SE3.ops SE3.arcLength c g).1)
  | dCurveControl (c p) : Obtained (.dCurve c) → p ∈ c.controls → Obtained (.se3 p.pose)
  | dCurveOrig (c) (s : DSegment _) : Obtained (.dCurve c) → s ∈ c.segments → Obtained (.se3 s.refFromOrig)
  | dCurveDest (c) (s : DSegment _) : Obtained (.dCurve c) → s ∈ c.segments → Obtained (.se3 s.refFromDest)
  | dCurveStep (c) (s : DSegment _) : Obtained (.dCurve c) → s ∈ c.segments → Obtained (.se3 s.origFromDest)
  | dCurvePoint (c s g) : Obtained (.dCurve c) → DCurve.pointAt SE3.ops c s = .ok g → Obtained (.se3 g)
  | dCurveUnpack (m c) : unpackDCurve SE3.ops SE3.arcLength se3Layout m = .ok c → Obtained (.dCurve c)
  | traj : Obtained (.traj Trajectory.empty)
  | trajOfCurve (c t) : Obtained (.se3C c) → Obtained (.traj (Trajectory.ofCurve c t))
  | trajAppend (T p) : Obtained (.traj T) → Obtained (.state p.state) → Obtained (.traj (Trajectory.append T p).1)
  | trajPoint (T t s) : Obtained (.traj T) → Trajectory.pointAt T t = .ok s → Obtained (.state s)
  | trajPointDuration (T d s) : Obtained (.traj T) → Trajectory.pointAtDuration T d = .ok s → Obtained (.state s)
  | trajCurve (T) : Obtained (.traj T) → Obtained (.se3C T.curve)
  | trajUnpack (m T) : unpackTrajectory m = .ok T → Obtained (.traj T)

/-- What the object may be relied on for: transforms have both frames or none and are rotations or rigid motions; curves were built by
appending such transforms. -/
def Rigid : Obj → Prop
  | .so3 g => (g.into = Frame.null ↔ g.src = Frame.null) ∧ IsRotation g.val
  | .so3L j => (j.g.into = Frame.null ↔ j.g.src = Frame.null) ∧ IsRotation j.g.val
  | .so3R j => (j.g.into = Frame.null ↔ j.g.src = Frame.null) ∧ IsRotation j.g.val
  | .so3C c => Built c ∧ WholeFrames c ∧ ∀ p ∈ c.controls, IsRotation p.point.g.val
  | .se3 g => (g.into = Frame.null ↔ g.src = Frame.null) ∧ IsRotation g.val.1
  | .se3L j => (j.g.into = Frame.null ↔ j.g.src = Frame.null) ∧ IsRotation j.g.val.1
  | .se3R j => (j.g.into = Frame.null ↔ j.g.src = Frame.null) ∧ IsRotation j.g.val.1
  | .se3C c => Built c ∧ WholeFrames c ∧ ∀ p ∈ c.controls, IsRotation p.point.g.val.1
  | .state s => (s.refFromBody.into = Frame.null ↔ s.refFromBody.src = Frame.null) ∧ IsRotation s.refFromBody.val.1
  | .dCurve c => DBuilt SE3.ops SE3.arcLength c ∧ ∀ p ∈ c.controls, IsRotation p.pose.val.1
  | .traj T => Built T.curve ∧ WholeFrames T.curve ∧ ∀ p ∈ T.curve.controls, IsRotation p.point.g.val.1

/-- C77.  Every object a client can obtain, through any sequence of calls, can be relied on for the above. -/
theorem c77_rigid (o : Obj) (h : Obtained o) : Rigid o := by
  induction h with
  | so3Matrix R h => exact good_unframed h
  | so3MatrixFramed R i s g hR h => exact yields_mk' (valid := IsRotation) hR g h
  | so3Quaternion q hq => exact good_unframed (SO3.isRotation_quatMatrix hq)
  | so3QuaternionFramed q i s g hq h => exact yields_mk' (valid := IsRotation) (SO3.isRotation_quatMatrix hq) g h
  | so3AngleAxis t n hn => exact good_unframed (SO3.isRotation_angleAxis t hn)
  | so3AngleAxisFramed t n i s g hn h => exact yields_mk' (valid := IsRotation) (SO3.isRotation_angleAxis t hn) g h
  | so3Default => exact good_unframed so3Laws.valid_one
  | so3Identity i s g h => exact yields_mk' (valid := IsRotation) so3Laws.valid_one g h
  | so3SetFrames a i s b _ h ih => exact yields_setFrames (valid := IsRotation) ih i s b h
  | so3SetUnframed a _ ih => exact ⟨by simp [Framed.setUnframed], ih.2⟩
  | so3Mul a b c _ _ h iha ihb => exact yields_mul so3Laws iha ihb c h
  | so3Inverse a b _ h ih => exact yields_inverse so3Laws ih b h
  | so3Exp x => exact good_unframed (so3_exp_valid x)
  | so3ExpFramed x i s b h => exact yields_exp (valid := IsRotation) so3_exp_valid x i s b h
  | so3Interp a f b _ h ih => exact yields_exp (valid := IsRotation) so3_exp_valid _ _ _ b h
  | so3InterpNewFrom a f n b _ h ih => exact yields_interpNewFrom (valid := IsRotation) so3_exp_valid a f n b h
  | so3Unpack m b h => exact (returns_group SO3.ops so3Layout (valid := IsRotation) so3_exp_valid m).2 b h
  | so3LMake g d d2 _ ih => exact ih
  | so3LDefault => exact good_unframed so3Laws.valid_one
  | so3LIdentity i s j h => exact yields_jetL_identity so3Laws i s j h
  | so3LInverse a b _ h ih => exact yields_jetL_inverse so3Laws ih b h
  | so3LMul a b c _ _ h iha ihb => exact yields_jetL_mul so3Laws iha ihb c h
  | so3LFromRight a b _ h ih => exact yields_jetR_left so3Laws ih b h
  | so3LPart j _ ih => exact ih
  | so3LUnpack m j h => exact (returns_twoJetL SO3.ops so3Layout (valid := IsRotation) so3_exp_valid m).2 j h
  | so3RMake g d d2 _ ih => exact ih
  | so3RDefault => exact good_unframed so3Laws.valid_one
  | so3RIdentity i s j h => exact yields_jetR_identity so3Laws i s j h
  | so3RInverse a b _ h ih => exact yields_jetR_inverse so3Laws ih b h
  | so3RMul a b c _ _ h iha ihb => exact yields_jetR_mul so3Laws iha ihb c h
  | so3RFromLeft a b _ h ih => exact yields_jetL_right so3Laws ih b h
  | so3RPart j _ ih => exact ih
  | so3RUnpack m j h => exact (returns_twoJetR SO3.ops so3Layout (valid := IsRotation) so3_exp_valid m).2 j h
  | so3Curve => exact ⟨.empty, fun p hp => by simp [TCurve.empty] at hp, fun p hp => by simp [TCurve.empty] at hp⟩
  | so3CurveAppend c p _ _ ihc ihp => exact goodT_append (valid := IsRotation) ihc p ihp
  | so3CurveControl c p _ hp ih => exact ⟨ih.2.1 p hp, ih.2.2 p hp⟩
  | so3CurveOrig c s _ hs ih => exact (goodT_segment (valid := IsRotation) ih s hs).1
  | so3CurveDest c s _ hs ih => exact (goodT_segment (valid := IsRotation) ih s hs).2
  | so3CurvePoint c t j _ h ih => exact yields_curve so3Laws so3_exp_valid ih t j h
  | so3CurveUnpack m c h => exact (returns_tcurve SO3.ops so3Layout (valid := IsRotation) so3_exp_valid m).2 c h
  | so3Segment a b s t j _ _ hs h iha ihb =>
    refine yields_segment so3Laws so3_exp_valid s ?_ t j h
    unfold TSegment.make at hs
    split_ifs at hs
    cases hs
    exact iha
  | se3Parts r t _ ih => exact ⟨by simp [fromRotation, unframed], ih.2⟩
  | se3PartsFramed r t i s g _ h ih => exact yields_mk' (valid := PoseValid) (show PoseValid (r.setUnframed.val, t) from ih.2) g h
  | se3Rotation g _ ih => exact good_unframed ih.2
  | se3Default => exact good_unframed se3Laws.valid_one
  | se3Identity i s g h => exact yields_mk' (valid := PoseValid) se3Laws.valid_one g h
  | se3SetFrames a i s b _ h ih => exact yields_setFrames (valid := PoseValid) ih i s b h
  | se3SetUnframed a _ ih => exact ⟨by simp [Framed.setUnframed], ih.2⟩
  | se3Mul a b c _ _ h iha ihb => exact yields_mul se3Laws iha ihb c h
  | se3Inverse a b _ h ih => exact yields_inverse se3Laws ih b h
  | se3Exp x => exact good_unframed (se3_exp_valid x)
  | se3ExpFramed x i s b h => exact yields_exp (valid := PoseValid) se3_exp_valid x i s b h
  | se3Interp a f b _ h ih => exact yields_exp (valid := PoseValid) se3_exp_valid _ _ _ b h
  | se3InterpNewFrom a f n b _ h ih => exact yields_interpNewFrom (valid := PoseValid) se3_exp_valid a f n b h
  | se3Unpack m b h => exact (returns_group SE3.ops se3Layout (valid := PoseValid) se3_exp_valid m).2 b h
  | se3LMake g d d2 _ ih => exact ih
  | se3LDefault => exact good_unframed se3Laws.valid_one
  | se3LIdentity i s j h => exact yields_jetL_identity se3Laws i s j h
  | se3LInverse a b _ h ih => exact yields_jetL_inverse se3Laws ih b h
  | se3LMul a b c _ _ h iha ihb => exact yields_jetL_mul se3Laws iha ihb c h
  | se3LFromRight a b _ h ih => exact yields_jetR_left se3Laws ih b h
  | se3LPart j _ ih => exact ih
  | se3LUnpack m j h => exact (returns_twoJetL SE3.ops se3Layout (valid := PoseValid) se3_exp_valid m).2 j h
  | se3RMake g d d2 _ ih => exact ih
  | se3RDefault => exact good_unframed se3Laws.valid_one
  | se3RIdentity i s j h => exact yields_jetR_identity se3Laws i s j h
  | se3RInverse a b _ h ih => exact yields_jetR_inverse se3Laws ih b h
  | se3RMul a b c _ _ h iha ihb => exact yields_jetR_mul se3Laws iha ihb c h
  | se3RFromLeft a b _ h ih => exact yields_jetL_right se3Laws ih b h
  | se3RPart j _ ih => exact ih
  | se3RUnpack m j h => exact (returns_twoJetR SE3.ops se3Layout (valid := PoseValid) se3_exp_valid m).2 j h
  | se3Curve => exact ⟨.empty, fun p hp => by simp [TCurve.empty] at hp, fun p hp => by simp [TCurve.empty] at hp⟩
  | se3CurveAppend c p _ _ ihc ihp => exact goodT_append (valid := PoseValid) ihc p ihp
  | se3CurveControl c p _ hp ih => exact ⟨ih.2.1 p hp, ih.2.2 p hp⟩
  | se3CurveOrig c s _ hs ih => exact (goodT_segment (valid := PoseValid) ih s hs).1
  | se3CurveDest c s _ hs ih => exact (goodT_segment (valid := PoseValid) ih s hs).2
  | se3CurvePoint c t j _ h ih => exact yields_curve se3Laws se3_exp_valid ih t j h
  | se3CurveUnpack m c h => exact (returns_tcurve SE3.ops se3Layout (valid := PoseValid) se3_exp_valid m).2 c h
  | se3Segment a b s t j _ _ hs h iha ihb =>
    refine yields_segment se3Laws se3_exp_valid s ?_ t j h
    unfold TSegment.make at hs
    split_ifs at hs
    cases hs
    exact iha
  | statePose old g _ ih => exact ih
  | stateDerivatives g v _ ih => exact ih
  | stateJet j _ ih => exact ih
  | stateDefault => exact good_unframed se3Laws.valid_one
  | stateIdentity i s r h =>
    exact yields_bind (yields_jetR_identity se3Laws i s) (fun j hj => yields_ok (P := fun s : RBState => GoodG PoseValid s.refFromBody) hj) r h
  | stateMul a b c _ _ h iha ihb =>
    exact yields_bind (yields_jetR_mul se3Laws iha ihb) (fun j hj => yields_ok (P := fun s : RBState => GoodG PoseValid s.refFromBody) hj) c h
  | stateInverseTimes a b c _ _ h iha ihb =>
    refine yields_bind (yields_jetR_inverse se3Laws iha) (fun i hi => yields_bind (yields_jetR_mul se3Laws hi ihb)
      fun j hj => yields_ok (P := fun s : RBState => GoodG PoseValid s.refFromBody) hj) c h
  | stateSetPose s g _ _ ih _ => exact ih
  | stateSetLinearVelocity s v _ ih => exact ih
  | stateSetAngularVelocity s v _ ih => exact ih
  | stateSetLinearAcceleration s v _ ih => exact ih
  | stateSetAngularAcceleration s v _ ih => exact ih
  | statePart s _ ih => exact ih
  | stateTwoJet s _ ih => exact ih
  | dCurve => exact ⟨.empty, fun p hp => by simp [DCurve.empty] at hp⟩
  | dCurveAppend c g _ _ ihc ihg => exact goodD_append (valid := PoseValid) ihc g ihg
  | dCurveControl c p _ hp ih => exact goodD_control (valid := PoseValid) ih p hp
  | dCurveOrig c s _ hs ih => exact (goodD_segment se3Laws ih s hs).1
  | dCurveDest c s _ hs ih => exact (goodD_segment se3Laws ih s hs).2.1
  | dCurveStep c s _ hs ih => exact (goodD_segment se3Laws ih s hs).2.2
  | dCurvePoint c s g _ h ih => exact yields_dcurve se3Laws se3_exp_valid ih s g h
  | dCurveUnpack m c h => exact (returns_dcurve SE3.ops SE3.arcLength se3Layout (valid := PoseValid) se3_exp_valid m).2 c h
  | traj => exact ⟨.empty, fun p hp => by simp [Trajectory.empty, TCurve.empty] at hp, fun p hp => by simp [Trajectory.empty, TCurve.empty] at hp⟩
  | trajOfCurve c t _ ih => exact ih
  | trajAppend T p _ _ ihT ihp => exact goodTraj_append ihT p ihp
  | trajPoint T t s _ h ih => exact yields_traj_at ih t s h
  | trajPointDuration T d s _ h ih => exact yields_traj ih d s h
  | trajCurve T _ ih => exact ih
  | trajUnpack m T h =>
    exact yields_bind (yields_any _) (fun t _ => yields_bind (returns_tcurve SE3.ops se3Layout (valid := PoseValid) se3_exp_valid _).2
      fun c hc => yields_ok (P := GoodTraj) (a := Trajectory.ofCurve c t) hc) T h

/-- C77, for points: the transforms of obtained poses keep distances. -/
theorem c77_distances (g : Framed Pose) (h : Obtained (.se3 g)) (v w : V3) :
    SO3.eucNorm (SE3.act g.val v - SE3.act g.val w) = SO3.eucNorm (v - w) := by
  have e : SE3.act g.val v - SE3.act g.val w = SO3.act g.val.1 (v - w) := by
    simp only [SE3.act, SO3.act, Matrix.mulVec_sub]
    abel
  rw [e]
  exact SO3.eucNorm_mulVec (c77_rigid _ h).2 _

/-- C77.  Conversely every rotation and every rigid motion, framed on both sides or on neither, can be obtained. -/
theorem c77_all_rigid (r : Framed M3) (g : Framed Pose) :
    (Obtained (.so3 r) ↔ Rigid (.so3 r)) ∧ (Obtained (.se3 g) ↔ Rigid (.se3 g)) := by
  refine ⟨⟨c77_rigid _, fun h => ?_⟩, ⟨c77_rigid _, fun h => ?_⟩⟩
  · exact .so3MatrixFramed r.val r.into r.src r h.2 (mk'_eq_ok_iff.mpr ⟨h.1, rfl⟩)
  · exact .se3PartsFramed (unframed g.val.1) g.val.2 g.into g.src g (.so3Matrix _ h.2) (mk'_eq_ok_iff.mpr ⟨h.1, rfl⟩)

theorem obtained_of_reached {T : Trajectory} {acc : List TrajControl} (h : Reached T acc) (hv : ∀ p ∈ acc, IsRotation p.state.refFromBody.val.1) :
    Obtained (.traj T) := by
  induction h with
  | empty => exact .traj
  | @accepted T T' acc h p hw hi ho ih =>
    have hs : Obtained (.state p.state) := .stateJet _ (.se3RMake _ _ _ ((c77_all_rigid (unframed 1) _).2.mpr ⟨hw, hv p (by simp)⟩))
    have := Obtained.trajAppend T p (ih fun q hq => hv q (by simp [hq])) hs
    rwa [ho] at this
  | @rejected T T' acc h p hw hi m ho ih =>
    have hI := inv_of_reached h
    have e : T' = T := by
      by_cases hne : acc = []
      · subst hne
        have := (Trajectory.append_nil hI hw).1
        rw [ho] at this
        cases this
      · by_cases hf : InI64 (p.atTime - T.startTime)
        · obtain ⟨h1, h2⟩ := Trajectory.append_spec hI hne hw hf
          by_cases hm : Trajectory.Follows T.startTime acc p
          · have := (h1 hm).1
            rw [ho] at this
            cases this
          · have := (h2 hm).2
            rwa [ho] at this
        · have := (Trajectory.append_overflow hI hne hf).1
          rwa [ho] at this
    rw [e]
    exact ih hv

/-- A trajectory with three rotated states: the state at 120 ns, between the second and the third, is obtained, with its frames. -/
example : ∃ T s, Obtained (.traj T) ∧ Trajectory.pointAt T 120 = .ok s ∧ Obtained (.state s) ∧ s.refFromBody.into = exFrame 1 := by
  obtain ⟨T, hT⟩ := exReached (fun t => exAt quarterTurn ![(t : ℝ), 2, 3]) (fun _ => ⟨exAt_whole _ _, rfl, rfl⟩) 100 (by decide) [115, 230] (by decide)
    (by decide) (by decide)
  have hO : Obtained (.traj T) := obtained_of_reached hT fun p hp => by
    rw [List.mem_map] at hp
    obtain ⟨t, -, rfl⟩ := hp
    exact quarterTurn_isRotation
  obtain ⟨s, h1, -, -, h2⟩ := c51_inside T _ ⟨230, exAt quarterTurn ![((230 : Int) : ℝ), 2, 3]⟩ [⟨115, exAt quarterTurn ![((115 : Int) : ℝ), 2, 3]⟩] hT 120
    (by decide) (by decide)
  exact ⟨T, s, hO, h1, .trajPoint T 120 s hO h1, h2⟩

end Verif.Props
