import Verif.Model.Frame
import Mathlib.Algebra.Group.Defs
/-! # resim/curves/two_jet.cc

Generic in the Lie group class (resim/curves/two_jet.hh:57,129), as in the C++ template.  `A` is `Group::TangentVector`. -/
namespace Verif

/-- `TwoJetL<Group>`, resim/curves/two_jet.hh:57-112: `frame_from_ref_`, `d_frame_from_ref_`, `d2_frame_from_ref_`. -/
@[ext] structure TwoJetL (G A : Type) where
  g : Framed G
  d : A
  d2 : A

/-- `TwoJetR<Group>`, resim/curves/two_jet.hh:129-184: `ref_from_frame_`, `d_ref_from_frame_`, `d2_ref_from_frame_`. -/
@[ext] structure TwoJetR (G A : Type) where
  g : Framed G
  d : A
  d2 : A

variable {R G A V : Type} [AddCommGroup A]

namespace TwoJetL

/-- `TwoJetL::identity()` without frames, resim/curves/two_jet.cc:42-49. -/
def identityUnframed (L : LieOps R G A V) : TwoJetL G A := ⟨Framed.identityUnframed L, 0, 0⟩

/-- `TwoJetL::identity(into, from)`, resim/curves/two_jet.cc:42-49. -/
def identity (L : LieOps R G A V) (into src : Frame) : Outcome (TwoJetL G A) := do
  let i ← Framed.identity L into src
  .ok ⟨i, 0, 0⟩

/-- `TwoJetL::inverse`, resim/curves/two_jet.cc:51-60. -/
def inverse (L : LieOps R G A V) (j : TwoJetL G A) : Outcome (TwoJetL G A) := do
  let i ← Framed.inverse L j.g
  .ok ⟨i, -L.Ad i.val j.d, -L.Ad i.val j.d2⟩

/-- `TwoJetL::operator*`, resim/curves/two_jet.cc:62-73. -/
def mul (L : LieOps R G A V) (j k : TwoJetL G A) : Outcome (TwoJetL G A) := do
  let p ← Framed.mul L j.g k.g
  .ok ⟨p, j.d + L.Ad j.g.val k.d, j.d2 + L.Ad j.g.val k.d2 + L.ad j.d (L.Ad j.g.val k.d)⟩

/-- `TwoJetL::right_two_jet`, resim/curves/two_jet.cc:75-81. -/
def right (L : LieOps R G A V) (j : TwoJetL G A) : Outcome (TwoJetR G A) := do
  let i ← Framed.inverse L j.g
  .ok ⟨i, -j.d, -j.d2⟩

end TwoJetL

namespace TwoJetR

/-- `TwoJetR::identity()` without frames, resim/curves/two_jet.cc:139-146. -/
def identityUnframed (L : LieOps R G A V) : TwoJetR G A := ⟨Framed.identityUnframed L, 0, 0⟩

/-- `TwoJetR::identity(into, from)`, resim/curves/two_jet.cc:139-146. -/
def identity (L : LieOps R G A V) (into src : Frame) : Outcome (TwoJetR G A) := do
  let i ← Framed.identity L into src
  .ok ⟨i, 0, 0⟩

/-- `TwoJetR::inverse`, resim/curves/two_jet.cc:148-156. -/
def inverse (L : LieOps R G A V) (j : TwoJetR G A) : Outcome (TwoJetR G A) := do
  let i ← Framed.inverse L j.g
  .ok ⟨i, -L.Ad j.g.val j.d, -L.Ad j.g.val j.d2⟩

/-- `TwoJetR::operator*`, resim/curves/two_jet.cc:158-170. -/
def mul (L : LieOps R G A V) (j k : TwoJetR G A) : Outcome (TwoJetR G A) := do
  let p ← Framed.mul L j.g k.g
  let i ← Framed.inverse L k.g
  .ok ⟨p, k.d + L.Ad i.val j.d, k.d2 + L.Ad i.val j.d2 - L.ad k.d (L.Ad i.val j.d)⟩

/-- `TwoJetR::left_two_jet`, resim/curves/two_jet.cc:172-178. -/
def left (L : LieOps R G A V) (j : TwoJetR G A) : Outcome (TwoJetL G A) := do
  let i ← Framed.inverse L j.g
  .ok ⟨i, -j.d, -j.d2⟩

end TwoJetR
end Verif
