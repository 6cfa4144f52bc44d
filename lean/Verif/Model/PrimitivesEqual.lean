import Verif.Model.Proto
import Verif.Model.Approx
/-! # How the tests of the view compare: resim/visualization/testing/test_helpers.cc and resim/visualization/proto/view_update_to_proto_test.cc -/
namespace Verif.PrimitivesEqual
open Verif.Proto

/-- `std::get<SE3>(payload)`, resim/visualization/testing/test_helpers.cc:21. -/
def getSE3 : Payload → Outcome (Framed Pose)
  | .se3 g => .ok g
  | _ => .throw "std::bad_variant_access"

open Classical in
/-- `primitives_equal`, resim/visualization/testing/test_helpers.cc:17-22, in real arithmetic. -/
noncomputable def primitivesEqual (a b : ViewPrimitive) : Outcome Bool :=
  if ¬ Uuid.eq a.id b.id then .ok false
  else do
    let x ← getSE3 a.payload
    let y ← getSE3 b.payload
    .ok (decide (Approx.se3 x y))

variable {M N : Type}

/-- The loop at resim/visualization/proto/view_update_to_proto_test.cc:52-56: whether all the expectations are met. -/
noncomputable def comparePacked (unpackOne : N → Outcome ViewPrimitive) (p : ViewPrimitive) : List N → Outcome Bool
  | [] => .ok true
  | m :: ms => do
    let unpacked ← unpackOne m
    let same ← primitivesEqual unpacked p
    let rest ← comparePacked unpackOne p ms
    .ok (same && rest)

/-- `TestPack`, resim/visualization/proto/view_update_to_proto_test.cc:39-57, with `test_primitive` and the functions under test as parameters: whether
it passes; `primitives` is `primitive()` of the message. -/
noncomputable def testPack (pack : List ViewPrimitive → Outcome M) (primitives : M → List N) (unpackOne : N → Outcome ViewPrimitive) (p : ViewPrimitive) :
    Outcome Bool := do
  let msg ← pack [p, p]
  if (primitives msg).length ≠ 2 then .ok false else comparePacked unpackOne p (primitives msg)

/-- The loop at resim/visualization/proto/view_update_to_proto_test.cc:73-75. -/
noncomputable def compareAll (p : ViewPrimitive) : List ViewPrimitive → Outcome Bool
  | [] => .ok true
  | q :: qs => do
    let same ← primitivesEqual q p
    let rest ← compareAll p qs
    .ok (same && rest)

/-- `TestRoundTrip`, resim/visualization/proto/view_update_to_proto_test.cc:59-76, likewise.  The loop of lines 73-75 goes over the update that was
packed, not over the one that was unpacked. -/
noncomputable def testRoundTrip (pack : List ViewPrimitive → Outcome M) (unpack : M → Outcome (List ViewPrimitive)) (p : ViewPrimitive) : Outcome Bool := do
  let update := [p, p]
  let msg ← pack update
  let unpacked ← unpack msg
  if update.length ≠ unpacked.length then .ok false else compareAll p update

end Verif.PrimitivesEqual
