import Verif.Model.SceneGraph
import Verif.Spec.Rotation
/-! # What a scene of framed transforms means

A place for a frame is where its points are in one common space: `place f p` is the point with coordinates `p` in the frame `f`. -/
namespace Verif.Spec
open SceneGraph

/-- The frames of an expression if neighbours fit: the frame it leads into, and the frame it starts from. -/
def ends : Expr → Option (Frame × Frame)
  | .link l => some (l.into, l.src)
  | .inverse e => (ends e).map fun p => (p.2, p.1)
  | .mul a b =>
    match ends a, ends b with
    | some p, some q => if p.2 = q.1 then some (p.1, q.2) else none
    | _, _ => none

/-- A transform a scene is made of: two frames, and a rotation as its rotation. -/
def Link (l : Framed Pose) : Prop := l.into ≠ Frame.null ∧ l.src ≠ Frame.null ∧ IsRotation l.val.1

/-- The frames that a scene knows: the root, and those of its links. -/
def Known (root : Frame) (ls : List (Framed Pose)) (f : Frame) : Prop := f = root ∨ ∃ l ∈ ls, f = l.into ∨ f = l.src

/-- A scene grows from its root by links between a frame it knows and a new one, in either direction. -/
inductive Scene (root : Frame) : List (Framed Pose) → Prop
  | nil : Scene root []
  | child {ls : List (Framed Pose)} (l : Framed Pose) : Scene root ls → Link l → Known root ls l.into → ¬ Known root ls l.src → Scene root (l :: ls)
  | parent {ls : List (Framed Pose)} (l : Framed Pose) : Scene root ls → Link l → Known root ls l.src → ¬ Known root ls l.into → Scene root (l :: ls)

/-- A point is where the places of frames say, whichever end of the transform its coordinates are given at. -/
def Agrees (place : Frame → V3 → V3) (l : Framed Pose) : Prop := ∀ p, place l.into (fun i => (∑ j, l.val.1 i j * p j) + l.val.2 i) = place l.src p

/-- Places keep distances and handedness: they are rotations followed by shifts. -/
def Rigid (f : V3 → V3) : Prop := ∃ (R : M3) (t : V3), IsRotation R ∧ ∀ p i, f p i = (∑ j, R i j * p j) + t i

/-- A transform that can be computed from others by `inverse()` and `*`. -/
def Derived (ls : List (Framed Pose)) (g : Framed Pose) : Prop := ∃ e : Expr, (∀ l ∈ e.links, l ∈ ls) ∧ e.eval = .ok g

end Verif.Spec
