import Verif.Model.TypeObject
/-! # What passing types as objects should mean -/
namespace Verif.Spec.TypeObject
open Verif.TypeObject

/-- The functions of some namespaces. -/
def within (nss : List Ns) (fns : List Fn) : List Fn := fns.filter fun x => decide (x.ns ∈ nss)

/-- A library as in the comment of the header: a template for all types and an overload for one. -/
def library (f : Nat) (special : Ty) : List Fn := [⟨.resim, f, .anyBasic, 1⟩, ⟨.resim, f, .exactly (basicType special), 2⟩]

/-- The type objects as they would be without the guard: `template <typename T> struct Type : BasicType<T> {}`. -/
def unguarded (t : Ty) : Ty := .tmplDerived .resim 1 t (basicType t)

end Verif.Spec.TypeObject
