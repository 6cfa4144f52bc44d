import Verif.Proofs.SO3Algebra
import Verif.Proofs.Frame
import Mathlib.Algebra.Module.Prod
/-! # Group and adjoint laws, for SO3 and SE3 -/
namespace Verif
open Matrix Spec

/-- The algebraic laws of a Lie group class on its valid elements. -/
structure LieLaws {G A V : Type} [AddCommGroup A] [Module ℝ A] (L : LieOps ℝ G A V) (valid : G → Prop) : Prop where
  valid_one : valid L.one
  valid_mul : ∀ {g h}, valid g → valid h → valid (L.mul g h)
  valid_inv : ∀ {g}, valid g → valid (L.inv g)
  mul_assoc : ∀ g h k, L.mul (L.mul g h) k = L.mul g (L.mul h k)
  one_mul : ∀ g, L.mul L.one g = g
  mul_one : ∀ g, L.mul g L.one = g
  inv_mul : ∀ {g}, valid g → L.mul (L.inv g) g = L.one
  mul_inv : ∀ {g}, valid g → L.mul g (L.inv g) = L.one
  inv_one : L.inv L.one = L.one
  Ad_one : ∀ x, L.Ad L.one x = x
  Ad_mul : ∀ {g h}, valid g → valid h → ∀ x, L.Ad (L.mul g h) x = L.Ad g (L.Ad h x)
  Ad_add : ∀ g x y, L.Ad g (x + y) = L.Ad g x + L.Ad g y
  Ad_smul : ∀ g (c : ℝ) x, L.Ad g (c • x) = c • L.Ad g x
  ad_add_left : ∀ x y z, L.ad (x + y) z = L.ad x z + L.ad y z
  ad_add_right : ∀ x y z, L.ad x (y + z) = L.ad x y + L.ad x z
  ad_smul_left : ∀ (c : ℝ) x y, L.ad (c • x) y = c • L.ad x y
  ad_smul_right : ∀ (c : ℝ) x y, L.ad x (c • y) = c • L.ad x y
  ad_self : ∀ x, L.ad x x = 0
  jacobi : ∀ x y z, L.ad x (L.ad y z) + L.ad y (L.ad z x) + L.ad z (L.ad x y) = 0
  Ad_ad : ∀ {g}, valid g → ∀ x y, L.Ad g (L.ad x y) = L.ad (L.Ad g x) (L.Ad g y)
  smul_eq : ∀ (c : ℝ) x, L.smul c x = c • x

namespace LieLaws
variable {G A V : Type} [AddCommGroup A] [Module ℝ A] {L : LieOps ℝ G A V} {valid : G → Prop} (H : LieLaws L valid)
include H

theorem ad_antisymm (x y : A) : L.ad x y = -L.ad y x := by
  have h := H.ad_self (x + y)
  rw [H.ad_add_left, H.ad_add_right, H.ad_add_right, H.ad_self, H.ad_self, zero_add, add_zero] at h
  exact eq_neg_of_add_eq_zero_left h

theorem Ad_neg (g : G) (x : A) : L.Ad g (-x) = -L.Ad g x := by
  rw [← neg_one_smul ℝ x, H.Ad_smul, neg_one_smul]

theorem Ad_zero (g : G) : L.Ad g 0 = 0 := by
  have := H.Ad_smul g 0 0
  simpa using this

theorem ad_neg_left (x y : A) : L.ad (-x) y = -L.ad x y := by
  rw [← neg_one_smul ℝ x, H.ad_smul_left, neg_one_smul]

theorem ad_neg_right (x y : A) : L.ad x (-y) = -L.ad x y := by
  rw [← neg_one_smul ℝ y, H.ad_smul_right, neg_one_smul]

theorem ad_zero_left (y : A) : L.ad 0 y = 0 := by
  have := H.ad_smul_left 0 0 y
  simpa using this

theorem ad_zero_right (y : A) : L.ad y 0 = 0 := by
  have := H.ad_smul_right 0 y 0
  simpa using this

theorem Ad_inv_Ad {g : G} (hg : valid g) (x : A) : L.Ad (L.inv g) (L.Ad g x) = x := by
  rw [← H.Ad_mul (H.valid_inv hg) hg, H.inv_mul hg, H.Ad_one]

theorem Ad_Ad_inv {g : G} (hg : valid g) (x : A) : L.Ad g (L.Ad (L.inv g) x) = x := by
  rw [← H.Ad_mul hg (H.valid_inv hg), H.mul_inv hg, H.Ad_one]

theorem inv_unique {g h : G} (hg : valid g) (e : L.mul g h = L.one) : h = L.inv g := by
  have : L.mul (L.inv g) (L.mul g h) = L.inv g := by rw [e, H.mul_one]
  rwa [← H.mul_assoc, H.inv_mul hg, H.one_mul] at this

theorem inv_inv {g : G} (hg : valid g) : L.inv (L.inv g) = g :=
  (H.inv_unique (H.valid_inv hg) (H.inv_mul hg)).symm

theorem inv_mul_rev {g h : G} (hg : valid g) (hh : valid h) : L.inv (L.mul g h) = L.mul (L.inv h) (L.inv g) := by
  symm
  apply H.inv_unique (H.valid_mul hg hh)
  rw [H.mul_assoc, ← H.mul_assoc h, H.mul_inv hh, H.one_mul, H.mul_inv hg]

end LieLaws

/-- SO3 satisfies the laws on proper rotations. -/
theorem so3Laws : LieLaws SO3.ops IsRotation where
  valid_one := SO3.isRotation_one
  valid_mul := SO3.isRotation_mul
  valid_inv := SO3.isRotation_transpose
  mul_assoc := Matrix.mul_assoc
  one_mul := Matrix.one_mul
  mul_one := Matrix.mul_one
  inv_mul h := h.orth
  mul_inv h := SO3.IsRotation_orth' h
  inv_one := transpose_one
  Ad_one := one_mulVec
  Ad_mul _ _ x := (mulVec_mulVec x _ _).symm
  Ad_add := mulVec_add
  Ad_smul g c x := mulVec_smul g c x
  ad_add_left x y z := by simp [SO3.ops, SO3.bracket]
  ad_add_right x y z := by simp [SO3.ops, SO3.bracket]
  ad_smul_left c x y := by simp [SO3.ops, SO3.bracket]
  ad_smul_right c x y := by simp [SO3.ops, SO3.bracket]
  ad_self x := cross_self x
  jacobi x y z := jacobi_cross x y z
  Ad_ad h x y := SO3.mulVec_cross h x y
  smul_eq _ _ := rfl

/-- A valid pose has a proper rotation. -/
def PoseValid (g : Pose) : Prop := IsRotation g.1

/-- SE3 satisfies the laws on poses with proper rotation. -/
theorem se3Laws : LieLaws SE3.ops PoseValid where
  valid_one := SO3.isRotation_one
  valid_mul h1 h2 := SO3.isRotation_mul h1 h2
  valid_inv h := SO3.isRotation_transpose h
  mul_assoc g h k := by
    simp only [SE3.ops, SE3.mul, SO3.mul, SO3.act, Prod.mk.injEq]
    exact ⟨Matrix.mul_assoc _ _ _, by rw [mulVec_add, ← mulVec_mulVec, add_assoc]⟩
  one_mul g := by simp [SE3.ops, SE3.mul, SE3.one, SO3.one, SO3.mul, SO3.act]
  mul_one g := by simp [SE3.ops, SE3.mul, SE3.one, SO3.one, SO3.mul, SO3.act]
  inv_mul {g} h := by
    have h' : g.1ᵀ * g.1 = 1 := h.orth
    simp [SE3.ops, SE3.mul, SE3.inv, SE3.one, SO3.one, SO3.mul, SO3.act, SO3.inv, h', mulVec_neg]
  mul_inv {g} h := by
    have h' : g.1 * g.1ᵀ = 1 := SO3.IsRotation_orth' h
    simp [SE3.ops, SE3.mul, SE3.inv, SE3.one, SO3.one, SO3.mul, SO3.act, SO3.inv, h', mulVec_neg]
  inv_one := by simp [SE3.ops, SE3.inv, SE3.one, SO3.one, SO3.act, SO3.inv]
  Ad_one x := by simp [SE3.ops, SE3.adjointTimes, SE3.one, SO3.one]
  Ad_mul {g h} hg hh x := by
    simp only [SE3.ops, SE3.adjointTimes, SE3.mul, SO3.mul, SO3.act, Prod.mk.injEq]
    refine ⟨(mulVec_mulVec _ _ _).symm, ?_⟩
    rw [mulVec_add, SO3.mulVec_cross hg, mulVec_mulVec, mulVec_mulVec]
    simp only [map_add, LinearMap.add_apply]
    abel
  Ad_add g x y := by
    simp only [SE3.ops, SE3.adjointTimes, Prod.fst_add, Prod.snd_add, mulVec_add, map_add, Prod.mk_add_mk, Prod.mk.injEq,
      true_and]
    abel
  Ad_smul g c x := by
    simp [SE3.ops, SE3.adjointTimes, mulVec_smul]
  ad_add_left x y z := by
    simp only [SE3.ops, SE3.bracket, Prod.fst_add, Prod.snd_add, map_add, LinearMap.add_apply, Prod.mk_add_mk, Prod.mk.injEq,
      true_and]
    abel
  ad_add_right x y z := by
    simp only [SE3.ops, SE3.bracket, Prod.fst_add, Prod.snd_add, map_add, Prod.mk_add_mk, Prod.mk.injEq,
      true_and]
    abel
  ad_smul_left c x y := by simp [SE3.ops, SE3.bracket]
  ad_smul_right c x y := by simp [SE3.ops, SE3.bracket]
  ad_self x := by
    simp only [SE3.ops, SE3.bracket, cross_self]
    rw [← cross_anticomm x.1 x.2]
    simp
  jacobi x y z := by
    obtain ⟨x1, x2⟩ := x
    obtain ⟨y1, y2⟩ := y
    obtain ⟨z1, z2⟩ := z
    simp only [SE3.ops, SE3.bracket, Prod.mk_add_mk]
    refine Prod.ext ?_ ?_
    · exact jacobi_cross x1 y1 z1
    · ext i
      fin_cases i <;> simp [crossProduct] <;> ring
  Ad_ad {g} h x y := by
    have hr : IsRotation g.1 := h
    simp only [SE3.ops, SE3.bracket, SE3.adjointTimes, Prod.mk.injEq]
    refine ⟨SO3.mulVec_cross hr _ _, ?_⟩
    rw [mulVec_add, SO3.mulVec_cross hr, SO3.mulVec_cross hr, SO3.mulVec_cross hr]
    simp only [map_add, LinearMap.add_apply]
    generalize g.1 *ᵥ x.1 = a at *
    generalize g.1 *ᵥ y.1 = b at *
    generalize g.1 *ᵥ x.2 = c at *
    generalize g.1 *ᵥ y.2 = d at *
    ext i
    fin_cases i <;> simp [crossProduct] <;> ring
  smul_eq _ _ := rfl

end Verif
