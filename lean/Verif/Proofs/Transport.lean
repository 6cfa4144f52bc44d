import Verif.Proofs.Trajectory
import Verif.Proofs.DCurve
/-! # Curves with corresponding controls give corresponding answers -/
namespace Verif
open Framed

theorem forall2_get {α β : Type} {R : α → β → Prop} {l : List α} {l' : List β} (h : List.Forall₂ R l l') {i : Nat} (hi : i < l.length) :
    R l[i] (l'[i]'(h.length_eq ▸ hi)) := by
  obtain ⟨h1, h2⟩ := List.forall₂_iff_get.mp h
  simpa using h2 i hi (h1 ▸ hi)

section
variable {G A V G' A' V' : Type} [NormedAddCommGroup A] [NormedSpace ℝ A] [NormedAddCommGroup A'] [NormedSpace ℝ A']

/-- Two curves whose controls have corresponding times and whose pieces have corresponding formulas at the times of the piece. -/
theorem TCurve.transport_at (L : LieOps ℝ G A V) (L' : LieOps ℝ G' A' V') {c : TCurve G A} {c' : TCurve G' A'} (hc : TCurve.Inv c) (hc' : TCurve.Inv c')
    (hw : ∀ p ∈ c.controls, Whole p.point.g) (hw' : ∀ p ∈ c'.controls, Whole p.point.g) (σ : ℝ → ℝ) (hσ : StrictMono σ)
    (R : TControl G A → TControl G' A' → Prop) (hR : List.Forall₂ R c.controls c'.controls) (hRt : ∀ p p', R p p' → p'.time = σ p.time)
    (Rel : TwoJetL G A → TwoJetL G' A' → Prop) (t : ℝ)
    (hp : ∀ (i : Nat) (hi : i + 1 < c.controls.length) (hi' : i + 1 < c'.controls.length), c.controls[i].time ≤ t → t ≤ c.controls[i + 1].time →
      Rel (pieceFormula L c.controls[i] c.controls[i + 1] t) (pieceFormula L' c'.controls[i] c'.controls[i + 1] (σ t))) :
    (∃ p p', TCurve.pointAt L c t = .ok p ∧ TCurve.pointAt L' c' (σ t) = .ok p' ∧ Rel p p') ∨
      ((TCurve.pointAt L c t).IsThrow ∧ (TCurve.pointAt L' c' (σ t)).IsThrow) := by
  have hlen := hR.length_eq
  have ht : ∀ (i : Nat) (hi : i < c.controls.length), (c'.controls[i]'(hlen ▸ hi)).time = σ c.controls[i].time :=
    fun i hi => hRt _ _ (forall2_get hR hi)
  have thr : ∀ {G A V : Type} [AddCommGroup A] [Module ℝ A] (L : LieOps ℝ G A V) (c : TCurve G A) (t : ℝ), (TCurve.pointAtImpl c t).IsThrow →
      (TCurve.pointAt L c t).IsThrow := by
    intro G A V _ _ L c t h
    unfold TCurve.pointAt
    revert h
    cases TCurve.pointAtImpl c t <;> simp
  by_cases h2 : 2 ≤ c.controls.length
  · by_cases hin : c.controls[0].time ≤ t ∧ t ≤ c.controls[c.controls.length - 1].time
    · left
      have el : c'.controls[c'.controls.length - 1]'(by omega) = c'.controls[c.controls.length - 1]'(by omega) := by congr 1; omega
      obtain ⟨i, hi, e0, e1, e2, e3⟩ := TCurve.pointAt_inside L hc h2 t hin.1 hin.2
      obtain ⟨j, hj, f0, f1, f2, f3⟩ := TCurve.pointAt_inside L' hc' (by omega) (σ t)
        (by rw [ht 0 (by omega)]; exact hσ.monotone hin.1) (by rw [el, ht _ (by omega)]; exact hσ.monotone hin.2)
      rw [ht j (by omega)] at f0 f1
      rw [ht (j + 1) (by omega)] at f2
      rw [hσ.lt_iff_lt] at f0
      rw [hσ.le_iff_le] at f1 f2
      have hij : i = j := by
        rcases Nat.lt_trichotomy i j with h | h | h
        · rcases f0 with rfl | f0
          · omega
          · have := hc.time_le (i := i + 1) (j := j) (by omega) (by omega)
            linarith
        · exact h
        · rcases e0 with rfl | e0
          · omega
          · have := hc.time_le (i := j + 1) (j := i) (by omega) (by omega)
            linarith
      subst hij
      rw [e3, f3, onPiece_formula L (TCurve.good_piece hc hw hi), onPiece_formula L' (TCurve.good_piece hc' hw' hj)]
      exact ⟨_, _, rfl, rfl, hp i hi hj e1 e2⟩
    · right
      refine ⟨thr L c t (TCurve.pointAtImpl_outside hc h2 t hin), thr L' c' (σ t) (TCurve.pointAtImpl_outside hc' (by omega) (σ t) ?_)⟩
      have el : c'.controls[c'.controls.length - 1]'(by omega) = c'.controls[c.controls.length - 1]'(by omega) := by congr 1; omega
      rw [el, ht 0 (by omega), ht _ (by omega), hσ.le_iff_le, hσ.le_iff_le]
      exact hin
  · right
    exact ⟨thr L c t (TCurve.pointAtImpl_short hc (not_le.mp h2) t), thr L' c' (σ t) (TCurve.pointAtImpl_short hc' (by omega) (σ t))⟩

/-- Two curves whose controls have corresponding times and whose pieces have corresponding formulas. -/
theorem TCurve.transport (L : LieOps ℝ G A V) (L' : LieOps ℝ G' A' V') {c : TCurve G A} {c' : TCurve G' A'} (hc : TCurve.Inv c) (hc' : TCurve.Inv c')
    (hw : ∀ p ∈ c.controls, Whole p.point.g) (hw' : ∀ p ∈ c'.controls, Whole p.point.g) (σ : ℝ → ℝ) (hσ : StrictMono σ)
    (R : TControl G A → TControl G' A' → Prop) (hR : List.Forall₂ R c.controls c'.controls) (hRt : ∀ p p', R p p' → p'.time = σ p.time)
    (Rel : TwoJetL G A → TwoJetL G' A' → Prop)
    (hp : ∀ a b a' b' t, a ∈ c.controls → b ∈ c.controls → R a a' → R b b' → a.time < b.time → Rel (pieceFormula L a b t) (pieceFormula L' a' b' (σ t)))
    (t : ℝ) :
    (∃ p p', TCurve.pointAt L c t = .ok p ∧ TCurve.pointAt L' c' (σ t) = .ok p' ∧ Rel p p') ∨
      ((TCurve.pointAt L c t).IsThrow ∧ (TCurve.pointAt L' c' (σ t)).IsThrow) := by
  refine TCurve.transport_at L L' hc hc' hw hw' σ hσ R hR hRt Rel t fun i hi hi' _ _ =>
    hp _ _ _ _ t (List.getElem_mem _) (List.getElem_mem _) (forall2_get hR (by omega)) (forall2_get hR hi) (hc.time_lt hi (by omega))

/-- A map of Lie groups and their tangent vectors that respects all operations. -/
structure LieHom (L : LieOps ℝ G A V) (L' : LieOps ℝ G' A' V') (φ : G → G') (ψ : A →ₗ[ℝ] A') : Prop where
  one : φ L.one = L'.one
  mul : ∀ g h, φ (L.mul g h) = L'.mul (φ g) (φ h)
  inv : ∀ g, φ (L.inv g) = L'.inv (φ g)
  exp : ∀ x, φ (L.exp x) = L'.exp (ψ x)
  log : ∀ g, ψ (L.log g) = L'.log (φ g)
  Ad : ∀ g x, ψ (L.Ad g x) = L'.Ad (φ g) (ψ x)
  ad : ∀ x y, ψ (L.ad x y) = L'.ad (ψ x) (ψ y)
  smul : ∀ (k : ℝ) x, L.smul k x = k • x
  smul' : ∀ (k : ℝ) x, L'.smul k x = k • x

variable {L : LieOps ℝ G A V} {L' : LieOps ℝ G' A' V'} {valid : G → Prop} {φ : G → G'} {ψ : A →ₗ[ℝ] A'}

theorem LieHom.vmul (H : LieHom L L' φ ψ) (x y : G × A × A) :
    (fun z : G × A × A => (φ z.1, ψ z.2.1, ψ z.2.2)) (Verif.vmul L x y) = Verif.vmul L' (φ x.1, ψ x.2.1, ψ x.2.2) (φ y.1, ψ y.2.1, ψ y.2.2) := by
  simp only [Verif.vmul, H.mul, map_add, H.Ad, H.ad]

theorem LieHom.vinc (H : LieHom L L' φ ψ) (k : PolyCoeffs) (v : A) :
    (fun z : G × A × A => (φ z.1, ψ z.2.1, ψ z.2.2)) (Verif.vinc L k v) = Verif.vinc L' k (ψ v) := by
  simp only [Verif.vinc, H.smul, H.smul', H.exp, map_smul]

theorem LieHom.vpoint (H : LieHom L L' φ ψ) {seg : TSegment G A} {seg' : TSegment G' A'} (ho : seg'.orig.g.val = φ seg.orig.g.val)
    (hd : seg'.dest.g.val = φ seg.dest.g.val) (h1 : seg'.orig.d = ψ seg.orig.d) (h2 : seg'.dest.d = ψ seg.dest.d)
    (h3 : seg'.orig.d2 = ψ seg.orig.d2) (h4 : seg'.dest.d2 = ψ seg.dest.d2) (t : ℝ) :
    Verif.vpoint L' seg' t = (φ (Verif.vpoint L seg t).1, ψ (Verif.vpoint L seg t).2.1, ψ (Verif.vpoint L seg t).2.2) := by
  have hv := H.vmul
  have hi := H.vinc
  simp only at hv hi
  symm
  unfold Verif.vpoint
  rw [hv, hi, hv, hi, hv, hi, hv, hi, hv, hi, ho, hd, h1, h2, h3, h4, H.log, H.mul, H.inv, H.one, map_zero]

/-- Moving the start of both ends by the same transform on the right does not change what happens between. -/
theorem vpoint_right (H : LieLaws L valid) {seg seg' : TSegment G A} {k : G} (hk : valid k) (hv : valid seg.orig.g.val)
    (ho : seg'.orig.g.val = L.mul seg.orig.g.val k) (hd : seg'.dest.g.val = L.mul seg.dest.g.val k) (h1 : seg'.orig.d = seg.orig.d)
    (h2 : seg'.dest.d = seg.dest.d) (h3 : seg'.orig.d2 = seg.orig.d2) (h4 : seg'.dest.d2 = seg.dest.d2) (t : ℝ) :
    vpoint L seg' t = vpoint L seg t := by
  unfold vpoint
  rw [ho, hd, h1, h2, h3, h4, H.inv_mul_rev hv hk]
  have : L.mul (L.mul seg.dest.g.val k) (L.mul (L.inv k) (L.inv seg.orig.g.val)) = L.mul seg.dest.g.val (L.inv seg.orig.g.val) := by
    rw [H.mul_assoc, ← H.mul_assoc k, H.mul_inv hk, H.one_mul]
  rw [this]

end

/-- Changing the unit of length of poses and twists. -/
noncomputable def SE3.lengths (k : ℝ) (g : Pose) : Pose := (g.1, k • g.2)

/-- The same on twists. -/
noncomputable def SE3.lengthsTwist (k : ℝ) : Twist →ₗ[ℝ] Twist where
  toFun x := (x.1, k • x.2)
  map_add' x y := by simp
  map_smul' r x := by simp [smul_comm k r]

open Matrix in
theorem SE3.lengths_hom (k : ℝ) : LieHom SE3.ops SE3.ops (SE3.lengths k) (SE3.lengthsTwist k) where
  one := by simp [SE3.ops, SE3.lengths, SE3.one]
  mul g h := by
    refine Prod.ext rfl ?_
    change k • (g.1 *ᵥ h.2 + g.2) = g.1 *ᵥ (k • h.2) + k • g.2
    rw [smul_add, mulVec_smul]
  inv g := by
    refine Prod.ext rfl ?_
    change k • (SO3.inv g.1 *ᵥ (-g.2)) = SO3.inv g.1 *ᵥ (-(k • g.2))
    rw [← smul_neg, mulVec_smul]
  exp x := by
    refine Prod.ext rfl ?_
    obtain ⟨e, he⟩ : ∃ e, e = SO3.expDiffCoeffs (SO3.sqNorm x.1) := ⟨_, rfl⟩
    change k • ((SO3.expDiffCoeffs (SO3.sqNorm x.1)).a • x.2 + (SO3.expDiffCoeffs (SO3.sqNorm x.1)).b • (x.1 ⨯₃ x.2) +
        ((SO3.expDiffCoeffs (SO3.sqNorm x.1)).c * (x.1 ⬝ᵥ x.2)) • x.1) =
      (SO3.expDiffCoeffs (SO3.sqNorm x.1)).a • (k • x.2) + (SO3.expDiffCoeffs (SO3.sqNorm x.1)).b • (x.1 ⨯₃ (k • x.2)) +
        ((SO3.expDiffCoeffs (SO3.sqNorm x.1)).c * (x.1 ⬝ᵥ (k • x.2))) • x.1
    rw [← he]
    rw [map_smul, dotProduct_smul, smul_eq_mul]
    module
  log g := by
    refine Prod.ext rfl ?_
    change k • (g.2 - (0.5 : ℝ) • (SO3.log g.1 ⨯₃ g.2) + SE3.order2Coeff (SO3.sqNorm (SO3.log g.1)) • (SO3.log g.1 ⨯₃ (SO3.log g.1 ⨯₃ g.2))) =
      k • g.2 - (0.5 : ℝ) • (SO3.log g.1 ⨯₃ (k • g.2)) + SE3.order2Coeff (SO3.sqNorm (SO3.log g.1)) • (SO3.log g.1 ⨯₃ (SO3.log g.1 ⨯₃ (k • g.2)))
    rw [map_smul, map_smul]
    module
  Ad g x := by
    refine Prod.ext rfl ?_
    change k • (g.2 ⨯₃ (g.1 *ᵥ x.1) + g.1 *ᵥ x.2) = (k • g.2) ⨯₃ (g.1 *ᵥ x.1) + g.1 *ᵥ (k • x.2)
    rw [smul_add, mulVec_smul, map_smul, LinearMap.smul_apply]
  ad x y := by
    refine Prod.ext rfl ?_
    change k • (x.2 ⨯₃ y.1 + x.1 ⨯₃ y.2) = (k • x.2) ⨯₃ y.1 + x.1 ⨯₃ (k • y.2)
    rw [smul_add, map_smul, map_smul, LinearMap.smul_apply]
  smul _ _ := rfl
  smul' _ _ := rfl

end Verif

namespace Verif
open Framed
namespace DCurve
variable {G A V : Type}

/-- The values of a distance curve on one piece. -/
noncomputable def pieceVal (L : LieOps ℝ G A V) (a b : DControl G) (s : ℝ) : G :=
  L.mul a.pose.val (L.exp (L.smul ((s - a.arcLength) / (b.arcLength - a.arcLength)) (L.log (L.mul (L.inv a.pose.val) b.pose.val))))

/-- Corresponding poses with steps whose lengths are in the ratio `k` have arc lengths in that ratio. -/
theorem arcLengths_scale {L : LieOps ℝ G A V} {arc : G → ℝ} {c c' : DCurve G} (hc : Inv L arc c) (hc' : Inv L arc c') (k : ℝ)
    (R : Framed G → Framed G → Prop) (hR : List.Forall₂ (fun p p' : DControl G => R p.pose p'.pose) c.controls c'.controls)
    (harc : ∀ a b a' b', a ∈ c.controls → b ∈ c.controls → R a.pose a' → R b.pose b' →
      arc (L.mul (L.inv a'.val) b'.val) = k * arc (L.mul (L.inv a.pose.val) b.pose.val)) :
    ∀ (i : Nat) (hi : i < c.controls.length), (c'.controls[i]'(hR.length_eq ▸ hi)).arcLength = k * c.controls[i].arcLength := by
  have hlen := hR.length_eq
  intro i hi
  induction i with
  | zero => rw [hc.zero L arc hi, hc'.zero L arc (by omega), mul_zero]
  | succ i ih =>
    rw [hc.chain i hi, hc'.chain i (by omega), ih (by omega), mul_add]
    congr 1
    exact harc _ _ _ _ (List.getElem_mem _) (List.getElem_mem _) (forall2_get hR (by omega)) (forall2_get hR hi)

theorem transport (L : LieOps ℝ G A V) (arc : G → ℝ) (harc0 : ∀ g, 0 ≤ arc g) {c c' : DCurve G} (hc : Inv L arc c) (hc' : Inv L arc c') {k : ℝ} (hk : 0 < k)
    (R : Framed G → Framed G → Prop) (hR : List.Forall₂ (fun p p' : DControl G => R p.pose p'.pose) c.controls c'.controls)
    (harc : ∀ a b a' b', a ∈ c.controls → b ∈ c.controls → R a.pose a' → R b.pose b' →
      arc (L.mul (L.inv a'.val) b'.val) = k * arc (L.mul (L.inv a.pose.val) b.pose.val))
    (Rel : G → G → Prop)
    (hp : ∀ a b a' b' : DControl G, ∀ s, a ∈ c.controls → b ∈ c.controls → R a.pose a'.pose → R b.pose b'.pose → a'.arcLength = k * a.arcLength →
      b'.arcLength = k * b.arcLength → Rel (pieceVal L a b s) (pieceVal L a' b' (k * s)))
    (s : ℝ) :
    curveLength c' = k * curveLength c ∧
    ((∃ p p', pointAt L c s = .ok p ∧ pointAt L c' (k * s) = .ok p' ∧ Rel p.val p'.val) ∨
      ((pointAt L c s).IsThrow ∧ (pointAt L c' (k * s)).IsThrow) ∨ ((pointAt L c s).IsUB ∧ (pointAt L c' (k * s)).IsUB)) := by
  have hlen := hR.length_eq
  have hl := arcLengths_scale hc hc' k R hR harc
  have hcl : curveLength c' = k * curveLength c := by
    by_cases h : c.controls = []
    · have h' : c'.controls = [] := List.length_eq_zero_iff.mp (by rw [← hlen, h]; rfl)
      unfold curveLength
      rw [h, h']
      simp
    · have hpos := List.length_pos_iff.mpr h
      have h' : c'.controls ≠ [] := List.length_pos_iff.mp (by omega)
      rw [curveLength_eq h, curveLength_eq h', ← hl _ (by omega)]
      congr 2
      omega
  refine ⟨hcl, ?_⟩
  by_cases h2 : 2 ≤ c.controls.length
  · by_cases hs : 0 ≤ s ∧ s ≤ curveLength c
    · obtain ⟨i, hi, e1, e2, e3, e4, e5⟩ := pointAt_inside L arc hc h2 hs.1 hs.2
      obtain ⟨j, hj, f1, f2, f3, f4, f5⟩ := pointAt_inside L arc hc' (by omega) (mul_nonneg hk.le hs.1)
        (by rw [hcl]; exact mul_le_mul_of_nonneg_left hs.2 hk.le)
      rw [hl j (by omega)] at f1 f3 f4 f5
      rw [hl (j + 1) (by omega)] at f2 f4 f5
      rw [mul_lt_mul_iff_right₀ hk] at f3 f4
      rw [mul_le_mul_iff_right₀ hk] at f1 f2
      rw [mul_right_inj' hk.ne'] at f5
      have hij : i = j := by
        rcases Nat.lt_trichotomy i j with h | h | h
        · rcases f3 with rfl | f3
          · omega
          · have := hc.le L arc harc0 (i := i + 1) (j := j) (by omega) (by omega)
            linarith
        · exact h
        · rcases e3 with rfl | e3
          · omega
          · have := hc.le L arc harc0 (i := j + 1) (j := i) (by omega) (by omega)
            linarith
      subst hij
      rcases (hc.le L arc harc0 hi (Nat.le_succ i)).lt_or_eq with hlt | heq
      · left
        obtain ⟨_, _, o1, -⟩ := onPiece_eq L (hc.whole _ (List.getElem_mem (show i < c.controls.length by omega))) (hc.whole _ (List.getElem_mem hi)) s
        obtain ⟨_, _, o2, -⟩ := onPiece_eq L (hc'.whole _ (List.getElem_mem (show i < c'.controls.length by omega))) (hc'.whole _ (List.getElem_mem hj)) (k * s)
        refine ⟨_, _, (e4 hlt).trans o1, (f4 hlt).trans o2, ?_⟩
        exact hp _ _ _ _ s (List.getElem_mem _) (List.getElem_mem _) (forall2_get hR (by omega)) (forall2_get hR hi) (hl i (by omega)) (hl (i + 1) hi)
      · right; right
        rw [e5 heq, f5 heq]
        simp
    · right; left
      refine ⟨pointAt_outside L c hs, pointAt_outside L c' ?_⟩
      rw [hcl, mul_le_mul_iff_right₀ hk, mul_nonneg_iff_of_pos_left hk]
      exact hs
  · right; left
    exact ⟨pointAt_short L arc hc (not_le.mp h2) s, pointAt_short L arc hc' (by omega) _⟩

end DCurve
end Verif
