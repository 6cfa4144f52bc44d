import Verif.Spec.Motion
import Verif.Proofs.Homogeneous
import Mathlib.Analysis.Calculus.Deriv.Mul
import Mathlib.Analysis.Calculus.Deriv.Add
/-! # Derivatives of products, inverses and adjoints of motions -/
namespace Verif
open Matrix Spec Topology

/-- Entrywise derivative of a matrix function. -/
def MHas {m n : Type} (F : ℝ → Matrix m n ℝ) (F' : Matrix m n ℝ) (t : ℝ) : Prop :=
  ∀ i j, HasDerivAt (fun s => F s i j) (F' i j) t

namespace MHas
variable {l m n : Type} {t : ℝ}

theorem mul [Fintype m] {F : ℝ → Matrix l m ℝ} {F' : Matrix l m ℝ} {K : ℝ → Matrix m n ℝ} {K' : Matrix m n ℝ} (hF : MHas F F' t)
    (hK : MHas K K' t) : MHas (fun s => F s * K s) (F' * K t + F t * K') t := by
  intro i j
  simp only [Matrix.mul_apply, Matrix.add_apply, ← Finset.sum_add_distrib]
  exact HasDerivAt.fun_sum fun k _ => (hF i k).mul (hK k j)

theorem const (c : Matrix l m ℝ) : MHas (fun _ => c) 0 t := fun _ _ => hasDerivAt_const _ _

theorem unique {F : ℝ → Matrix l m ℝ} {F' F'' : Matrix l m ℝ} (h1 : MHas F F' t) (h2 : MHas F F'' t) : F' = F'' := by
  ext i j; exact (h1 i j).unique (h2 i j)

theorem congr {F K : ℝ → Matrix l m ℝ} {F' : Matrix l m ℝ} (h : MHas F F' t) (e : K =ᶠ[𝓝 t] F) : MHas K F' t := by
  intro i j
  refine (h i j).congr_of_eventuallyEq ?_
  filter_upwards [e] with s hs
  rw [hs]

theorem congr' {F : ℝ → Matrix l m ℝ} {F' F'' : Matrix l m ℝ} (h : MHas F F' t) (e : F' = F'') : MHas F F'' t := e ▸ h

theorem transpose {F : ℝ → Matrix l m ℝ} {F' : Matrix l m ℝ} (h : MHas F F' t) : MHas (fun s => (F s)ᵀ) F'ᵀ t := fun i j => h j i

end MHas

/-- A matrix representation of a Lie group class. -/
structure MatRep {n : Type} [Fintype n] [DecidableEq n] {G A V : Type} [NormedAddCommGroup A] [NormedSpace ℝ A]
    (L : LieOps ℝ G A V) (valid : G → Prop) (M : G → Matrix n n ℝ) (hat : A → Matrix n n ℝ) : Prop where
  laws : LieLaws L valid
  M_mul : ∀ g h, M (L.mul g h) = M g * M h
  M_one : M L.one = 1
  M_inj : ∀ {g h}, M g = M h → g = h
  hat_add : ∀ x y, hat (x + y) = hat x + hat y
  hat_smul : ∀ (c : ℝ) x, hat (c • x) = c • hat x
  hat_Ad : ∀ {g}, valid g → ∀ x, hat (L.Ad g x) = M g * hat x * M (L.inv g)
  hat_ad : ∀ x y, hat (L.ad x y) = hat x * hat y - hat y * hat x
  hat_deriv : ∀ {x : ℝ → A} {x' : A} {t : ℝ}, MHas (fun s => hat (x s)) (hat x') t ↔ HasDerivAt x x' t
  inv_deriv : ∀ {g : ℝ → G} {t : ℝ} {F'}, (∀ s, valid (g s)) → MHas (fun s => M (g s)) F' t → ∃ I', MHas (fun s => M (L.inv (g s))) I' t

namespace MatRep
variable {n : Type} [Fintype n] [DecidableEq n] {G A V : Type} [NormedAddCommGroup A] [NormedSpace ℝ A]
  {L : LieOps ℝ G A V} {valid : G → Prop} {M : G → Matrix n n ℝ} {hat : A → Matrix n n ℝ} (P : MatRep L valid M hat)
include P

theorem M_mul_inv {g : G} (h : valid g) : M g * M (L.inv g) = 1 := by rw [← P.M_mul, P.laws.mul_inv h, P.M_one]

theorem M_inv_mul {g : G} (h : valid g) : M (L.inv g) * M g = 1 := by rw [← P.M_mul, P.laws.inv_mul h, P.M_one]

theorem hat_neg (x : A) : hat (-x) = -hat x := by rw [← neg_one_smul ℝ x, P.hat_smul, neg_one_smul]

theorem hat_sub (x y : A) : hat (x - y) = hat x - hat y := by rw [sub_eq_add_neg, P.hat_add, P.hat_neg, ← sub_eq_add_neg]

/-- The derivative of an inverse motion. -/
theorem inv_has {g : ℝ → G} {t : ℝ} {F'} (hv : ∀ s, valid (g s)) (h : MHas (fun s => M (g s)) F' t) :
    MHas (fun s => M (L.inv (g s))) (-(M (L.inv (g t)) * F' * M (L.inv (g t)))) t := by
  obtain ⟨I', hI⟩ := P.inv_deriv hv h
  have h1 := h.mul hI
  have h2 : MHas (fun s => M (g s) * M (L.inv (g s))) 0 t := by
    have : (fun s => M (g s) * M (L.inv (g s))) = fun _ => 1 := by funext s; exact P.M_mul_inv (hv s)
    rw [this]; exact MHas.const 1
  have h3 := h1.unique h2
  have h4 : I' = -(M (L.inv (g t)) * F' * M (L.inv (g t))) := by
    have := congrArg (M (L.inv (g t)) * ·) h3
    simp only [Matrix.mul_add, ← Matrix.mul_assoc, P.M_inv_mul (hv t), Matrix.one_mul, Matrix.mul_zero] at this
    exact eq_neg_of_add_eq_zero_right this
  exact h4 ▸ hI

/-- The derivative of an adjoint along a motion. -/
theorem Ad_deriv {g : ℝ → G} {t : ℝ} {v : A} {x : ℝ → A} {x' : A} (hv : ∀ s, valid (g s))
    (h : MHas (fun s => M (g s)) (hat v * M (g t)) t) (hx : HasDerivAt x x' t) :
    HasDerivAt (fun s => L.Ad (g s) (x s)) (L.Ad (g t) x' + L.ad v (L.Ad (g t) (x t))) t := by
  rw [← P.hat_deriv]
  have hI := P.inv_has hv h
  have := (h.mul (P.hat_deriv.mpr hx)).mul hI
  have e : (fun s => hat (L.Ad (g s) (x s))) = fun s => M (g s) * hat (x s) * M (L.inv (g s)) := by
    funext s; exact P.hat_Ad (hv s) _
  rw [e]
  refine this.congr' ?_
  rw [P.hat_add, P.hat_ad, P.hat_Ad (hv t), P.hat_Ad (hv t)]
  generalize hm : M (L.inv (g t)) = mi
  have e1 : M (g t) * mi = 1 := hm ▸ P.M_mul_inv (hv t)
  generalize M (g t) = m at *
  generalize hat v = V at *
  generalize hat (x t) = X at *
  generalize hat x' = X' at *
  have e2 : mi * (V * m) * mi = mi * V := by
    rw [Matrix.mul_assoc, Matrix.mul_assoc V, e1, Matrix.mul_one]
  rw [e2]
  simp only [Matrix.add_mul, Matrix.mul_neg, Matrix.mul_assoc]
  abel

theorem left_mul {g h : ℝ → G} {t : ℝ} {v a w b : A} (hg : ∀ s, valid (g s))
    (h1 : HasLeftJet M hat g t v a) (h2 : HasLeftJet M hat h t w b) :
    HasLeftJet M hat (fun s => L.mul (g s) (h s)) t (v + L.Ad (g t) w) (a + L.Ad (g t) b + L.ad v (L.Ad (g t) w)) := by
  obtain ⟨vg, e1, rfl, d1⟩ := h1
  obtain ⟨vh, e2, rfl, d2⟩ := h2
  refine ⟨fun s => vg s + L.Ad (g s) (vh s), ?_, rfl, ?_⟩
  · filter_upwards [e1, e2] with s a1 a2
    have := MHas.mul (t := s) (F := fun r => M (g r)) a1 a2
    change MHas (fun r => M (L.mul (g r) (h r))) _ s
    have e : (fun r => M (L.mul (g r) (h r))) = fun r => M (g r) * M (h r) := by funext r; exact P.M_mul _ _
    rw [e]
    refine this.congr' ?_
    rw [P.hat_add, P.hat_Ad (hg s), P.M_mul]
    simp only [Matrix.add_mul, Matrix.mul_assoc]
    rw [← Matrix.mul_assoc (M (L.inv (g s))), P.M_inv_mul (hg s), Matrix.one_mul]
  · have := d1.add (P.Ad_deriv (v := vg t) hg e1.self_of_nhds d2)
    rw [← add_assoc] at this
    exact this

theorem left_inv {g : ℝ → G} {t : ℝ} {v a : A} (hg : ∀ s, valid (g s)) (h : HasLeftJet M hat g t v a) :
    HasRightJet M hat (fun s => L.inv (g s)) t (-v) (-a) := by
  obtain ⟨vg, e1, rfl, d1⟩ := h
  refine ⟨fun s => -vg s, ?_, rfl, d1.neg⟩
  filter_upwards [e1] with s a1
  refine (P.inv_has hg a1).congr' ?_
  rw [P.hat_neg, Matrix.mul_neg, Matrix.mul_assoc, Matrix.mul_assoc, P.M_mul_inv (hg s), Matrix.mul_one]

theorem right_inv {g : ℝ → G} {t : ℝ} {v a : A} (hg : ∀ s, valid (g s)) (h : HasRightJet M hat g t v a) :
    HasLeftJet M hat (fun s => L.inv (g s)) t (-v) (-a) := by
  obtain ⟨vg, e1, rfl, d1⟩ := h
  refine ⟨fun s => -vg s, ?_, rfl, d1.neg⟩
  filter_upwards [e1] with s a1
  refine (P.inv_has hg a1).congr' ?_
  rw [P.hat_neg, Matrix.neg_mul, ← Matrix.mul_assoc, P.M_inv_mul (hg s), Matrix.one_mul]

/-- A left jet is a right jet with adjoined velocity, at one time. -/
theorem right_of_left {g : ℝ → G} {t : ℝ} {v a : A} (hg : ∀ s, valid (g s)) (h : HasLeftJet M hat g t v a) :
    HasRightJet M hat g t (L.Ad (L.inv (g t)) v) (L.Ad (L.inv (g t)) a) := by
  obtain ⟨vg, e1, rfl, d1⟩ := h
  refine ⟨fun s => L.Ad (L.inv (g s)) (vg s), ?_, rfl, ?_⟩
  · filter_upwards [e1] with s a1
    refine MHas.congr' a1 ?_
    rw [P.hat_Ad (P.laws.valid_inv (hg s)), P.laws.inv_inv (hg s), ← Matrix.mul_assoc, ← Matrix.mul_assoc, P.M_mul_inv (hg s),
      Matrix.one_mul]
  · have e2 : MHas (fun s => M (L.inv (g s))) (hat (-L.Ad (L.inv (g t)) (vg t)) * M (L.inv (g t))) t := by
      refine (P.inv_has hg e1.self_of_nhds).congr' ?_
      rw [P.hat_neg, P.hat_Ad (P.laws.valid_inv (hg t)), P.laws.inv_inv (hg t), Matrix.neg_mul]
      simp only [Matrix.mul_assoc]
    have := P.Ad_deriv (fun s => P.laws.valid_inv (hg s)) e2 d1
    rw [P.laws.ad_neg_left, P.laws.ad_self, neg_zero, add_zero] at this
    exact this

theorem left_of_right {g : ℝ → G} {t : ℝ} {v a : A} (hg : ∀ s, valid (g s)) (h : HasRightJet M hat g t v a) :
    HasLeftJet M hat g t (L.Ad (g t) v) (L.Ad (g t) a) := by
  obtain ⟨vg, e1, rfl, d1⟩ := h
  have e0 : ∀ s, hat (L.Ad (g s) (vg s)) * M (g s) = M (g s) * hat (vg s) := by
    intro s
    rw [P.hat_Ad (hg s), Matrix.mul_assoc, P.M_inv_mul (hg s), Matrix.mul_one]
  refine ⟨fun s => L.Ad (g s) (vg s), ?_, rfl, ?_⟩
  · filter_upwards [e1] with s a1
    exact MHas.congr' a1 (e0 s).symm
  · have := P.Ad_deriv hg (MHas.congr' e1.self_of_nhds (e0 t).symm) d1
    rw [P.laws.ad_self, add_zero] at this
    exact this

theorem right_mul {g h : ℝ → G} {t : ℝ} {v a w b : A} (hg : ∀ s, valid (g s)) (hh : ∀ s, valid (h s))
    (h1 : HasRightJet M hat g t v a) (h2 : HasRightJet M hat h t w b) :
    HasRightJet M hat (fun s => L.mul (g s) (h s)) t (w + L.Ad (L.inv (h t)) v)
      (b + L.Ad (L.inv (h t)) a - L.ad w (L.Ad (L.inv (h t)) v)) := by
  have k1 := P.right_inv hg h1
  have k2 := P.right_inv hh h2
  have k := P.left_inv (fun s => P.laws.valid_mul (P.laws.valid_inv (hh s)) (P.laws.valid_inv (hg s)))
    (P.left_mul (fun s => P.laws.valid_inv (hh s)) k2 k1)
  have e : (fun s => L.inv (L.mul (L.inv (h s)) (L.inv (g s)))) = fun s => L.mul (g s) (h s) := by
    funext s
    rw [← P.laws.inv_mul_rev (hg s) (hh s), P.laws.inv_inv (P.laws.valid_mul (hg s) (hh s))]
  rw [e] at k
  convert k using 1
  · rw [P.laws.Ad_neg]; abel
  · rw [P.laws.Ad_neg, P.laws.Ad_neg, P.laws.ad_neg_left, P.laws.ad_neg_right]; abel

theorem left_inv' {g : ℝ → G} {t : ℝ} {v a : A} (hg : ∀ s, valid (g s)) (h : HasLeftJet M hat g t v a) :
    HasLeftJet M hat (fun s => L.inv (g s)) t (-L.Ad (L.inv (g t)) v) (-L.Ad (L.inv (g t)) a) := by
  have := P.left_of_right (fun s => P.laws.valid_inv (hg s)) (P.left_inv hg h)
  rwa [P.laws.Ad_neg, P.laws.Ad_neg] at this

theorem right_inv' {g : ℝ → G} {t : ℝ} {v a : A} (hg : ∀ s, valid (g s)) (h : HasRightJet M hat g t v a) :
    HasRightJet M hat (fun s => L.inv (g s)) t (-L.Ad (g t) v) (-L.Ad (g t) a) := by
  have := P.right_of_left (fun s => P.laws.valid_inv (hg s)) (P.right_inv hg h)
  rwa [P.laws.Ad_neg, P.laws.Ad_neg, P.laws.inv_inv (hg t)] at this

end MatRep

theorem rotHat_deriv {x : ℝ → V3} {x' : V3} {t : ℝ} : MHas (fun s => rotHat (x s)) (rotHat x') t ↔ HasDerivAt x x' t := by
  rw [hasDerivAt_pi]
  constructor
  · intro h i
    fin_cases i
    · exact h 2 1
    · exact h 0 2
    · exact h 1 0
  · intro h i j
    fin_cases i <;> fin_cases j
    · exact hasDerivAt_const _ _
    · exact (h 2).neg
    · exact h 1
    · exact h 2
    · exact hasDerivAt_const _ _
    · exact (h 0).neg
    · exact (h 1).neg
    · exact h 0
    · exact hasDerivAt_const _ _

/-- SO3's matrix representation. -/
theorem so3Rep : MatRep SO3.ops IsRotation (fun R : M3 => R) rotHat where
  laws := so3Laws
  M_mul _ _ := rfl
  M_one := rfl
  M_inj h := h
  hat_add := SO3.crossMatrix_add
  hat_smul := SO3.crossMatrix_smul
  hat_Ad h x := SO3.crossMatrix_conj h x
  hat_ad := SO3.crossMatrix_bracket
  hat_deriv := rotHat_deriv
  inv_deriv _ h := ⟨_, h.transpose⟩

theorem hasDerivAt_twist {x : ℝ → Twist} {x' : Twist} {t : ℝ} :
    HasDerivAt x x' t ↔ HasDerivAt (fun s => (x s).1) x'.1 t ∧ HasDerivAt (fun s => (x s).2) x'.2 t := by
  constructor
  · intro h
    have := h.hasFDerivAt
    exact ⟨by simpa using this.fst.hasDerivAt, by simpa using this.snd.hasDerivAt⟩
  · rintro ⟨h1, h2⟩
    exact h1.prodMk h2

theorem twistHat_deriv {x : ℝ → Twist} {x' : Twist} {t : ℝ} : MHas (fun s => twistHat (x s)) (twistHat x') t ↔ HasDerivAt x x' t := by
  rw [hasDerivAt_twist, ← rotHat_deriv]
  constructor
  · intro h
    refine ⟨fun i j => h (.inl i) (.inl j), ?_⟩
    rw [hasDerivAt_pi]
    exact fun i => h (.inl i) (.inr ())
  · rintro ⟨h1, h2⟩ i j
    rw [hasDerivAt_pi] at h2
    rcases i with i | i <;> rcases j with j | j
    · exact h1 i j
    · exact h2 i
    · exact hasDerivAt_const _ _
    · exact hasDerivAt_const _ _

theorem poseMatrix_has {g : ℝ → Pose} {F'} {t : ℝ} (h : MHas (fun s => poseMatrix (g s)) F' t) :
    MHas (fun s => (g s).1) (fun i j => F' (.inl i) (.inl j)) t ∧ HasDerivAt (fun s => (g s).2) (fun i => F' (.inl i) (.inr ())) t := by
  refine ⟨fun i j => h (.inl i) (.inl j), ?_⟩
  rw [hasDerivAt_pi]
  exact fun i => h (.inl i) (.inr ())

theorem has_poseMatrix {g : ℝ → Pose} {R' : M3} {t' : V3} {t : ℝ} (h1 : MHas (fun s => (g s).1) R' t)
    (h2 : HasDerivAt (fun s => (g s).2) t' t) :
    MHas (fun s => poseMatrix (g s)) (fromBlocks R' (replicateCol Unit t') 0 0) t := by
  rw [hasDerivAt_pi] at h2
  intro i j
  rcases i with i | i <;> rcases j with j | j
  · exact h1 i j
  · exact h2 i
  · exact hasDerivAt_const _ _
  · exact hasDerivAt_const _ _

theorem MHas.mulVec {F : ℝ → M3} {F' : M3} {x : ℝ → V3} {x' : V3} {t : ℝ} (h : MHas F F' t) (hx : HasDerivAt x x' t) :
    HasDerivAt (fun s => F s *ᵥ x s) (F' *ᵥ x t + F t *ᵥ x') t := by
  rw [hasDerivAt_pi] at *
  intro i
  simp only [Matrix.mulVec, dotProduct, Pi.add_apply, ← Finset.sum_add_distrib]
  exact HasDerivAt.fun_sum fun k _ => (h i k).mul (hx k)

/-- SE3's matrix representation. -/
theorem se3Rep : MatRep SE3.ops PoseValid poseMatrix twistHat where
  laws := se3Laws
  M_mul := SE3.H_mul
  M_one := SE3.H_one
  M_inj h := SE3.H_injective h
  hat_add x y := by
    simp only [twistHat, SE3.twistMatrix_eq, fromBlocks_add, Prod.fst_add, Prod.snd_add, SO3.crossMatrix_add]
    congr 1 <;> simp
  hat_smul c x := by
    simp only [twistHat, SE3.twistMatrix_eq, fromBlocks_smul, Prod.smul_fst, Prod.smul_snd, SO3.crossMatrix_smul]
    congr 1 <;> simp
  hat_Ad h x := SE3.T_conj h x
  hat_ad := SE3.T_bracket
  hat_deriv := twistHat_deriv
  inv_deriv _ h := by
    obtain ⟨h1, h2⟩ := poseMatrix_has h
    exact ⟨_, has_poseMatrix (g := fun s => SE3.inv (_)) h1.transpose (h1.transpose.mulVec h2.neg)⟩

end Verif
