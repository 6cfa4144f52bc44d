import Verif.Proofs.ApproxDoubleRelay
import Verif.Props.MessageDouble
/-! # C117: what approximate equality means when it is computed in doubles -/
namespace Verif.Props
open Verif.Spec hiding Jet
open Verif.SampleIntervalDouble Verif.TransformDouble Verif.ExpDouble Verif.LogDouble Verif.TCurveDouble Verif.TrajectoryDouble Verif.MessageDouble
open Verif.ApproxDouble Matrix SO3

section
variable {ι : Type} [DecidableEq ι] [Fintype ι]

/-- C117, a positive answer: the distance is at most 1e-12 of the smaller length, up to the last digits and up to underflow. -/
theorem c117_yes {a b : ι → ℚ} (hn : Fintype.card ι ≤ 9) (h : ApproxOf a b true) :
    apart a b ≤ 1e-12 * (1 + 2e-15) * min (size a) (size b) + 1e-160 := by
  have hU1 := U_tiny.1
  obtain ⟨m, m0, m1, m2⟩ := min_size a b
  have s := (approx_sq hn h).1 rfl
  rw [← m1] at s
  rw [m2]
  refine Real.sqrt_le_iff.mpr ⟨by positivity, s.trans ?_⟩
  have k : (1 + 30 * U) * (1e-24 * m ^ 2) ≤ (1 + 2e-15) ^ 2 * (1e-24 * m ^ 2) := mul_le_mul_of_nonneg_right (by norm_num; linarith) (by positivity)
  have e : (1e-12 * (1 + 2e-15) * m + 1e-160) ^ 2 = (1 + 2e-15) ^ 2 * (1e-24 * m ^ 2) + 2 * (1e-12 * (1 + 2e-15) * m) * 1e-160 + 1e-160 ^ 2 := by ring
  have p : 0 ≤ 2 * (1e-12 * (1 + 2e-15) * m) * 1e-160 := by positivity
  have hH := H_square
  rw [e]
  linarith only [k, p, hH]

/-- C117, a negative answer: the distance is more than 1e-12 of the smaller length, up to the last digits and up to underflow. -/
theorem c117_no {a b : ι → ℚ} (hn : Fintype.card ι ≤ 9) (h : ApproxOf a b false) :
    1e-12 * (1 - 2e-15) * min (size a) (size b) < apart a b + 1e-160 := by
  have hU1 := U_tiny.1
  obtain ⟨m, m0, m1, m2⟩ := min_size a b
  have s := (approx_sq hn h).2 rfl
  rw [← m1, ← apart_sq] at s
  rw [m2]
  have d0 : 0 ≤ apart a b := Real.sqrt_nonneg _
  refine lt_of_pow_lt_pow_left₀ 2 (by positivity) (lt_of_le_of_lt ?_ (s.trans_le ?_))
  · have e : (1e-12 * (1 - 2e-15) * m) ^ 2 = (1 - 2e-15) ^ 2 * (1e-24 * m ^ 2) := by ring
    rw [e]
    exact mul_le_mul_of_nonneg_right (by norm_num; linarith) (by positivity)
  · have e : (apart a b + 1e-160) ^ 2 = apart a b ^ 2 + 2 * apart a b * 1e-160 + 1e-160 ^ 2 := by ring
    have p : 0 ≤ 2 * apart a b * 1e-160 := by positivity
    have hH := H_square
    rw [e]
    linarith only [p, hH]

/-- C117, the same numbers are approximately equal. -/
theorem c117_same {a : ι → ℚ} {r : Bool} (h : ApproxOf a a r) : r = true := agree_self h

/-- C117, zero: nothing of a length that can be squared is approximately zero. -/
theorem c117_zero {a : ι → ℚ} (hn : Fintype.card ι ≤ 9) (ha : 1e-159 ≤ size a) {r : Bool} (h : ApproxOf a (fun _ => 0) r) : r = false := by
  by_contra hr
  rw [Bool.not_eq_false] at hr
  subst hr
  have s := c117_yes hn h
  have e1 : apart a (fun _ => 0) = size a := by unfold apart size; simp
  have e2 : size (fun _ : ι => (0 : ℚ)) = 0 := by unfold size; simp
  have a0 : 0 ≤ size a := Real.sqrt_nonneg _
  rw [e1, e2, min_eq_right a0] at s
  norm_num at s ha
  linarith

/-- C117, underflow: numbers below 2^-540 are all approximately equal, since their squares vanish. -/
theorem c117_tiny {a b : ι → ℚ} {r : Bool} (ha : ∀ i, |a i| ≤ 2 ^ (-540 : ℤ)) (hb : ∀ i, |b i| ≤ 2 ^ (-540 : ℤ)) (h : ApproxOf a b r) : r = true :=
  agree_tiny ha hb h
end

/-- A difference of 2^-40 (about 9.1e-13) in a unit vector is not seen, one of 2^-39 is, whatever the order of the sums. -/
example (r s : Bool) (hr : ApproxOf ![1, 0, 0] ![1, 2 ^ (-40 : ℤ), 0] r) (hs : ApproxOf ![1, 0, 0] ![1, 2 ^ (-39 : ℤ), 0] s) : r = true ∧ s = false := by
  have a1 : size ![1, 0, 0] = 1 := by rw [size]; simp [Fin.sum_univ_three]
  have ap : ∀ x : ℚ, 0 ≤ x → apart ![1, 0, 0] ![1, x, 0] = x := fun x h => by
    rw [apart]; simp [Fin.sum_univ_three, Real.sqrt_sq, h]
  have sz : ∀ x : ℚ, 1 ≤ size ![1, x, 0] := fun x => by
    rw [size]
    refine Real.le_sqrt_of_sq_le ?_
    simp [Fin.sum_univ_three, sq_nonneg]
  constructor
  · by_contra h
    rw [Bool.not_eq_true] at h
    subst h
    have k := c117_no (by simp) hr
    rw [a1, min_eq_left (sz _), ap _ (by positivity)] at k
    norm_num at k
  · by_contra h
    rw [Bool.not_eq_false] at h
    subst h
    have k := c117_yes (by simp) hs
    rw [a1, min_eq_left (sz _), ap _ (by positivity)] at k
    norm_num at k

/-- A jet of six numbers is approximately itself. -/
example (r : Bool) (h : ApproxOf (ApproxDouble.six (![1, 2, 3], ![4, 5, 1 / 3])) (ApproxDouble.six (![1, 2, 3], ![4, 5, 1 / 3])) r) : r = true := c117_same h

/-- The vector of length 2^-500 is not approximately zero. -/
example (r : Bool) (h : ApproxOf ![2 ^ (-500 : ℤ), 0, 0] (fun _ => 0) r) : r = false := by
  refine c117_zero (by simp) ?_ h
  have e : size ![2 ^ (-500 : ℤ), 0, 0] = 2 ^ (-500 : ℤ) := by
    rw [size_vec, eucNorm, sqNorm_eq]
    simp [realVec]
  rw [e]
  have h1 : (2 : ℝ) ^ 500 ≤ 10 ^ 159 := by exact_mod_cast (by decide +kernel : (2 : ℕ) ^ 500 ≤ 10 ^ 159)
  rw [show (1e-159 : ℝ) = (10 ^ 159)⁻¹ by norm_num, _root_.zpow_neg]
  exact inv_anti₀ (by positivity) (by exact_mod_cast h1)

/-- The vector (2^-550, 0, 0) and the zero vector, on the other hand, are approximately equal. -/
example (r : Bool) (h : ApproxOf ![2 ^ (-550 : ℤ), 0, 0] (fun _ => 0) r) : r = true := by
  have le : (2 : ℚ) ^ (-550 : ℤ) ≤ 2 ^ (-540 : ℤ) := zpow_le_zpow_right₀ (by norm_num) (by norm_num)
  have p0 : (0 : ℚ) ≤ 2 ^ (-550 : ℤ) := by positivity
  have p1 : (0 : ℚ) ≤ 2 ^ (-540 : ℤ) := by positivity
  refine c117_tiny (fun i => ?_) (fun i => by rw [abs_zero]; exact p1) h
  generalize (2 : ℚ) ^ (-550 : ℤ) = x at *
  generalize (2 : ℚ) ^ (-540 : ℤ) = y at *
  fin_cases i
  · exact (abs_of_nonneg p0).trans_le le
  · exact abs_zero.trans_le p1
  · exact abs_zero.trans_le p1

/-- C117, the approximate equality that is computed is not the relative one: of these vectors each is the double of the other, and they are reported as
approximately equal. -/
theorem c117_not_relative : ∃ a b : Fin 3 → ℚ, (∀ i, IsDouble (a i) ∧ IsDouble (b i)) ∧ b = 2 * a ∧ a ≠ 0 ∧ ∀ r, ApproxOf a b r → r = true := by
  refine ⟨fun _ => 2 ^ (-600 : ℤ), fun _ => 2 ^ (-599 : ℤ), fun i => ⟨?_, ?_⟩, ?_, ?_, fun r h => ?_⟩
  · exact ⟨1, -600, by norm_num, by norm_num, by norm_num, by rw [Int.cast_one, one_mul]⟩
  · exact ⟨1, -599, by norm_num, by norm_num, by norm_num, by rw [Int.cast_one, one_mul]⟩
  · ext i
    change (2 : ℚ) ^ (-599 : ℤ) = 2 * 2 ^ (-600 : ℤ)
    rw [← zpow_one_add₀ two_ne_zero]; norm_num
  · intro h
    exact absurd (congrFun h 0) (by simp)
  · refine c117_tiny (fun i => ?_) (fun i => ?_) h
    · rw [abs_of_pos (by positivity)]; exact zpow_le_zpow_right₀ (by norm_num) (by norm_num)
    · rw [abs_of_pos (by positivity)]; exact zpow_le_zpow_right₀ (by norm_num) (by norm_num)

/-- C117, rotations that agree: what is stored for the same rotation with errors below 9.99e-13 together is approximately equal. -/
theorem c117_rotations {a b : Matrix (Fin 3) (Fin 3) ℚ} {R : M3} {e f : ℝ} (hR : IsRotation R) (ha : TurnsAlike e (realRot a) R) (hb : TurnsAlike f (realRot b) R)
    (hef : e + f ≤ 9.99e-13) {r : Bool} (h : RotationApprox a b r) : r = true := rotations_agree hR ha hb hef h

/-- C117, what approximately equal rotations do: they move no vector to places further apart than 1.74e-12 of its length. -/
theorem c117_rotation_means {a b : Matrix (Fin 3) (Fin 3) ℚ} {R : M3} {e : ℝ} (hR : IsRotation R) (ha : TurnsAlike e (realRot a) R) (he : e ≤ 1 / 1000)
    (h : RotationApprox a b true) : TurnsAlike 1.74e-12 (realRot a) (realRot b) := by
  have s := c117_yes (by simp) h
  refine fun x => (rotation_apart a b x).trans (mul_le_mul_of_nonneg_right ?_ (eucNorm_nonneg _))
  have k := rotation_size hR ha he
  have := min_le_left (size (entries a)) (size (entries b))
  have p : 0 ≤ min (size (entries a)) (size (entries b)) := le_min (Real.sqrt_nonneg _) (Real.sqrt_nonneg _)
  generalize min (size (entries a)) (size (entries b)) = m at *
  norm_num at s ⊢
  linarith

/-- C117, transforms that agree: the same rotation as above, and translations within 9.9e-13 of their length. -/
theorem c117_transforms {a b : Stored} {R : M3} {e f : ℝ} (hR : IsRotation R) (ha : TurnsAlike e (realRot a.rot) R) (hb : TurnsAlike f (realRot b.rot) R)
    (hef : e + f ≤ 9.99e-13) (ht : a.trans = b.trans ∨
      1e-147 ≤ eucNorm (realVec a.trans) ∧ eucNorm (realVec b.trans - realVec a.trans) ≤ 9.9e-13 * eucNorm (realVec a.trans))
    {r : Bool} (h : TransformApprox a b r) : r = true := by
  obtain ⟨x, hx, hr⟩ := h
  rw [rotations_agree hR ha hb hef hx, if_pos rfl] at hr
  rcases ht with e | ⟨h1, h2⟩
  · rw [e] at hr; exact agree_self hr
  · exact translations_agree h1 h2 hr

/-- C117, what approximately equal transforms do: a point `p` is taken to places that are apart by at most 1.74e-12 of its distance and 1.01e-12 of the
translation. -/
theorem c117_transform_means {a b : Stored} {R : M3} {e : ℝ} (hR : IsRotation R) (ha : TurnsAlike e (realRot a.rot) R) (he : e ≤ 1 / 1000)
    (h : TransformApprox a b true) (p : V3) :
    eucNorm ((realRot a.rot *ᵥ p + realVec a.trans) - (realRot b.rot *ᵥ p + realVec b.trans)) ≤
      1.74e-12 * eucNorm p + 1.01e-12 * min (eucNorm (realVec a.trans)) (eucNorm (realVec b.trans)) + 1e-160 := by
  obtain ⟨x, hx, hr⟩ := h
  have ex : x = true := by
    by_contra hf
    rw [if_neg hf] at hr
    exact absurd hr (by simp)
  subst ex
  rw [if_pos rfl] at hr
  have k1 := c117_rotation_means hR ha he hx p
  have k2 := c117_yes (by simp) hr
  rw [size_vec, size_vec, apart_vec] at k2
  have m0 : 0 ≤ min (eucNorm (realVec a.trans)) (eucNorm (realVec b.trans)) := le_min (eucNorm_nonneg _) (eucNorm_nonneg _)
  have k3 := eucNorm_add_le (realRot a.rot *ᵥ p - realRot b.rot *ᵥ p) (realVec a.trans - realVec b.trans)
  rw [show realRot a.rot *ᵥ p + realVec a.trans - (realRot b.rot *ᵥ p + realVec b.trans) =
    realRot a.rot *ᵥ p - realRot b.rot *ᵥ p + (realVec a.trans - realVec b.trans) by abel]
  generalize min (eucNorm (realVec a.trans)) (eucNorm (realVec b.trans)) = m at *
  have : 1e-12 * (1 + 2e-15) * m ≤ 1.01e-12 * m := mul_le_mul_of_nonneg_right (by norm_num) m0
  linarith

theorem approx_plain (ε : ℚ) : TurnsAlike |(ε : ℝ)| (realRot !![1 + ε, 0, 0; 0, 1, 0; 0, 0, 1]) 1 := by
  intro x
  refine le_of_sq_le_sq ?_ (mul_nonneg (abs_nonneg _) (eucNorm_nonneg _))
  rw [mul_pow, sq_abs, eucNorm_sq, eucNorm_sq, one_mulVec, sqNorm_eq, sqNorm_eq]
  simp [Matrix.mulVec, dotProduct, Fin.sum_univ_three, realRot]
  nlinarith [mul_nonneg (sq_nonneg (ε : ℝ)) (sq_nonneg (x 1)), mul_nonneg (sq_nonneg (ε : ℝ)) (sq_nonneg (x 2))]

/-- Two stored transforms that differ in the last digits of both parts: reported as approximately equal, and so they are. -/
example (x y z : ℚ) (hx : x = 2 ^ (-42 : ℤ)) (hy : y = 2 ^ (-41 : ℤ)) (hz : z = 0) (r : Bool)
    (h : TransformApprox ⟨!![1 + z, 0, 0; 0, 1, 0; 0, 0, 1], ![2, 0, 0]⟩ ⟨!![1 + x, 0, 0; 0, 1, 0; 0, 0, 1], ![2, y, 0]⟩ r) (p : V3) : r = true ∧
    eucNorm ((realRot !![1 + z, 0, 0; 0, 1, 0; 0, 0, 1] *ᵥ p + realVec ![2, 0, 0]) -
      (realRot !![1 + x, 0, 0; 0, 1, 0; 0, 0, 1] *ᵥ p + realVec ![2, y, 0])) ≤ 1.74e-12 * eucNorm p + 2.1e-12 := by
  have nv : eucNorm (realVec ![2, 0, 0]) = 2 := by rw [eucNorm, sqNorm_eq]; simp [realVec]
  have hR : IsRotation (1 : M3) := ⟨by rw [transpose_one, one_mul], det_one⟩
  have A := approx_plain z
  have B := approx_plain x
  have T : r = true := by
    refine c117_transforms (a := ⟨_, _⟩) (b := ⟨_, _⟩) hR A B ?_ (Or.inr ⟨?_, ?_⟩) h
    · rw [hx, hz]; norm_num
    · rw [nv]; norm_num
    · change eucNorm (realVec ![2, y, 0] - realVec ![2, 0, 0]) ≤ 9.9e-13 * eucNorm (realVec ![2, 0, 0])
      rw [nv]
      refine Real.sqrt_le_iff.mpr ⟨by norm_num, ?_⟩
      rw [sqNorm_eq]
      simp [realVec, hy]
      norm_num
  refine ⟨T, ?_⟩
  subst T
  have k := c117_transform_means (a := ⟨_, _⟩) (b := ⟨_, _⟩) hR A (by rw [hz]; norm_num) h p
  refine k.trans ?_
  change _ + 1.01e-12 * min (eucNorm (realVec ![2, 0, 0])) (eucNorm (realVec ![2, y, 0])) + _ ≤ _
  have := min_le_left (eucNorm (realVec ![2, 0, 0])) (eucNorm (realVec ![2, y, 0]))
  generalize min (eucNorm (realVec ![2, 0, 0])) (eucNorm (realVec ![2, y, 0])) = m at *
  rw [nv] at this
  norm_num
  linarith

/-- C117, what approximately equal points of a curve have: transforms that are reported as approximately equal, and derivatives whose parts are apart by at
most 1.01e-12 of the whole derivative. -/
theorem c117_jet_means {a b : Jet} (h : JetApprox a b true) : TransformApprox a.g b.g true ∧
    CloseTangents 1.01e-12 1e-160 a.d b.d ∧ CloseTangents 1.01e-12 1e-160 a.d2 b.d2 := by
  obtain ⟨x, hx, hr⟩ := h
  cases x
  · simp at hr
  · rw [if_pos rfl] at hr
    obtain ⟨y, hy, hr⟩ := hr
    cases y
    · simp at hr
    · rw [if_pos rfl] at hr
      exact ⟨hx, close_of_apart (c117_yes (by simp) hy), close_of_apart (c117_yes (by simp) hr)⟩

/-- C117, what approximately equal states of actors have: likewise. -/
theorem c117_state_means {a b : State} (h : StateApprox a b true) : TransformApprox a.g b.g true ∧
    CloseTangents 1.01e-12 1e-160 a.d b.d ∧ CloseTangents 1.01e-12 1e-160 a.d2 b.d2 := by
  obtain ⟨x, hx, hr⟩ := h
  cases x
  · simp at hr
  · rw [if_pos rfl] at hr
    obtain ⟨y, hy, hr⟩ := hr
    cases y
    · simp at hr
    · rw [if_pos rfl] at hr
      exact ⟨hx, close_of_apart (c117_yes (by simp) hy), close_of_apart (c117_yes (by simp) hr)⟩

/-- States that differ in the acceleration alone are told apart. -/
example (g : Stored) (d : TCurveDouble.Tangent) (r : Bool) (h : StateApprox ⟨g, d, (0, ![0, 0, 1])⟩ ⟨g, d, (0, ![0, 1, 1])⟩ r) : r = false := by
  by_contra hr
  rw [Bool.not_eq_false] at hr
  subst hr
  have k := (c117_state_means h).2.2.2
  have e1 : eucNorm (realVec ![0, 0, 1] - realVec ![0, 1, 1]) = 1 := by rw [eucNorm, sqNorm_eq]; simp [realVec]
  have e2 : eucNorm (realVec ![0, 0, 1]) = 1 := by rw [eucNorm, sqNorm_eq]; simp [realVec]
  have e3 : eucNorm (realVec 0) = 0 := by rw [eucNorm, sqNorm_eq]; simp [realVec]
  change eucNorm (realVec ![0, 0, 1] - realVec ![0, 1, 1]) ≤ 1.01e-12 * (eucNorm (realVec 0) + eucNorm (realVec ![0, 0, 1])) + 1e-160 at k
  rw [e1, e2, e3] at k
  norm_num at k

/-- C117, the identity: a stored transform whose translation is not zero, be it only by the rounding error of a product with an inverse, is never reported as
approximately the identity, since the precision is relative to the translation. -/
theorem c117_not_identity {a : Stored} (ha : 1e-159 ≤ eucNorm (realVec a.trans)) {r : Bool} (h : TransformApprox a ⟨1, 0⟩ r) : r = false := by
  obtain ⟨x, -, hr⟩ := h
  cases x
  · simpa using hr
  · rw [if_pos rfl] at hr
    exact c117_zero (by simp) (by rwa [size_vec]) hr

/-- A translation by 1e-20 is not approximately the identity. -/
example (r : Bool) (h : TransformApprox ⟨1, ![1e-20, 0, 0]⟩ ⟨1, 0⟩ r) : r = false := by
  refine c117_not_identity ?_ h
  have e : eucNorm (realVec ![1e-20, 0, 0]) = 1e-20 := by
    rw [eucNorm, sqNorm_eq]
    simp only [realVec, cons_val_zero, cons_val_one, cons_val_two, tail_cons, head_cons, Rat.cast_zero]
    rw [zero_pow two_ne_zero, add_zero, add_zero, Real.sqrt_sq (by norm_num)]
    norm_num
  change _ ≤ eucNorm (realVec ![1e-20, 0, 0])
  rw [e]; norm_num

/-- C117, round trips: a rotation that is stored to within 4e-14, written to a message and read from it is approximately what it was. -/
theorem c117_relay_rotation {m m' : Matrix (Fin 3) (Fin 3) ℚ} {R : M3} {δ : ℝ} (hR : IsRotation R) (hm : TurnsAlike δ (realRot m) R) (hδ : δ ≤ 4e-14)
    (h : RelayRotation m m') {r : Bool} (hr : RotationApprox m m' r) : r = true := relay_agrees_rot hR hm hδ h hr

/-- C117, round trips: likewise a transform, however far it goes and however little it turns. -/
theorem c117_relay {g g' : Stored} {R : M3} {δ : ℝ} (hR : IsRotation R) (hm : TurnsAlike δ (realRot g.rot) R) (hδ : δ ≤ 4e-14)
    (ht : g.trans = 0 ∨ 1e-147 ≤ eucNorm (realVec g.trans)) (h : Relay g g') {r : Bool} (hr : TransformApprox g g' r) : r = true :=
  relay_agrees hR hm hδ ht h hr

/-- C117, round trips: likewise a point of a time curve, whatever its derivatives. -/
theorem c117_relay_jet {j j' : Jet} {R : M3} {δ : ℝ} (hR : IsRotation R) (hm : TurnsAlike δ (realRot j.g.rot) R) (hδ : δ ≤ 4e-14)
    (ht : j.g.trans = 0 ∨ 1e-147 ≤ eucNorm (realVec j.g.trans)) (h : RelayJet j j') {r : Bool} (hr : JetApprox j j' r) : r = true := by
  obtain ⟨h1, h2, h3⟩ := h
  obtain ⟨x, hx, hr⟩ := hr
  rw [relay_agrees hR hm hδ ht h1 hx, if_pos rfl, h2, h3] at hr
  obtain ⟨y, hy, hr⟩ := hr
  rw [agree_self hy, if_pos rfl] at hr
  exact agree_self hr

/-- C117, round trips: likewise the state of an actor, whatever its velocity and acceleration. -/
theorem c117_relay_state {s s' : State} {R : M3} {δ : ℝ} (hR : IsRotation R) (hm : TurnsAlike δ (realRot s.g.rot) R) (hδ : δ ≤ 4e-14)
    (ht : s.g.trans = 0 ∨ 1e-147 ≤ eucNorm (realVec s.g.trans)) (h : RelayState s s') {r : Bool} (hr : StateApprox s s' r) : r = true := by
  obtain ⟨h1, h2, h3⟩ := h
  obtain ⟨x, hx, hr⟩ := hr
  rw [relay_agrees hR hm hδ ht h1 hx, if_pos rfl, h2, h3] at hr
  obtain ⟨y, hy, hr⟩ := hr
  rw [agree_self hy, if_pos rfl] at hr
  exact agree_self hr

/-- C117, round trips: what an exponential gives (of a rotation vector up to 12, almost two turns) is stored well enough. -/
theorem c117_relay_exp {w v : Fin 3 → ℚ} {g g' : Stored} (hw : eucNorm (realVec w) ≤ 12) (h : ExpSE3 w v g)
    (ht : g.trans = 0 ∨ 1e-147 ≤ eucNorm (realVec g.trans)) (h' : Relay g g') {r : Bool} (hr : TransformApprox g g' r) : r = true := by
  have hU := U_pos; have hU1 := U_tiny.1
  have k := mul_le_mul_of_nonneg_right hw hU.le
  exact relay_agrees (isRotation_exp _) (expSO3_fine h.1) (by linarith) ht h' hr

/-- C117, round trips: after one message or more, however far the data was from a rotation before, the next message again gives approximately what was
written. -/
theorem c117_relays {g a b : Stored} {R : M3} {δ : ℝ} (hR : IsRotation R) (hm : TurnsAlike δ (realRot g.rot) R) (hδ : δ ≤ 1 / 1000) {n : ℕ} (hn : 1 ≤ n)
    (ha : Times Relay n g a) (hab : Relay a b) (ht : a.trans = 0 ∨ 1e-147 ≤ eucNorm (realVec a.trans)) {r : Bool} (hr : TransformApprox a b r) :
    r = true := by
  obtain ⟨k, rfl⟩ : ∃ k, n = k + 1 := ⟨n - 1, by omega⟩
  obtain ⟨S, hS, hs⟩ := relayed_rotation hR hm hδ (relays_rot ha)
  exact relay_agrees hS hs le_rfl ht hab hr

/-- Half a turn about the first axis at a distance of two, written to a message and read: approximately what it was. -/
example : ∃ g', Relay ⟨!![1, 0, 0; 0, -1, 0; 0, 0, -1], ![2, 0, 0]⟩ g' ∧
    ∀ r, TransformApprox ⟨!![1, 0, 0; 0, -1, 0; 0, 0, -1], ![2, 0, 0]⟩ g' r → r = true := by
  obtain ⟨g', hg⟩ := relay_some ⟨!![1, 0, 0; 0, -1, 0; 0, 0, -1], ![2, 0, 0]⟩
  refine ⟨g', hg, fun r hr => ?_⟩
  have e : realRot !![1, 0, 0; 0, -1, 0; 0, 0, -1] = !![1, 0, 0; 0, -1, 0; 0, 0, -1] := by
    ext i j; fin_cases i <;> fin_cases j <;> simp [realRot]
  have nv : eucNorm (realVec ![2, 0, 0]) = 2 := by rw [eucNorm, sqNorm_eq]; simp [realVec]
  have hR : IsRotation !![1, 0, 0; 0, -1, 0; 0, 0, -1] := by
    refine ⟨?_, ?_⟩
    · ext i j; fin_cases i <;> fin_cases j <;> simp [Matrix.mul_apply, Fin.sum_univ_three]
    · simp [Matrix.det_fin_three]
  refine c117_relay (δ := 0) hR (fun x => ?_) (by norm_num) (Or.inr ?_) hg hr
  · change eucNorm (realRot !![1, 0, 0; 0, -1, 0; 0, 0, -1] *ᵥ x - _) ≤ _
    rw [e, sub_self, eucNorm_zero, zero_mul]
  · change _ ≤ eucNorm (realVec ![2, 0, 0])
    rw [nv]; norm_num

/-- A transform without translation whose rotation is off by 2^-12, which is far too much for the first message, through three messages and then a fourth. -/
example (x : ℚ) (hx : x = 2 ^ (-12 : ℤ)) : ∃ a b, Times Relay 3 ⟨!![1 + x, 0, 0; 0, 1, 0; 0, 0, 1], 0⟩ a ∧ Relay a b ∧ ∀ r, TransformApprox a b r → r = true := by
  obtain ⟨a, ha⟩ := relays_some relay_some 3 ⟨!![1 + x, 0, 0; 0, 1, 0; 0, 0, 1], 0⟩
  obtain ⟨b, hb⟩ := relay_some a
  have hR : IsRotation (1 : M3) := ⟨by rw [transpose_one, one_mul], det_one⟩
  refine ⟨a, b, ha, hb, fun r hr => c117_relays (g := ⟨_, _⟩) hR (approx_plain x) (by rw [hx]; norm_num) (by norm_num : 1 ≤ 3) ha hb (Or.inl ?_) hr⟩
  obtain ⟨c, ⟨d, ⟨f, rfl, h1⟩, h2⟩, h3⟩ := ha
  exact relay_zero h3 (relay_zero h2 (relay_zero h1 rfl))

/-- What is computed for a turn by 3 about (2, -1, 2) with a translation, written to a message and read. -/
example : ∃ g g', ExpSE3 ![2, -1, 2] ![1, 2, 2] g ∧ Relay g g' ∧ ∀ r, TransformApprox g g' r → r = true := by
  obtain ⟨g, hg⟩ := expSE3_some ![2, -1, 2] ![1, 2, 2]
  obtain ⟨g', hg'⟩ := relay_some g
  have nw : eucNorm (realVec ![2, -1, 2]) = 3 := by
    rw [eucNorm, sqNorm_eq]; simp [realVec]; norm_num
    rw [show (9 : ℝ) = 3 ^ 2 by norm_num, Real.sqrt_sq (by norm_num)]
  have nv : eucNorm (realVec ![1, 2, 2]) = 3 := by
    rw [eucNorm, sqNorm_eq]; simp [realVec]; norm_num
    rw [show (9 : ℝ) = 3 ^ 2 by norm_num, Real.sqrt_sq (by norm_num)]
  have hU1 := U_tiny.1
  have hH := tiny_numbers.2
  refine ⟨g, g', hg, hg', fun r hr => c117_relay_exp (by rw [nw]; norm_num) hg (Or.inr ?_) hg' hr⟩
  have k1 := exp_fine hg (by rw [nw]; norm_num)
  have k2 := xexp_lower (w := realVec ![2, -1, 2]) (by rw [nw]; norm_num) (realVec ![1, 2, 2])
  have k3 := eucNorm_le_add (SE3.xexp (realVec ![2, -1, 2], realVec ![1, 2, 2])).2 (realVec g.trans)
  rw [nv] at k1 k2
  rw [show eucNorm ((SE3.xexp (realVec ![2, -1, 2], realVec ![1, 2, 2])).2 - realVec g.trans) =
    eucNorm (realVec g.trans - (SE3.xexp (realVec ![2, -1, 2], realVec ![1, 2, 2])).2) by rw [← eucNorm_neg, neg_sub]] at k3
  have : (1 : ℝ) ≤ eucNorm (realVec g.trans) := by norm_num at hH; linarith
  exact le_trans (by norm_num) this

/-- C117, there is always an answer. -/
theorem c117_computed : (∀ a b, ∃ r, RotationApprox a b r) ∧ (∀ a b, ∃ r, TransformApprox a b r) ∧ (∀ a b, ∃ r, JetApprox a b r) ∧
    ∀ a b, ∃ r, StateApprox a b r := by
  have T : ∀ a b, ∃ r, TransformApprox a b r := fun a b => by
    obtain ⟨x, hx⟩ := approx_some (entries a.rot) (entries b.rot)
    cases x
    · exact ⟨false, false, hx, by simp⟩
    · obtain ⟨r, hr⟩ := approx_some a.trans b.trans
      exact ⟨r, true, hx, by rwa [if_pos rfl]⟩
  have D : ∀ x, ∀ a b c d : TCurveDouble.Tangent, ∃ r, if x = true then ∃ y, ApproxOf (ApproxDouble.six a) (ApproxDouble.six b) y ∧ if y = true then ApproxOf (ApproxDouble.six c) (ApproxDouble.six d) r else r = false
      else r = false := fun x a b c d => by
    cases x
    · exact ⟨false, by simp⟩
    · obtain ⟨y, hy⟩ := approx_some (ApproxDouble.six a) (ApproxDouble.six b)
      cases y
      · exact ⟨false, by rw [if_pos rfl]; exact ⟨false, hy, by simp⟩⟩
      · obtain ⟨r, hr⟩ := approx_some (ApproxDouble.six c) (ApproxDouble.six d)
        exact ⟨r, by rw [if_pos rfl]; exact ⟨true, hy, by rwa [if_pos rfl]⟩⟩
  refine ⟨fun a b => approx_some _ _, T, fun a b => ?_, fun a b => ?_⟩
  · obtain ⟨x, hx⟩ := T a.g b.g
    obtain ⟨r, hr⟩ := D x a.d b.d a.d2 b.d2
    exact ⟨r, x, hx, hr⟩
  · obtain ⟨x, hx⟩ := T a.g b.g
    obtain ⟨r, hr⟩ := D x a.d b.d a.d2 b.d2
    exact ⟨r, x, hx, hr⟩

end Verif.Props
