import Verif.Spec.TransformDouble
import Verif.Proofs.SampleIntervalDouble
import Verif.Proofs.Approx
import Verif.Proofs.ExpDiff
/-! # Rounding errors of transforms -/
namespace Verif.TransformDouble
open SampleIntervalDouble Binary64 Verif.Spec Matrix SO3

/-- Unit roundoff. -/
def u : ℚ := 2 ^ (-53 : ℤ)
/-- Half of the smallest positive double. -/
def η : ℚ := 2 ^ (-1075 : ℤ)

theorem u_pos : 0 < u := two_zpow_pos _
theorem η_pos : 0 < η := two_zpow_pos _
theorem u_small : u ≤ 1 / 1000000 := by unfold u; norm_num

theorem pow_aux {a b : ℕ} (ha : 1 ≤ a) (hb : 1 ≤ b) : (1 : ℚ) + (1 + u) * (5 ^ a + 5 ^ b) ≤ 5 ^ (a + b) := by
  have h1 : (5 : ℚ) ≤ 5 ^ a := by simpa using pow_le_pow_right₀ (by norm_num : (1 : ℚ) ≤ 5) ha
  have h2 : (5 : ℚ) ≤ 5 ^ b := by simpa using pow_le_pow_right₀ (by norm_num : (1 : ℚ) ≤ 5) hb
  have := u_small
  have := u_pos
  rw [pow_add]
  nlinarith [mul_nonneg (sub_nonneg.mpr h1) (sub_nonneg.mpr h2)]

variable {ι : Type} [DecidableEq ι]

theorem Evaluates.card_pos {x y : ι → ℚ} {s : Finset ι} {r : ℚ} (h : Evaluates x y s r) : 1 ≤ s.card := by
  induction h with
  | product i => simp
  | add _ _ hd ih1 ih2 => rw [Finset.card_union_of_disjoint hd]; omega
  | fused i _ hi ih => rw [Finset.card_insert_of_notMem hi]; omega

/-- Forward error of an inner product, whatever the order. -/
theorem Evaluates.error {x y : ι → ℚ} {s : Finset ι} {r : ℚ} (h : Evaluates x y s r) :
    |r - ∑ i ∈ s, x i * y i| ≤ ((1 + u) ^ s.card - 1) * (∑ i ∈ s, |x i * y i|) + 5 ^ s.card * η := by
  have hu := u_pos
  have hη := η_pos
  induction h with
  | product i =>
    have := round64_error (x i * y i)
    simp only [Finset.sum_singleton, Finset.card_singleton, pow_one]
    change _ ≤ |x i * y i| * u + η at this
    linarith
  | @add s t a b h1 h2 hd ih1 ih2 =>
    have c1 := h1.card_pos
    have c2 := h2.card_pos
    rw [Finset.sum_union hd, Finset.sum_union hd, Finset.card_union_of_disjoint hd]
    have hr := round64_error (a + b)
    change _ ≤ |a + b| * u + η at hr
    set S := ∑ i ∈ s, x i * y i
    set T := ∑ i ∈ t, x i * y i
    set A := ∑ i ∈ s, |x i * y i|
    set C := ∑ i ∈ t, |x i * y i|
    have hS : |S| ≤ A := Finset.abs_sum_le_sum_abs _ _
    have hT : |T| ≤ C := Finset.abs_sum_le_sum_abs _ _
    have hA : 0 ≤ A := (abs_nonneg _).trans hS
    have hC : 0 ≤ C := (abs_nonneg _).trans hT
    have hab : |a + b| ≤ |a - S| + |b - T| + (A + C) := by
      have e : a + b = (a - S) + (b - T) + (S + T) := by ring
      rw [e]
      refine (abs_add_le _ _).trans (add_le_add (abs_add_le _ _) ((abs_add_le _ _).trans (add_le_add hS hT)))
    have htot : |round64 (a + b) - (S + T)| ≤ |round64 (a + b) - (a + b)| + (|a - S| + |b - T|) := by
      have e : round64 (a + b) - (S + T) = (round64 (a + b) - (a + b)) + ((a - S) + (b - T)) := by ring
      rw [e]
      exact (abs_add_le _ _).trans (add_le_add le_rfl (abs_add_le _ _))
    have p1 : (1 + u) * (1 + u) ^ s.card ≤ (1 + u) ^ (s.card + t.card) := by
      rw [← pow_succ']; exact pow_le_pow_right₀ (by linarith) (by omega)
    have p2 : (1 + u) * (1 + u) ^ t.card ≤ (1 + u) ^ (s.card + t.card) := by
      rw [← pow_succ']; exact pow_le_pow_right₀ (by linarith) (by omega)
    have p5 := pow_aux c1 c2
    have q1 := mul_le_mul_of_nonneg_right p1 hA
    have q2 := mul_le_mul_of_nonneg_right p2 hC
    have q3 := mul_le_mul_of_nonneg_right p5 hη.le
    have q4 := mul_le_mul_of_nonneg_right hab hu.le
    have q5 := mul_le_mul_of_nonneg_left ih1 (by linarith : (0 : ℚ) ≤ 1 + u)
    have q6 := mul_le_mul_of_nonneg_left ih2 (by linarith : (0 : ℚ) ≤ 1 + u)
    nlinarith
  | @fused s a i h1 hi ih =>
    have c1 := h1.card_pos
    rw [Finset.sum_insert hi, Finset.sum_insert hi, Finset.card_insert_of_notMem hi]
    have hr := round64_error (x i * y i + a)
    change _ ≤ |x i * y i + a| * u + η at hr
    set S := ∑ i ∈ s, x i * y i
    set A := ∑ i ∈ s, |x i * y i|
    set p := x i * y i
    have hS : |S| ≤ A := Finset.abs_sum_le_sum_abs _ _
    have hA : 0 ≤ A := (abs_nonneg _).trans hS
    have hab : |p + a| ≤ |a - S| + (|p| + A) := by
      have e : p + a = (a - S) + (p + S) := by ring
      rw [e]
      exact (abs_add_le _ _).trans (add_le_add le_rfl ((abs_add_le _ _).trans (add_le_add le_rfl hS)))
    have htot : |round64 (p + a) - (p + S)| ≤ |round64 (p + a) - (p + a)| + |a - S| := by
      have e : round64 (p + a) - (p + S) = (round64 (p + a) - (p + a)) + (a - S) := by ring
      rw [e]; exact abs_add_le _ _
    have p1 : (1 + u) * (1 + u) ^ s.card ≤ (1 + u) ^ (s.card + 1) := by rw [← pow_succ']
    have p2 : (1 + u) ≤ (1 + u) ^ (s.card + 1) := le_self_pow₀ (by linarith) (by omega)
    have p5 : 1 + (1 + u) * 5 ^ s.card ≤ 5 ^ (s.card + 1) := by
      have := pow_aux c1 le_rfl
      have h5 : (0 : ℚ) ≤ (1 + u) * 5 ^ 1 := by positivity
      linarith
    have q1 := mul_le_mul_of_nonneg_right p1 hA
    have q2 := mul_le_mul_of_nonneg_right p2 (abs_nonneg p)
    have q3 := mul_le_mul_of_nonneg_right p5 hη.le
    have q4 := mul_le_mul_of_nonneg_right hab hu.le
    have q5 := mul_le_mul_of_nonneg_left ih (by linarith : (0 : ℚ) ≤ 1 + u)
    nlinarith

/-- There always is an evaluation. -/
theorem Evaluates.some (x y : ι → ℚ) {s : Finset ι} (hs : s.Nonempty) : ∃ r, Evaluates x y s r := by
  induction hs using Finset.Nonempty.cons_induction with
  | singleton i => exact ⟨_, .product i⟩
  | cons i s hi hs ih =>
    obtain ⟨r, hr⟩ := ih
    rw [Finset.cons_eq_insert]
    exact ⟨_, .fused i hr hi⟩

/-- Sums of three squares that are powers of four. -/
theorem three_squares (k : ℕ) : ∀ a b c : ℤ, a ^ 2 + b ^ 2 + c ^ 2 = 4 ^ k → a = 0 ∨ a = 2 ^ k ∨ a = -2 ^ k := by
  induction k with
  | zero =>
    intro a b c h
    have h1 : a ^ 2 ≤ 1 := by nlinarith [sq_nonneg b, sq_nonneg c]
    have h2 : -1 ≤ a := by nlinarith
    have h3 : a ≤ 1 := by nlinarith
    simp only [pow_zero]
    omega
  | succ k ih =>
    intro a b c h
    have hk : (4 : ℤ) ^ (k + 1) = 4 * 4 ^ k := by ring
    rw [hk] at h
    rcases Int.even_or_odd' a with ⟨x, rfl | rfl⟩ <;> rcases Int.even_or_odd' b with ⟨y, rfl | rfl⟩ <;>
      rcases Int.even_or_odd' c with ⟨z, rfl | rfl⟩ <;> ring_nf at h <;> try omega
    rcases ih x y z (by linarith) with e | e | e
    · left; rw [e]; rfl
    · right; left; rw [e]; ring
    · right; right; rw [e]; ring

/-- Unit roundoff, as a real. -/
noncomputable def U : ℝ := 2 ^ (-53 : ℤ)
/-- Half of the smallest positive double, as a real. -/
noncomputable def H : ℝ := 2 ^ (-1075 : ℤ)

theorem u_cast : ((u : ℚ) : ℝ) = U := by unfold u U; rw [Rat.cast_zpow, Rat.cast_ofNat]
theorem η_cast : ((η : ℚ) : ℝ) = H := by unfold η H; rw [Rat.cast_zpow, Rat.cast_ofNat]
theorem U_pos : 0 < U := by unfold U; positivity
theorem H_pos : 0 < H := by unfold H; positivity
theorem U_small : U ≤ 1 / 1000000 := by
  have h : ((u : ℚ) : ℝ) ≤ ((1 / 1000000 : ℚ) : ℝ) := by exact_mod_cast u_small
  rw [← u_cast]
  simpa using h

theorem H_small {b : ℝ} (hb : (2 : ℝ) ^ (-1000 : ℤ) ≤ b) : 1048576 * H ≤ U * b := by
  have e : 1048576 * H = U * 2 ^ (-1002 : ℤ) := by
    unfold H U
    rw [← zpow_add₀ two_ne_zero, show (1048576 : ℝ) = 2 ^ (20 : ℤ) by norm_num, ← zpow_add₀ two_ne_zero]
    norm_num
  rw [e]
  exact mul_le_mul_of_nonneg_left ((zpow_le_zpow_right₀ (by norm_num) (by norm_num)).trans hb) U_pos.le

theorem pow3 : (1 + U) ^ 3 - 1 ≤ 3.001 * U := by
  have := U_pos; have := U_small
  nlinarith [mul_pos U_pos U_pos]

theorem pow4 : (1 + U) ^ 4 - 1 ≤ 4.001 * U := by
  have h0 := U_pos; have h1 := U_small
  have h2 : U ^ 2 ≤ U / 1000000 := by nlinarith
  have h3 : U ^ 3 ≤ U / 1000000 := by nlinarith
  have h4 : U ^ 4 ≤ U / 1000000 := by nlinarith [pow_pos h0 3]
  have e : (1 + U) ^ 4 - 1 = 4 * U + 6 * U ^ 2 + 4 * U ^ 3 + U ^ 4 := by ring
  rw [e]; linarith

theorem abs_sum_le (x y : V3) : ∑ i, |x i * y i| ≤ eucNorm x * eucNorm y := by
  have h := abs_dot_le (fun i => |x i|) (fun i => |y i|)
  have e1 : eucNorm (fun i => |x i|) = eucNorm x := by unfold eucNorm; rw [sqNorm_eq, sqNorm_eq]; simp
  have e2 : eucNorm (fun i => |y i|) = eucNorm y := by unfold eucNorm; rw [sqNorm_eq, sqNorm_eq]; simp
  rw [e1, e2] at h
  refine le_trans ?_ h
  refine le_trans (le_of_eq ?_) (le_abs_self _)
  simp [dotProduct, abs_mul]

theorem dot3 {x y : Fin 3 → ℚ} {r : ℚ} (h : Evaluates x y Finset.univ r) :
    |(r : ℝ) - realVec x ⬝ᵥ realVec y| ≤ 3.001 * U * (eucNorm (realVec x) * eucNorm (realVec y)) + 125 * H := by
  have h1 := h.error
  have h2 : |(r : ℝ) - ∑ i, (x i : ℝ) * y i| ≤ ((1 + U) ^ 3 - 1) * (∑ i, |(x i : ℝ) * y i|) + 125 * H := by
    have : ((|r - ∑ i, x i * y i| : ℚ) : ℝ) ≤ (((1 + u) ^ 3 - 1) * (∑ i, |x i * y i|) + 5 ^ 3 * η : ℚ) := by exact_mod_cast h1
    push_cast at this
    rw [u_cast, η_cast] at this
    norm_num at this ⊢
    exact this
  have h3 := abs_sum_le (realVec x) (realVec y)
  have h4 : 0 ≤ ∑ i, |(x i : ℝ) * y i| := Finset.sum_nonneg fun _ _ => abs_nonneg _
  have h5 := mul_le_mul_of_nonneg_right pow3 h4
  have h6 : 3.001 * U * (∑ i, |(x i : ℝ) * y i|) ≤ 3.001 * U * (eucNorm (realVec x) * eucNorm (realVec y)) :=
    mul_le_mul_of_nonneg_left h3 (by have := U_pos; positivity)
  have e : realVec x ⬝ᵥ realVec y = ∑ i, (x i : ℝ) * y i := rfl
  rw [e]
  linarith

theorem dot4 {x v : Fin 3 → ℚ} {t r : ℚ}
    (h : Evaluates (Fin.snoc (α := fun _ => ℚ) x t) (Fin.snoc (α := fun _ => ℚ) v 1) Finset.univ r) :
    |(r : ℝ) - (realVec x ⬝ᵥ realVec v + t)| ≤ 4.001 * U * (eucNorm (realVec x) * eucNorm (realVec v) + |(t : ℝ)|) + 625 * H := by
  have h1 := h.error
  have s1 : ∑ i, Fin.snoc (α := fun _ => ℚ) x t i * Fin.snoc (α := fun _ => ℚ) v 1 i = ∑ i, x i * v i + t := by
    rw [Fin.sum_univ_castSucc]; simp only [Fin.snoc_castSucc, Fin.snoc_last, mul_one]
  have s2 : ∑ i, |Fin.snoc (α := fun _ => ℚ) x t i * Fin.snoc (α := fun _ => ℚ) v 1 i| = ∑ i, |x i * v i| + |t| := by
    rw [Fin.sum_univ_castSucc]; simp only [Fin.snoc_castSucc, Fin.snoc_last, mul_one]
  rw [s1, s2, Finset.card_univ, Fintype.card_fin] at h1
  have h2 : |(r : ℝ) - (∑ i, (x i : ℝ) * v i + t)| ≤ ((1 + U) ^ 4 - 1) * ((∑ i, |(x i : ℝ) * v i|) + |(t : ℝ)|) + 625 * H := by
    have : ((|r - (∑ i, x i * v i + t)| : ℚ) : ℝ) ≤ (((1 + u) ^ 4 - 1) * ((∑ i, |x i * v i|) + |t|) + 5 ^ 4 * η : ℚ) := by
      exact_mod_cast h1
    push_cast at this
    rw [u_cast, η_cast] at this
    norm_num at this ⊢
    exact this
  have h3 := abs_sum_le (realVec x) (realVec v)
  have h4 : 0 ≤ (∑ i, |(x i : ℝ) * v i|) + |(t : ℝ)| := add_nonneg (Finset.sum_nonneg fun _ _ => abs_nonneg _) (abs_nonneg _)
  have h5 := mul_le_mul_of_nonneg_right pow4 h4
  have h6 : 4.001 * U * ((∑ i, |(x i : ℝ) * v i|) + |(t : ℝ)|) ≤ 4.001 * U * (eucNorm (realVec x) * eucNorm (realVec v) + |(t : ℝ)|) :=
    mul_le_mul_of_nonneg_left (add_le_add h3 le_rfl) (by have := U_pos; positivity)
  have e : realVec x ⬝ᵥ realVec v = ∑ i, (x i : ℝ) * v i := rfl
  rw [e]
  linarith

theorem eucNorm_le_of_entries {v : V3} {c : ℝ} (h : ∀ i, |v i| ≤ c) : eucNorm v ≤ 2 * c := by
  have hc : 0 ≤ c := (abs_nonneg _).trans (h 0)
  refine Real.sqrt_le_iff.mpr ⟨by linarith, ?_⟩
  rw [sqNorm_eq]
  have := fun i => sq_le_sq' (abs_le.mp (h i)).1 (abs_le.mp (h i)).2
  nlinarith [this 0, this 1, this 2, sq_nonneg c]

theorem abs_entry_le (v : V3) (i : Fin 3) : |v i| ≤ eucNorm v := by
  refine Real.le_sqrt_of_sq_le ?_
  rw [sq_abs, sqNorm_eq]
  fin_cases i <;> simp <;> nlinarith [sq_nonneg (v 0), sq_nonneg (v 1), sq_nonneg (v 2)]

/-! ## Matrices that turn alike -/

theorem turnsAlike_nonneg {e : ℝ} {a b : M3} (h : TurnsAlike e a b) : 0 ≤ e := by
  have := h ![1, 0, 0]
  have e1 : eucNorm ![1, 0, 0] = 1 := by simp [eucNorm, sqNorm_eq]
  rw [e1, mul_one] at this
  exact (eucNorm_nonneg _).trans this

theorem turnsAlike_transpose {e : ℝ} {a b : M3} (h : TurnsAlike e a b) : TurnsAlike e aᵀ bᵀ := by
  intro v
  have he := turnsAlike_nonneg h
  set d := a - b with hd
  have e1 : ∀ w, a *ᵥ w - b *ᵥ w = d *ᵥ w := fun w => by rw [hd, sub_mulVec]
  have e2 : aᵀ *ᵥ v - bᵀ *ᵥ v = dᵀ *ᵥ v := by rw [hd, transpose_sub, sub_mulVec]
  rw [e2]
  set w := dᵀ *ᵥ v with hw
  have h1 : sqNorm w = v ⬝ᵥ (d *ᵥ w) := by
    unfold sqNorm
    conv_lhs => arg 1; rw [hw]
    rw [mulVec_transpose, ← dotProduct_mulVec]
  have h2 : eucNorm w ^ 2 ≤ eucNorm v * (e * eucNorm w) := by
    rw [eucNorm_sq, h1]
    refine (le_abs_self _).trans ((abs_dot_le _ _).trans (mul_le_mul_of_nonneg_left ?_ (eucNorm_nonneg _)))
    have := h w
    rwa [e1] at this
  rcases (eucNorm_nonneg w).eq_or_lt with h0 | h0
  · rw [← h0]; exact mul_nonneg he (eucNorm_nonneg _)
  · nlinarith

theorem turnsAlike_norm {e : ℝ} {a b : M3} (hb : IsRotation b) (h : TurnsAlike e a b) (v : V3) : eucNorm (a *ᵥ v) ≤ (1 + e) * eucNorm v := by
  have e1 : a *ᵥ v = b *ᵥ v + (a *ᵥ v - b *ᵥ v) := by abel
  rw [e1]
  refine (eucNorm_add_le _ _).trans ?_
  rw [eucNorm_mulVec hb]
  linarith [h v]

theorem turnsAlike_row {e : ℝ} {a b : M3} (hb : IsRotation b) (h : TurnsAlike e a b) (i : Fin 3) : eucNorm (a i) ≤ 1 + e := by
  have h1 := turnsAlike_norm (isRotation_transpose hb) (turnsAlike_transpose h) (Pi.single i 1)
  have e1 : aᵀ *ᵥ Pi.single i 1 = a i := by ext j; simp
  have e2 : eucNorm (Pi.single i 1 : V3) = 1 := by
    unfold eucNorm
    rw [sqNorm_eq]
    fin_cases i <;> simp
  rwa [e1, e2, mul_one] at h1

theorem realRot_row (a : Matrix (Fin 3) (Fin 3) ℚ) (i : Fin 3) : realVec (a i) = realRot a i := rfl

theorem realRot_transpose (a : Matrix (Fin 3) (Fin 3) ℚ) : realRot a.transpose = (realRot a)ᵀ := rfl

/-- Rounding in the product of two stored rotations. -/
theorem mulRot_error {a b c : Matrix (Fin 3) (Fin 3) ℚ} (h : MulRot a b c) {A B : M3} {ea eb : ℝ} (hA : IsRotation A) (hB : IsRotation B)
    (ha : TurnsAlike ea (realRot a) A) (hb : TurnsAlike eb (realRot b) B) :
    TurnsAlike ((1 + ea) * (1 + eb) * (1 + 10 * U) - 1) (realRot c) (A * B) := by
  have hea := turnsAlike_nonneg ha
  have heb := turnsAlike_nonneg hb
  have hU := U_pos
  have hent : ∀ i j, |(realRot c - realRot a * realRot b) i j| ≤ 3.001 * U * ((1 + ea) * (1 + eb)) + 125 * H := by
    intro i j
    have h1 := dot3 (h i j)
    have e1 : realVec (a i) ⬝ᵥ realVec (fun k => b k j) = (realRot a * realRot b) i j := rfl
    rw [e1] at h1
    refine h1.trans (add_le_add (mul_le_mul_of_nonneg_left (mul_le_mul ?_ ?_ (eucNorm_nonneg _) (by linarith)) (by positivity)) le_rfl)
    · exact turnsAlike_row hA ha i
    · exact turnsAlike_row (isRotation_transpose hB) (turnsAlike_transpose hb) j
  have hK : 1 ≤ (1 + ea) * (1 + eb) := by nlinarith
  have hH : 375 * H ≤ 0.9 * U := by
    have := H_small (b := 1) (by rw [← zpow_zero (2 : ℝ)]; exact zpow_le_zpow_right₀ (by norm_num) (by norm_num))
    have := H_pos
    linarith
  have hE : ∀ v, eucNorm ((realRot c - realRot a * realRot b) *ᵥ v) ≤ 10 * U * ((1 + ea) * (1 + eb)) * eucNorm v := by
    intro v
    have hc : 3 * (3.001 * U * ((1 + ea) * (1 + eb)) + 125 * H) ≤ 10 * U * ((1 + ea) * (1 + eb)) := by nlinarith
    refine (Approx.eucNorm_mulVec_le (c := 3 * (3.001 * U * ((1 + ea) * (1 + eb)) + 125 * H)) (by have := H_pos; positivity) ?_ v).trans
      (mul_le_mul_of_nonneg_right hc (eucNorm_nonneg _))
    set E := realRot c - realRot a * realRot b
    set k := 3.001 * U * ((1 + ea) * (1 + eb)) + 125 * H
    have hsq : ∀ i j, E i j * E i j ≤ k ^ 2 := fun i j => by
      rw [← sq]; exact sq_le_sq' (abs_le.mp (hent i j)).1 (abs_le.mp (hent i j)).2
    unfold Approx.matSq
    simp only [Fin.sum_univ_three]
    nlinarith [hsq 0 0, hsq 0 1, hsq 0 2, hsq 1 0, hsq 1 1, hsq 1 2, hsq 2 0, hsq 2 1, hsq 2 2]
  intro v
  have e1 : realRot c *ᵥ v - (A * B) *ᵥ v = (realRot c - realRot a * realRot b) *ᵥ v +
      ((realRot a *ᵥ (realRot b *ᵥ v) - A *ᵥ (realRot b *ᵥ v)) + A *ᵥ (realRot b *ᵥ v - B *ᵥ v)) := by
    rw [sub_mulVec, mulVec_sub, ← mulVec_mulVec, ← mulVec_mulVec]; abel
  rw [e1]
  refine (eucNorm_add_le _ _).trans ((add_le_add (hE v) ((eucNorm_add_le _ _).trans (add_le_add (ha _) le_rfl))).trans ?_)
  rw [eucNorm_mulVec hA]
  have h1 := turnsAlike_norm hB hb v
  have h2 := hb v
  have h3 := mul_le_mul_of_nonneg_left h1 hea
  nlinarith [eucNorm_nonneg v]

/-- Rounding in the translation of a product, and in applying a transform to a point. -/
theorem applied_error {a : Stored} {v w : Fin 3 → ℚ} (h : Applied a v w) {A : M3} {ea : ℝ} (hA : IsRotation A)
    (ha : TurnsAlike ea (realRot a.rot) A) :
    eucNorm (realVec w - (realRot a.rot *ᵥ realVec v + realVec a.trans)) ≤
      8.002 * U * ((1 + ea) * eucNorm (realVec v) + eucNorm (realVec a.trans)) + 1250 * H := by
  have hU := U_pos
  have : ∀ i, |(realVec w - (realRot a.rot *ᵥ realVec v + realVec a.trans)) i| ≤
      4.001 * U * ((1 + ea) * eucNorm (realVec v) + eucNorm (realVec a.trans)) + 625 * H := by
    intro i
    refine (dot4 (h i)).trans (add_le_add (mul_le_mul_of_nonneg_left (add_le_add ?_ ?_) (by positivity)) le_rfl)
    · exact mul_le_mul_of_nonneg_right (turnsAlike_row hA ha i) (eucNorm_nonneg _)
    · exact abs_entry_le (realVec a.trans) i
  exact (eucNorm_le_of_entries this).trans (le_of_eq (by ring))

/-- Rounding in rotating a vector. -/
theorem rotated_error {a : Matrix (Fin 3) (Fin 3) ℚ} {v w : Fin 3 → ℚ} (h : Rotated a v w) {A : M3} {ea : ℝ} (hA : IsRotation A)
    (ha : TurnsAlike ea (realRot a) A) :
    eucNorm (realVec w - realRot a *ᵥ realVec v) ≤ 6.002 * U * ((1 + ea) * eucNorm (realVec v)) + 250 * H := by
  have hU := U_pos
  have : ∀ i, |(realVec w - realRot a *ᵥ realVec v) i| ≤ 3.001 * U * ((1 + ea) * eucNorm (realVec v)) + 125 * H := by
    intro i
    refine (dot3 (h i)).trans (add_le_add (mul_le_mul_of_nonneg_left ?_ (by positivity)) le_rfl)
    exact mul_le_mul_of_nonneg_right (turnsAlike_row hA ha i) (eucNorm_nonneg _)
  exact (eucNorm_le_of_entries this).trans (le_of_eq (by ring))

end Verif.TransformDouble
