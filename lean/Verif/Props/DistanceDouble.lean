import Verif.Proofs.DistanceDouble
/-! # C121: distances between poses in doubles -/
namespace Verif.Props
open Verif.Spec hiding Jet
open SampleIntervalDouble TransformDouble ExpDouble DistanceDouble Matrix SO3

theorem isDouble_int (n : ℤ) (h : |n| < 2 ^ 53) : IsDouble n := ⟨n, 0, h, by norm_num, by norm_num, by rw [zpow_zero, mul_one]⟩

/-- A pose that is not rotated. -/
def placed (x y z : ℤ) : Stored := ⟨1, ![(x : ℚ), y, z]⟩

theorem placed_double {x y z : ℤ} (hx : |x| < 2 ^ 53) (hy : |y| < 2 ^ 53) (hz : |z| < 2 ^ 53) (i : Fin 3) : IsDouble ((placed x y z).trans i) := by
  fin_cases i
  · exact isDouble_int x hx
  · exact isDouble_int y hy
  · exact isDouble_int z hz

theorem placed_apart (x y z x' y' z' : ℤ) : eucNorm (realVec (placed x y z).trans - realVec (placed x' y' z').trans) =
    Real.sqrt ((x - x' : ℝ) ^ 2 + (y - y' : ℝ) ^ 2 + (z - z' : ℝ) ^ 2) := by
  rw [eucNorm, sqNorm_eq]
  simp [realVec, placed]

/-- C121, precision: unless the translations nearly coincide the distance is within four roundings of the exact one, relative to the distance
itself, however far both poses are from the origin. -/
theorem c121_precise {a b : Stored} (ha : ∀ i, IsDouble (a.trans i)) (hb : ∀ i, IsDouble (b.trans i)) {d : ℚ} (h : Distance a b d)
    (hD : 2 ^ (-499 : ℤ) ≤ eucNorm (realVec a.trans - realVec b.trans)) :
    |(d : ℝ) - eucNorm (realVec a.trans - realVec b.trans)| ≤ 4 * 2 ^ (-53 : ℤ) * eucNorm (realVec a.trans - realVec b.trans) := by
  refine (distance_rel ha hb h hD).trans (mul_le_mul_of_nonneg_right ?_ (eucNorm_nonneg _))
  change 3.53 * U ≤ 4 * U
  linarith [U_pos]

/-- Two poses 5 apart, 2^50 from the origin. -/
example : ∃ d, Distance (placed (2 ^ 50 + 3) 4 0) (placed (2 ^ 50) 0 0) d ∧ |(d : ℝ) - 5| ≤ 1e-14 := by
  obtain ⟨d, hd⟩ := distance_some (placed (2 ^ 50 + 3) 4 0) (placed (2 ^ 50) 0 0)
  have e : eucNorm (realVec (placed (2 ^ 50 + 3) 4 0).trans - realVec (placed (2 ^ 50) 0 0).trans) = 5 := by
    rw [placed_apart, Real.sqrt_eq_iff_mul_self_eq_of_pos (by norm_num)]; norm_num
  have := c121_precise (placed_double (by norm_num) (by norm_num) (by norm_num)) (placed_double (by norm_num) (by norm_num) (by norm_num)) hd
    (by rw [e]; exact (zpow_le_one_of_nonpos₀ (by norm_num) (by norm_num)).trans (by norm_num))
  rw [e] at this
  exact ⟨d, hd, this.trans (by norm_num)⟩

/-- C121, precision for any two poses: where the squares underflow there is an absolute error of at most 2^-535. -/
theorem c121_any {a b : Stored} (ha : ∀ i, IsDouble (a.trans i)) (hb : ∀ i, IsDouble (b.trans i)) {d : ℚ} (h : Distance a b d) :
    |(d : ℝ) - eucNorm (realVec a.trans - realVec b.trans)| ≤
      6 * 2 ^ (-53 : ℤ) * eucNorm (realVec a.trans - realVec b.trans) + 2 ^ (-535 : ℤ) := by
  refine (distance_any ha hb h).trans (add_le_add (mul_le_mul_of_nonneg_right ?_ (eucNorm_nonneg _)) ?_)
  · change 5.01 * U ≤ 6 * U
    linarith [U_pos]
  · have e : (2 : ℝ) ^ (-535 : ℤ) = 2 * S := by
      unfold S; rw [show (-535 : ℤ) = 1 + (-536) by norm_num, zpow_add₀ two_ne_zero, zpow_one]
    rw [e]
    linarith [S_pos]

example : ∃ d, Distance (placed 3 4 0) (placed 0 0 0) d ∧ |(d : ℝ) - 5| ≤ 30 * 2 ^ (-53 : ℤ) + 2 ^ (-535 : ℤ) := by
  obtain ⟨d, hd⟩ := distance_some (placed 3 4 0) (placed 0 0 0)
  have e : eucNorm (realVec (placed 3 4 0).trans - realVec (placed 0 0 0).trans) = 5 := by
    rw [placed_apart, Real.sqrt_eq_iff_mul_self_eq_of_pos (by norm_num)]; norm_num
  have := c121_any (placed_double (by norm_num) (by norm_num) (by norm_num)) (placed_double (by norm_num) (by norm_num) (by norm_num)) hd
  rw [e] at this
  refine ⟨d, hd, this.trans (add_le_add (le_of_eq ?_) le_rfl)⟩
  generalize (2 : ℝ) ^ (-53 : ℤ) = z
  ring

/-- C121, the order of the arguments does not matter: whatever may be computed for one order may be computed for the other. -/
theorem c121_symmetric (a b : Stored) (d : ℚ) : Distance a b d ↔ Distance b a d := ⟨distance_swap, distance_swap⟩

example : ∃ d, Distance (placed 1 2 3) (placed (-4) 5 6) d ∧ Distance (placed (-4) 5 6) (placed 1 2 3) d := by
  obtain ⟨d, hd⟩ := distance_some (placed 1 2 3) (placed (-4) 5 6)
  exact ⟨d, hd, (c121_symmetric _ _ d).mp hd⟩

/-- C121, zero: the distance is exactly zero if the translations agree or are within 2^-538 of each other, and positive if they are at least
2^-499 apart. -/
theorem c121_zero {a b : Stored} (ha : ∀ i, IsDouble (a.trans i)) (hb : ∀ i, IsDouble (b.trans i)) {d : ℚ} (h : Distance a b d) :
    (a.trans = b.trans → d = 0) ∧ ((∀ i, |a.trans i - b.trans i| ≤ 2 ^ (-538 : ℤ)) → d = 0) ∧
    (2 ^ (-499 : ℤ) ≤ eucNorm (realVec a.trans - realVec b.trans) → 0 < d) := by
  refine ⟨fun e => distance_zero h fun i => ?_, distance_zero h, fun hD => ?_⟩
  · rw [e, sub_self, abs_zero]
    exact (zpow_pos two_pos _).le
  · have h1 := (abs_le.mp (distance_rel ha hb h hD)).1
    have h2 : 0 < eucNorm (realVec a.trans - realVec b.trans) := (zpow_pos two_pos _).trans_le hD
    have hU := U_tiny.1
    have : (0 : ℝ) < d := by
      have := mul_le_mul_of_nonneg_right hU h2.le
      linarith
    exact_mod_cast this

/-- All three cases occur: the same place, places that are too close, places that are apart. -/
example : Distance (placed 1 2 3) (placed 1 2 3) 0 ∧ Distance ⟨1, ![2 ^ (-538 : ℤ), 0, 0]⟩ (placed 0 0 0) 0 ∧
    ∃ d, Distance (placed 1 0 0) (placed 0 0 0) d ∧ 0 < d := by
  have h0 : ∀ i, IsDouble ((⟨1, ![2 ^ (-538 : ℤ), 0, 0]⟩ : Stored).trans i) := by
    intro i
    fin_cases i
    · exact isDouble_two_538
    · exact ⟨0, 0, by norm_num, by norm_num, by norm_num, by simp⟩
    · exact ⟨0, 0, by norm_num, by norm_num, by norm_num, by simp⟩
  refine ⟨?_, ?_, ?_⟩
  · obtain ⟨d, hd⟩ := distance_some (placed 1 2 3) (placed 1 2 3)
    have p := placed_double (x := 1) (y := 2) (z := 3) (by norm_num) (by norm_num) (by norm_num)
    rwa [(c121_zero p p hd).1 rfl] at hd
  · obtain ⟨d, hd⟩ := distance_some ⟨1, ![2 ^ (-538 : ℤ), 0, 0]⟩ (placed 0 0 0)
    have := (c121_zero h0 (placed_double (by norm_num) (by norm_num) (by norm_num)) hd).2.1 (by
      intro i
      have hp : (0 : ℚ) < 2 ^ (-538 : ℤ) := zpow_pos two_pos _
      fin_cases i
      · change |(2 : ℚ) ^ (-538 : ℤ) - ((0 : ℤ) : ℚ)| ≤ _
        rw [Int.cast_zero, sub_zero, abs_of_pos hp]
      · change |(0 : ℚ) - ((0 : ℤ) : ℚ)| ≤ _
        rw [Int.cast_zero, sub_zero, abs_zero]; exact hp.le
      · change |(0 : ℚ) - ((0 : ℤ) : ℚ)| ≤ _
        rw [Int.cast_zero, sub_zero, abs_zero]; exact hp.le)
    rwa [this] at hd
  · obtain ⟨d, hd⟩ := distance_some (placed 1 0 0) (placed 0 0 0)
    refine ⟨d, hd, (c121_zero (placed_double (by norm_num) (by norm_num) (by norm_num)) (placed_double (by norm_num) (by norm_num) (by norm_num)) hd).2.2 ?_⟩
    have e : eucNorm (realVec (placed 1 0 0).trans - realVec (placed 0 0 0).trans) = 1 := by
      rw [placed_apart, Real.sqrt_eq_iff_mul_self_eq_of_pos (by norm_num)]; norm_num
    rw [e]
    exact zpow_le_one_of_nonpos₀ (by norm_num) (by norm_num)

/-- C121, a distance of zero does not mean that the poses are at the same place. -/
theorem c121_zero_fails : ∃ a b : Stored, (∀ i, IsDouble (a.trans i)) ∧ (∀ i, IsDouble (b.trans i)) ∧ a.trans ≠ b.trans ∧ ∀ d, Distance a b d → d = 0 := by
  refine ⟨⟨1, fun _ => 2 ^ (-538 : ℤ)⟩, ⟨1, fun _ => 0⟩, fun _ => isDouble_two_538, fun _ => ⟨0, 0, by norm_num, by norm_num, by norm_num, by simp⟩, ?_, ?_⟩
  · intro h
    have := congrFun h 0
    exact absurd this (zpow_pos two_pos _).ne'
  · intro d h
    refine distance_zero h fun i => ?_
    rw [sub_zero, abs_of_pos (zpow_pos two_pos _)]

/-- C121, the triangle inequality holds up to rounding. -/
theorem c121_triangle {a b c : Stored} (ha : ∀ i, IsDouble (a.trans i)) (hb : ∀ i, IsDouble (b.trans i)) (hc : ∀ i, IsDouble (c.trans i))
    {d e f : ℚ} (h1 : Distance a b d) (h2 : Distance b c e) (h3 : Distance a c f) :
    (f : ℝ) ≤ (1 + 11 * 2 ^ (-53 : ℤ)) * (d + e) + 2 ^ (-534 : ℤ) := by
  have eS : (2 : ℝ) ^ (-534 : ℤ) = 4 * S := by
    unfold S; rw [show (-534 : ℤ) = 2 + (-536) by norm_num, zpow_add₀ two_ne_zero]; norm_num only
  rw [eS]
  change _ ≤ (1 + 11 * U) * _ + _
  have k1 := distance_any ha hb h1
  have k2 := distance_any hb hc h2
  have k3 := distance_any ha hc h3
  have t : eucNorm (realVec a.trans - realVec c.trans) ≤ eucNorm (realVec a.trans - realVec b.trans) + eucNorm (realVec b.trans - realVec c.trans) := by
    have := eucNorm_add_le (realVec a.trans - realVec b.trans) (realVec b.trans - realVec c.trans)
    rwa [sub_add_sub_cancel] at this
  have p1 := eucNorm_nonneg (realVec a.trans - realVec b.trans)
  have p2 := eucNorm_nonneg (realVec b.trans - realVec c.trans)
  generalize eucNorm (realVec a.trans - realVec b.trans) = D at *
  generalize eucNorm (realVec b.trans - realVec c.trans) = E at *
  generalize eucNorm (realVec a.trans - realVec c.trans) = F at *
  have hU := U_pos; have hU1 := U_tiny.1; have hS := S_pos
  have l1 := (abs_le.mp k1).1
  have l2 := (abs_le.mp k2).1
  have l3 := (abs_le.mp k3).2
  have q : (1 - 5.01 * U) * (D + E) ≤ d + e + 2.002 * S := by linarith
  have q1 := mul_le_mul_of_nonneg_left t (by positivity : 0 ≤ 1 + 5.01 * U)
  have q2 := mul_le_mul_of_nonneg_left q (by positivity : 0 ≤ 1 + 11 * U)
  have q3 : 1 + 5.01 * U ≤ (1 + 11 * U) * (1 - 5.01 * U) := by nlinarith
  have q4 := mul_le_mul_of_nonneg_right q3 (add_nonneg p1 p2)
  have q5 : (1 + 11 * U) * (2.002 * S) ≤ 2.5 * S := by nlinarith
  linarith

/-- A right-angled triangle. -/
example : ∃ d e f, Distance (placed 3 0 0) (placed 0 0 0) d ∧ Distance (placed 0 0 0) (placed 0 4 0) e ∧ Distance (placed 3 0 0) (placed 0 4 0) f ∧
    (f : ℝ) ≤ (1 + 11 * 2 ^ (-53 : ℤ)) * (d + e) + 2 ^ (-534 : ℤ) := by
  obtain ⟨d, hd⟩ := distance_some (placed 3 0 0) (placed 0 0 0)
  obtain ⟨e, he⟩ := distance_some (placed 0 0 0) (placed 0 4 0)
  obtain ⟨f, hf⟩ := distance_some (placed 3 0 0) (placed 0 4 0)
  exact ⟨d, e, f, hd, he, hf, c121_triangle (placed_double (by norm_num) (by norm_num) (by norm_num)) (placed_double (by norm_num) (by norm_num) (by norm_num))
    (placed_double (by norm_num) (by norm_num) (by norm_num)) hd he hf⟩

theorem four_S : (2 : ℝ) ^ (-534 : ℤ) = 4 * S := by
  unfold S; rw [show (-534 : ℤ) = 2 + (-536) by norm_num, zpow_add₀ two_ne_zero]; norm_num only

/-- C121, `se3_inverse_distance` (an example for this and the next theorem is at the end): the computed distance is the computed length of the translation of the composed relative pose, up to the error `e`
of the stored rotation relative to the distance, and 24 roundings relative to the distances from the origin. -/
theorem c121_inverse_composed {a b : Stored} (ha : ∀ i, IsDouble (a.trans i)) (hb : ∀ i, IsDouble (b.trans i)) {A : M3} {e : ℝ} (hA : IsRotation A)
    (hR : TurnsAlike e (realRot a.rot) A) (he : e ≤ 0.001) {d d' : ℚ} (h : Distance a b d) (h' : ComposedInverse a b d') :
    |(d : ℝ) - d'| ≤ e * eucNorm (realVec a.trans - realVec b.trans) +
      24 * 2 ^ (-53 : ℤ) * (eucNorm (realVec a.trans) + eucNorm (realVec b.trans)) + 2 ^ (-534 : ℤ) := by
  have k1 := distance_any ha hb h
  have k2 := composed_inverse h' hA hR he
  rw [four_S]
  change _ ≤ _ + 24 * U * _ + _
  have hs : eucNorm (realVec a.trans - realVec b.trans) ≤ eucNorm (realVec a.trans) + eucNorm (realVec b.trans) := by
    have := eucNorm_add_le (realVec a.trans) (-realVec b.trans)
    rwa [eucNorm_neg, ← sub_eq_add_neg] at this
  have q := mul_le_mul_of_nonneg_left hs (by have := U_pos; positivity : 0 ≤ 5.01 * U)
  have hS := S_pos
  have p : 0 ≤ U * (eucNorm (realVec a.trans) + eucNorm (realVec b.trans)) := mul_nonneg U_pos.le (add_nonneg (eucNorm_nonneg _) (eucNorm_nonneg _))
  rw [abs_le] at k1 k2 ⊢
  constructor <;> linarith

/-- C121, `se3_distance`: likewise for poses given from the reference frame, if their orientations differ by little: the difference `f` of the
orientations enters multiplied with the distance of the reference frame (that it must enter is `c121_composed_fails`). -/
theorem c121_composed {a b : Stored} (ha : ∀ i, IsDouble (a.trans i)) (hb : ∀ i, IsDouble (b.trans i)) {A B : M3} {e f : ℝ} (hA : IsRotation A)
    (hR : TurnsAlike e (realRot a.rot) A) (hB : IsRotation B) (hR' : TurnsAlike e (realRot b.rot) B) (hf : TurnsAlike f A B) (he : 2.1 * e + f ≤ 0.01)
    {d d' : ℚ} (h : Distance a b d) (h' : Composed a b d') :
    |(d : ℝ) - d'| ≤ (2.1 * e + f) * eucNorm (realVec b.trans) +
      24 * 2 ^ (-53 : ℤ) * (eucNorm (realVec a.trans) + eucNorm (realVec b.trans)) + 2 ^ (-534 : ℤ) := by
  have k1 := distance_any ha hb h
  have k2 := composed_near h' hA hR hB hR' hf he
  rw [four_S]
  change _ ≤ _ + 24 * U * _ + _
  have hs : eucNorm (realVec a.trans - realVec b.trans) ≤ eucNorm (realVec a.trans) + eucNorm (realVec b.trans) := by
    have := eucNorm_add_le (realVec a.trans) (-realVec b.trans)
    rwa [eucNorm_neg, ← sub_eq_add_neg] at this
  have q := mul_le_mul_of_nonneg_left hs (by have := U_pos; positivity : 0 ≤ 5.01 * U)
  have hS := S_pos
  have p : 0 ≤ U * (eucNorm (realVec a.trans) + eucNorm (realVec b.trans)) := mul_nonneg U_pos.le (add_nonneg (eucNorm_nonneg _) (eucNorm_nonneg _))
  rw [abs_le] at k1 k2 ⊢
  constructor <;> linarith

theorem placed_turns (x y z : ℤ) : TurnsAlike 0 (realRot (placed x y z).rot) 1 := by
  intro v
  have e : realRot (placed x y z).rot = 1 := by
    ext i j
    fin_cases i <;> fin_cases j <;> simp [realRot, placed]
  rw [e, sub_self, eucNorm_zero, zero_mul]

/-- Poses with and without a translation: both ways to compute their distance are possible, and agree to rounding. -/
example : ∃ d d' d'', Distance (placed 3 4 0) (placed 1 0 0) d ∧ ComposedInverse (placed 3 4 0) (placed 1 0 0) d' ∧ Composed (placed 3 4 0) (placed 1 0 0) d'' ∧
    |(d : ℝ) - d'| ≤ 24 * 2 ^ (-53 : ℤ) * 6 + 2 ^ (-534 : ℤ) ∧ |(d : ℝ) - d''| ≤ 24 * 2 ^ (-53 : ℤ) * 6 + 2 ^ (-534 : ℤ) := by
  obtain ⟨d, hd⟩ := distance_some (placed 3 4 0) (placed 1 0 0)
  obtain ⟨i, hi⟩ := inverse_some (placed 3 4 0)
  obtain ⟨c, hc⟩ := GuideDouble.mul_some i (placed 1 0 0)
  obtain ⟨d', hd'⟩ := norm_some c.trans
  obtain ⟨j, hj⟩ := inverse_some (placed 1 0 0)
  obtain ⟨c', hc'⟩ := GuideDouble.mul_some (placed 3 4 0) j
  obtain ⟨d'', hd''⟩ := norm_some c'.trans
  have pa : ∀ i, IsDouble ((placed 3 4 0).trans i) := placed_double (by norm_num) (by norm_num) (by norm_num)
  have pb : ∀ i, IsDouble ((placed 1 0 0).trans i) := placed_double (by norm_num) (by norm_num) (by norm_num)
  have k1 := c121_inverse_composed pa pb isRotation_one (placed_turns 3 4 0) (by norm_num) hd ⟨i, c, hi, hc, hd'⟩
  have k2 := c121_composed pa pb isRotation_one (placed_turns 3 4 0) isRotation_one (placed_turns 1 0 0) (f := 0)
    (fun v => by rw [sub_self, eucNorm_zero, zero_mul]) (by norm_num) hd ⟨j, c', hj, hc', hd''⟩
  have e1 : eucNorm (realVec (placed 3 4 0).trans) = 5 := by
    rw [eucNorm, sqNorm_eq, Real.sqrt_eq_iff_mul_self_eq_of_pos (by norm_num)]
    simp [realVec, placed]; norm_num
  have e2 : eucNorm (realVec (placed 1 0 0).trans) = 1 := by
    rw [eucNorm, sqNorm_eq, Real.sqrt_eq_iff_mul_self_eq_of_pos (by norm_num)]
    simp [realVec, placed]
  rw [e1, e2, zero_mul, zero_add, show (5 : ℝ) + 1 = 6 by norm_num] at k1
  rw [e1, e2, mul_zero, add_zero, zero_mul, zero_add, show (5 : ℝ) + 1 = 6 by norm_num] at k2
  exact ⟨d, d', d'', hd, ⟨i, c, hi, hc, hd'⟩, ⟨j, c', hj, hc', hd''⟩, k1, k2⟩

/-- The pose at (1, 0, 0), turned by a quarter about the vertical axis. -/
def turned : Stored := ⟨!![0, -1, 0; 1, 0, 0; 0, 0, 1], ![1, 0, 0]⟩

/-- C121, for `se3_distance` the orientations do matter: two poses that are given from the same reference frame with the same translation, but with
orientations a quarter turn apart.  The distance is computed as zero; composing gives more than one (its exact value is the square root of two). -/
theorem c121_composed_fails : ∃ a b : Stored, (∀ i, IsDouble (a.trans i)) ∧ (∀ i, IsDouble (b.trans i)) ∧ IsRotation (realRot a.rot) ∧ IsRotation (realRot b.rot) ∧
    (∀ d, Distance a b d → d = 0) ∧ ∀ d, Composed a b d → 1 < d := by
  have hr : IsRotation (realRot turned.rot) := by
    constructor
    · ext i j
      fin_cases i <;> fin_cases j <;> simp [realRot, turned, Matrix.mul_apply, Fin.sum_univ_three]
    · rw [Matrix.det_fin_three]; simp [realRot, turned]
  have h1 : realRot (placed 1 0 0).rot = 1 := by
    ext i j
    fin_cases i <;> fin_cases j <;> simp [realRot, placed]
  have h0 : turned.trans = (placed 1 0 0).trans := by
    ext i
    fin_cases i <;> simp [turned, placed]
  have hd := placed_double (x := 1) (y := 0) (z := 0) (by norm_num) (by norm_num) (by norm_num)
  have self : ∀ A : M3, TurnsAlike 0 A A := fun A v => by rw [sub_self, eucNorm_zero, zero_mul]
  refine ⟨placed 1 0 0, turned, hd, by rw [h0]; exact hd, by rw [h1]; exact isRotation_one, hr, fun d h => ?_, fun d h => ?_⟩
  · exact (c121_zero hd (by rw [h0]; exact hd) h).1 h0.symm
  · obtain ⟨i, c, ⟨hi, ht⟩, ⟨-, hc⟩, hd⟩ := h
    have e1 := rotated_error (a := turned.rotᵀ) ht (SO3.isRotation_transpose hr) (self _)
    have e2 := applied_error hc isRotation_one (by rw [h1]; exact self _)
    have x1 : realRot turned.rotᵀ *ᵥ realVec (-turned.trans) = ![0, 1, 0] := by
      ext i
      fin_cases i <;> simp [realRot, realVec, turned, mulVec, dotProduct, Fin.sum_univ_three]
    have x2 : eucNorm (realVec (-turned.trans)) = 1 := by
      rw [eucNorm, sqNorm_eq, Real.sqrt_eq_iff_mul_self_eq_of_pos (by norm_num)]
      simp [realVec, turned]
    have x3 : realVec (placed 1 0 0).trans = ![1, 0, 0] := by
      ext i
      fin_cases i <;> simp [realVec, placed]
    have x4 : eucNorm ![1, 0, 0] = 1 := by simp [eucNorm, sqNorm_eq]
    rw [x1, x2] at e1
    rw [h1, one_mulVec, x3, x4] at e2
    have hU := U_pos; have hU1 := U_tiny.1; have hH := H_tiny; have hH0 := H_pos
    have n1 := LogDouble.eucNorm_le_add (realVec i.trans) ![0, 1, 0]
    have x5 : eucNorm ![0, 1, 0] = 1 := by simp [eucNorm, sqNorm_eq]
    rw [x5] at n1
    have a1 := (abs_entry_le _ 1).trans e1
    have a2 := (abs_entry_le _ 1).trans e2
    have a3 := (abs_entry_le _ 0).trans e1
    have a4 := (abs_entry_le _ 0).trans e2
    simp only [Pi.sub_apply, Pi.add_apply, Matrix.cons_val_zero, Matrix.cons_val_one] at a1 a2 a3 a4
    have b1 : eucNorm (realVec i.trans) ≤ 1.1 := by linarith
    have b2 := mul_le_mul_of_nonneg_left b1 hU.le
    have c1 : 0.9 ≤ realVec c.trans 1 := by
      have := (abs_le.mp a1).1; have := (abs_le.mp a2).1; linarith
    have c0 : 0.9 ≤ realVec c.trans 0 := by
      have := (abs_le.mp a3).1; have := (abs_le.mp a4).1; linarith
    have l : 1.2 ≤ eucNorm (realVec c.trans) := by
      refine Real.le_sqrt_of_sq_le ?_
      rw [sqNorm_eq]
      nlinarith [sq_nonneg (realVec c.trans 2)]
    have h3 := norm_err hd (le_trans ((zpow_le_one_of_nonpos₀ (by norm_num) (by norm_num)).trans (by norm_num)) l)
    have h4 := (abs_le.mp h3).1
    have h5 := mul_le_mul_of_nonneg_right hU1 (eucNorm_nonneg (realVec c.trans))
    have : (1 : ℝ) < d := by linarith
    exact_mod_cast this

end Verif.Props
