import Verif.Proofs.DCurveDouble
import Verif.Props.CurveExamples
/-! # C111: rounding errors of distance curves -/
namespace Verif.Props
open Verif.CurveExamples (zAxis)
open Verif.Spec Verif.TransformDouble Verif.ExpDouble Verif.LogDouble Verif.DCurveDouble Matrix SO3

theorem lens_nonneg {ps rels : List Stored} {lens : List ℚ} (hm : Made ps rels lens) : ∀ l ∈ lens, 0 ≤ l := by
  intro l hl
  obtain ⟨i, hi, rfl⟩ := List.getElem_of_mem hl
  obtain ⟨r, hr, e⟩ := hm.len i (by have := hm.lens_length; omega)
  rw [e]
  exact SampleIntervalDouble.round64_nonneg (len_nonneg hr)

/-- C111, distances: the distance at which the curve is said to reach a pose is near the length of the exact curve up to there.  `2e-28` stands for lengths
whose square underflows. -/
theorem c111_distances {δ B : ℝ} (hδ : δ ≤ 1e-5) (hB : 2 ^ (-1000 : ℤ) ≤ B) {ps rels : List Stored} {lens : List ℚ} {G : ℕ → Pose} {x : ℕ → Twist}
    (hm : Made ps rels lens) (hs : StoresPoses δ B ps G x) (hd : ∀ l ∈ lens, IsDouble l) (hn : lens.length ≤ 2 ^ 40) {as : List ℚ}
    (h : (DLengths.make (lens.map .num)).controls = as.map .num) (k : ℕ) (hk : k < as.length) :
    |(as[k] : ℝ) - distanceTo x k| ≤
      (1960 * δ + (30200 + 1.04 * k) * 2 ^ (-53 : ℤ)) * distanceTo x k + 1.01 * (k * ((43 * δ + 430 * 2 ^ (-53 : ℤ)) * B + 2e-28)) := by
  have hn' : (lens.length : ℝ) ≤ 2 ^ 40 := by exact_mod_cast hn
  have hU := U_pos
  have hU1 := U_tiny.1
  refine distances_near hδ hB hm hs hd ?_ h k hk
  have := mul_le_mul hn' hU1 hU.le (by positivity)
  norm_num at this ⊢
  linarith

/-- C111, points: whatever the compiler makes of the sums, the pose computed for the distance `y` is near the pose of the exact curve at a distance near `y`. -/
theorem c111_point {δ B D : ℝ} (hδ : δ ≤ 1e-5) (hB : 2 ^ (-1000 : ℤ) ≤ B) {ps rels : List Stored} {lens : List ℚ} {G : ℕ → Pose} {x : ℕ → Twist}
    (hm : Made ps rels lens) (hs : StoresPoses δ B ps G x) (hd : ∀ l ∈ lens, IsDouble l) {n : ℕ} (hps : ps.length = n + 1) (hn : n ≤ 2 ^ 40)
    (hD : ∀ i < n, eucNorm (x i).2 ≤ D) {as : List ℚ} (h : (DLengths.make (lens.map .num)).controls = as.map .num) {y : ℚ} (hy : IsDouble y)
    {g : Stored} (hg : PointAt ps rels lens y g) :
    ∃ s p, IsPoseAt G x n s p ∧
      |s - y| ≤ (2000 * δ + (30300 + 1.1 * n) * 2 ^ (-53 : ℤ)) * distanceTo x n + n * ((44 * δ + 440 * 2 ^ (-53 : ℤ)) * B + 3e-28) ∧
      TurnsAlike (330 * δ + 4800 * 2 ^ (-53 : ℤ)) (realRot g.rot) p.1 ∧
      eucNorm (realVec g.trans - p.2) ≤ (2700 * δ + 50000 * 2 ^ (-53 : ℤ)) * D + (51 * δ + 510 * 2 ^ (-53 : ℤ)) * B := by
  have hU := U_pos
  have hU1 := U_tiny.1
  have hB0 : 0 < B := lt_of_lt_of_le (by positivity) hB
  have hδ0 : 0 ≤ δ := turnsAlike_nonneg (hs.stores 0 (by omega)).rot
  have hll : lens.length = n := by have := hm.lens_length; omega
  have hls : ∀ l ∈ lens, IsDouble l ∧ 0 ≤ l := fun l hl => ⟨hd l hl, lens_nonneg hm l hl⟩
  obtain ⟨i, f, p, r, q, hq, hp, hr, hi, hmul⟩ := hg
  obtain ⟨hal, ha0, hmono, -⟩ := c98_lengths lens as hls h
  -- the query is in range
  have hok := (c98_answers (lens.map .num) (.num y)).1.mp ⟨_, hq⟩
  have hne : lens ≠ [] := by simpa using hok.1
  have hy0 : 0 ≤ y := by simpa [Double.le] using hok.2.1
  have hy1 : y ≤ as[lens.length] := by
    have h2 := hok.2.2
    unfold DLengths.curveLength at h2
    rw [h, List.getLast?_eq_getElem?, List.getElem?_map, List.length_map, List.getElem?_eq_getElem (by omega)] at h2
    simp only [Option.map_some, Double.le, decide_eq_true_eq] at h2
    simpa [hal] using h2
  have hpos : 0 < y ∨ 0 < lens[0]'(List.length_pos_iff.mpr hne) := by
    by_contra hno
    push Not at hno
    have e1 : y = 0 := le_antisymm hno.1 hy0
    have e2 : lens[0]'(List.length_pos_iff.mpr hne) = 0 := le_antisymm hno.2 (hls _ (List.getElem_mem _)).2
    obtain ⟨j, hj⟩ := (c98_nan lens as hls h hne hal y hy hy0 hy1).mpr ⟨e1, e2⟩
    rw [hq] at hj
    simp at hj
  obtain ⟨i', f', hi', hq', h1, h2, -, h3, f0, f1, fe, -, -⟩ := c98_fraction_partial lens as hls h hne hal y hy hy0 hy1 hpos
  rw [hq] at hq'
  simp only [Outcome.ok.injEq, Prod.mk.injEq, Double.num.injEq] at hq'
  obtain ⟨rfl, rfl⟩ := hq'
  have hin : i < n := by omega
  have hi1 : i + 1 < ps.length := by omega
  have f0' : (0 : ℝ) ≤ f := by exact_mod_cast f0
  have f1' : (f : ℝ) ≤ 1 := by exact_mod_cast f1
  -- the pose
  obtain ⟨c, hc, hr'⟩ := hm.rel i hi1
  rw [List.getElem?_eq_getElem (by omega), Option.some.injEq] at hp
  rw [List.getElem?_eq_getElem (by have := hm.rels_length; omega), Option.some.injEq] at hr
  subst hp hr
  obtain ⟨s1, s2⟩ := segment_near hδ hB (hs.stores i (by omega)) (hs.stores (i + 1) hi1) (hs.leads i hi1) (hs.turn i hi1) hc hr'
    (f := f) (by rw [abs_of_nonneg f0']; exact f1') hi hmul
  refine ⟨distanceTo x i + f * eucNorm (x i).2, SE3.mul (G i) (SE3.xexp ((f : ℝ) • x i)), ⟨i, hin, f, f0', f1', rfl, ?_⟩, ?_, s1, ?_⟩
  · change SE3.H _ = SE3.H _ * _
    rw [SE3.H_mul, SE3.H_xexp]
    congr 2
    exact se3Rep.hat_smul _ _
  · -- the distance
    have d1 := c111_distances hδ hB hm hs hd (by omega) h i (by omega)
    have d2 := c111_distances hδ hB hm hs hd (by omega) h (i + 1) (by omega)
    have hi2 : i + 1 < as.length := by omega
    have a0 : ∀ (k : ℕ) (hk : k < as.length), 0 ≤ as[k] := by
      intro k
      induction k with
      | zero => intro hk; rw [ha0]
      | succ k ih => intro hk; exact (ih (by omega)).trans (hmono k hk)
    have hd3 : (as[i] : ℝ) < as[i + 1] := by exact_mod_cast h3
    have hfe : |(f : ℝ) - (y - as[i]) / (as[i + 1] - as[i])| ≤ 8 * 2 ^ (-53 : ℤ) := by
      have h' : ((|f - (y - as[i]) / (as[i + 1] - as[i])| : ℚ) : ℝ) ≤ ((2 : ℚ) ^ (-50 : ℤ) : ℚ) := by exact_mod_cast fe
      rw [Rat.cast_abs, Rat.cast_sub, Rat.cast_div, Rat.cast_sub, Rat.cast_sub, Rat.cast_zpow, Rat.cast_ofNat] at h'
      exact h'.trans (by norm_num)
    have hn' : (n : ℝ) ≤ 2 ^ 40 := by exact_mod_cast hn
    have hnu : n * U ≤ 1e-3 := by
      have := mul_le_mul hn' hU1 hU.le (by positivity)
      norm_num at this ⊢
      linarith
    have := distance_near (by omega : i + 1 ≤ n) hδ0 hδ hB0 hU hU1 hnu f0' f1' (distanceTo_nonneg x i) (distanceTo_mono x (Nat.le_succ i))
      (distanceTo_mono x (by omega : i + 1 ≤ n)) (by exact_mod_cast a0 i (by omega)) hd3 d1 d2 hfe
    rw [distanceTo_succ, add_sub_cancel_left] at this
    exact this
  · refine s2.trans ?_
    have := mul_le_mul_of_nonneg_left (hD i hin) (by positivity : 0 ≤ 2700 * δ + 50000 * U)
    unfold U at this ⊢
    linarith

/-- C111, answers: a curve can be made from any stored poses, and if its lengths do not overflow, every distance from 0 to its length has a computed pose,
except that the distance 0 has none if the first two poses are at no distance. -/
theorem c111_computed (ps : List Stored) (hne : ps ≠ []) :
    (∃ rels lens, Made ps rels lens) ∧
    ∀ rels lens, Made ps rels lens → (∀ l ∈ lens, IsDouble l) → ∀ as : List ℚ, (DLengths.make (lens.map .num)).controls = as.map .num →
      ∀ y a, IsDouble y → as.getLast? = some a → ((∃ g, PointAt ps rels lens y g) ↔ 2 ≤ ps.length ∧ 0 ≤ y ∧ y ≤ a ∧ (0 < y ∨ lens[0]? ≠ some 0)) := by
  constructor
  · have h1 : ∀ p p' : Stored, ∃ (r : Stored) (l : ℚ), (∃ c, Inverse p c ∧ Mul c p' r) ∧ ∃ s, ArcLength r s ∧ l = SampleIntervalDouble.round64 s := by
      intro p p'
      obtain ⟨r, hr⟩ := c88_computed (.mul (.inv (.given p)) (.given p'))
      cases hr with
      | mul h1 h2 h3 =>
        cases h1 with
        | inv h4 h5 =>
          cases h4
          cases h2
          obtain ⟨s, hs⟩ := arcLength_some r
          exact ⟨r, _, ⟨_, h5, h3⟩, s, hs, rfl⟩
    choose R L h2 h3 using h1
    refine ⟨List.ofFn (n := ps.length - 1) fun i => R ps[i] ps[i.val + 1], List.ofFn (n := ps.length - 1) fun i => L ps[i] ps[i.val + 1], ?_, ?_, ?_, ?_⟩
    · have := List.length_pos_iff.mpr hne; rw [List.length_ofFn]; omega
    · have := List.length_pos_iff.mpr hne; rw [List.length_ofFn]; omega
    · intro i h
      rw [List.getElem_ofFn]
      exact h2 _ _
    · intro i h
      rw [List.getElem_ofFn, List.getElem_ofFn]
      exact h3 _ _
  · intro rels lens hm hd as h y a hy ha
    have hls : ∀ l ∈ lens, IsDouble l ∧ 0 ≤ l := fun l hl => ⟨hd l hl, lens_nonneg hm l hl⟩
    obtain ⟨hal, -⟩ := c98_lengths lens as hls h
    have hll := hm.lens_length
    have hrl := hm.rels_length
    have hlast : a = as[lens.length] := by
      rw [List.getLast?_eq_getElem?, List.getElem?_eq_getElem (by omega), Option.some.injEq] at ha
      rw [← ha]
      simp [hal]
    have hcl : DLengths.curveLength (DLengths.make (lens.map .num)) = .num a := by
      unfold DLengths.curveLength
      rw [h, List.getLast?_map, ha]
      rfl
    have hrange : ∀ {o}, DLengths.query (DLengths.make (lens.map .num)) (.num y) = .ok o → lens ≠ [] ∧ 0 ≤ y ∧ y ≤ a := by
      intro o hq
      have hok := (c98_answers (lens.map .num) (.num y)).1.mp ⟨_, hq⟩
      rw [hcl] at hok
      exact ⟨by simpa using hok.1, by simpa [Double.le] using hok.2.1, by simpa [Double.le] using hok.2.2⟩
    constructor
    · rintro ⟨g, i, f, p, r, q, hq, -⟩
      obtain ⟨h1, h2, h3⟩ := hrange hq
      have h0 := List.length_pos_iff.mpr h1
      refine ⟨by omega, h2, h3, ?_⟩
      by_contra hno
      push Not at hno
      have e1 : y = 0 := le_antisymm hno.1 h2
      have e2 : lens[0] = 0 := by have := hno.2; rwa [List.getElem?_eq_getElem h0, Option.some.injEq] at this
      obtain ⟨j, hj⟩ := (c98_nan lens as hls h h1 hal y hy h2 (hlast ▸ h3)).mpr ⟨e1, e2⟩
      rw [hq] at hj
      simp at hj
    · rintro ⟨h1, h2, h3, h4⟩
      have h0 : 0 < lens.length := by omega
      have hpos : 0 < y ∨ 0 < lens[0] := by
        refine h4.imp_right fun h5 => ?_
        rw [List.getElem?_eq_getElem h0, ne_eq, Option.some.injEq] at h5
        exact lt_of_le_of_ne (hls _ (List.getElem_mem _)).2 (Ne.symm h5)
      obtain ⟨i, f, hi, hq, -⟩ := c98_fraction_partial lens as hls h (List.length_pos_iff.mp h0) hal y hy h2 (hlast ▸ h3) hpos
      obtain ⟨q, hq'⟩ := interpSE3_some (rels[i]'(by omega)) f
      obtain ⟨g, hg⟩ := c88_computed (.mul (.given (ps[i]'(by omega))) (.given q))
      cases hg with
      | mul a1 a2 a3 =>
        cases a1
        cases a2
        exact ⟨g, i, f, _, _, q, hq, List.getElem?_eq_getElem (by omega), List.getElem?_eq_getElem (by omega), hq', a3⟩

theorem quarter_circle : SE3.xexp ((Real.pi / 2) • zAxis, ![Real.pi / 2, 0, 0]) = (!![0, -1, 0; 1, 0, 0; 0, 0, 1], ![1, 1, 0]) := by
  have n1 : eucNorm ((Real.pi / 2) • zAxis) = Real.pi / 2 := by rw [eucNorm_smul, zAxis_norm, mul_one, abs_of_pos Real.pi_div_two_pos]
  have hp := Real.pi_pos
  refine Prod.ext ?_ ?_
  · change SO3.exp _ = _
    rw [exp_z, Real.cos_pi_div_two, Real.sin_pi_div_two]
  · rw [SE3.xexp_cross]
    simp only [n1, Real.cos_pi_div_two, Real.sin_pi_div_two]
    ext i
    fin_cases i <;> (simp [cross_apply, zAxis]; try field_simp; try ring)

/-- The two poses of the example below, as stored and as meant. -/
theorem quarter_stored : StoresPoses 0 2 [⟨1, 0⟩, ⟨!![0, -1, 0; 1, 0, 0; 0, 0, 1], ![1, 1, 0]⟩]
    (fun i => if i = 0 then (1, 0) else (!![0, -1, 0; 1, 0, 0; 0, 0, 1], ![1, 1, 0])) (fun _ => ((Real.pi / 2) • zAxis, ![Real.pi / 2, 0, 0])) := by
  have hR : IsRotation (!![0, -1, 0; 1, 0, 0; 0, 0, 1] : M3) := by
    have := isRotation_exp ((Real.pi / 2) • zAxis)
    rwa [exp_z, Real.cos_pi_div_two, Real.sin_pi_div_two] at this
  have e1 : realRot 1 = 1 := by ext i j; fin_cases i <;> fin_cases j <;> simp [realRot]
  have e2 : realRot !![0, -1, 0; 1, 0, 0; 0, 0, 1] = !![0, -1, 0; 1, 0, 0; 0, 0, 1] := by ext i j; fin_cases i <;> fin_cases j <;> simp [realRot]
  have e3 : realVec 0 = 0 := by ext i; simp [realVec]
  have e4 : realVec ![1, 1, 0] = ![1, 1, 0] := by ext i; fin_cases i <;> simp [realVec]
  have n1 : eucNorm ((Real.pi / 2) • zAxis) = Real.pi / 2 := by
    rw [eucNorm_smul, zAxis_norm, mul_one, abs_of_pos Real.pi_div_two_pos]
  refine ⟨?_, ?_, ?_⟩
  · intro i h
    match i, h with
    | 0, _ => exact ⟨isRotation_one, by rw [if_pos rfl]; intro v; simp [e1, eucNorm_zero], by simp [eucNorm_zero], by simp [e3, eucNorm_zero]⟩
    | 1, _ =>
      refine ⟨hR, ?_, ?_, ?_⟩
      · intro v; simp [e2, eucNorm_zero]
      · change eucNorm ![1, 1, 0] ≤ 2
        rw [eucNorm, sqNorm_eq]
        refine Real.sqrt_le_iff.mpr ⟨by norm_num, ?_⟩
        simp
        norm_num
      · simp [e4, eucNorm_zero]
  · intro i h
    have hi : i = 0 := by simp at h; omega
    subst hi
    change SE3.H _ = SE3.H (1, 0) * _
    rw [show (1, 0) = SE3.one from rfl, SE3.H_one, one_mul]
    change SE3.H (!![0, -1, 0; 1, 0, 0; 0, 0, 1], ![1, 1, 0]) = _
    rw [← quarter_circle]
    exact SE3.H_xexp _
  · intro i h
    change eucNorm ((Real.pi / 2) • zAxis) ≤ _
    rw [n1]
    have hU1 := U_tiny.1
    unfold U at hU1
    have := Real.pi_gt_d4
    linarith

/-- A quarter of a circle from a pose at the origin, both poses stored exactly: a query at 3/4 is answered by a pose within 1e-9 of the exact curve at a
distance within 1e-9 of 3/4. -/
example : ∃ (rels : List Stored) (lens : List ℚ) (g : Stored) (s : ℝ) (p : Pose),
    Made [⟨1, 0⟩, ⟨!![0, -1, 0; 1, 0, 0; 0, 0, 1], ![1, 1, 0]⟩] rels lens ∧ PointAt [⟨1, 0⟩, ⟨!![0, -1, 0; 1, 0, 0; 0, 0, 1], ![1, 1, 0]⟩] rels lens (3 / 4) g ∧
    poseMatrix p = NormedSpace.exp (s • twistHat (zAxis, ![1, 0, 0])) ∧ |s - 3 / 4| ≤ 1e-9 ∧ TurnsAlike 1e-9 (realRot g.rot) p.1 ∧
    eucNorm (realVec g.trans - p.2) ≤ 1e-9 := by
  obtain ⟨⟨rels, lens, hm⟩, hans⟩ := c111_computed [⟨1, 0⟩, ⟨!![0, -1, 0; 1, 0, 0; 0, 0, 1], ![1, 1, 0]⟩] (by simp)
  have hll : lens.length = 1 := by have := hm.lens_length; simpa using this
  obtain ⟨l, rfl⟩ := List.length_eq_one_iff.mp hll
  have hpi := Real.pi_gt_d4
  have hpi' := Real.pi_lt_d4
  have hU1 := U_tiny.1
  have hB : (2 : ℝ) ^ (-1000 : ℤ) ≤ 2 := (zpow_le_zpow_right₀ (by norm_num) (by norm_num : (-1000 : ℤ) ≤ 1)).trans (by norm_num)
  have nV : eucNorm ![Real.pi / 2, 0, 0] = Real.pi / 2 := by
    rw [eucNorm, sqNorm_eq]
    simp [Real.sqrt_sq Real.pi_div_two_pos.le]
  have hlen : |(l : ℝ) - Real.pi / 2| ≤ 1e-11 := by
    obtain ⟨r, hr, e⟩ := hm.len 0 (by simp)
    obtain ⟨c, hc, hr'⟩ := hm.rel 0 (by simp)
    have := len_near (by norm_num) hB (quarter_stored.stores 0 (by simp)) (quarter_stored.stores 1 (by simp)) (quarter_stored.leads 0 (by simp))
      (quarter_stored.turn 0 (by simp)) hc hr' hr
    rw [← e] at this
    simp only [List.getElem_cons_zero, nV] at this
    refine this.trans ?_
    have : U * (Real.pi / 2) ≤ 1.2e-16 * 1.6 := mul_le_mul hU1 (by linarith) (by positivity) (by norm_num)
    linarith
  have hl := abs_le.mp hlen
  have l1 : (3 / 4 : ℚ) ≤ l := by
    have : ((3 / 4 : ℚ) : ℝ) ≤ l := by push_cast; linarith [hl.1]
    exact_mod_cast this
  have l2 : l ≤ 2 := by
    have : (l : ℝ) ≤ (2 : ℚ) := by push_cast; linarith [hl.2]
    exact_mod_cast this
  have hbig : |l| < 2 ^ 1024 := by
    rw [abs_of_nonneg (by linarith)]
    exact lt_of_le_of_lt l2 (lt_of_lt_of_le (by norm_num : (2 : ℚ) < 2 ^ 2) (pow_le_pow_right₀ (by norm_num) (by norm_num)))
  have hd : IsDouble l := by
    obtain ⟨r, -, e⟩ := hm.len 0 (by simp)
    change l = _ at e
    rw [e] at hbig ⊢
    exact SampleIntervalDouble.isDouble_round64 hbig
  have hds : ∀ k ∈ [l], IsDouble k := by simpa using hd
  have hc : (DLengths.make ([l].map .num)).controls = [0, l].map .num := by
    change [Double.num 0, Double.ofExact (0 + l)] = _
    unfold Double.ofExact
    rw [zero_add, SampleIntervalDouble.round64_double hd, if_pos hbig]
    rfl
  have h34 : IsDouble (3 / 4) := ⟨3, -2, by norm_num, by norm_num, by norm_num, by norm_num⟩
  obtain ⟨g, hg⟩ := (hans rels [l] hm hds [0, l] hc (3 / 4) l h34 rfl).mpr ⟨by simp, by norm_num, l1, .inl (by norm_num)⟩
  obtain ⟨s, p, ⟨i, hi, f, f0, f1, es, ep⟩, e1, e2, e3⟩ := c111_point (D := Real.pi / 2) (by norm_num) hB hm quarter_stored hds (n := 1) (by simp) (by norm_num)
    (fun i _ => nV.le) hc h34 hg
  have hi0 : i = 0 := by omega
  subst hi0
  have ed : distanceTo (fun _ => ((Real.pi / 2) • zAxis, ![Real.pi / 2, 0, 0])) 1 = Real.pi / 2 := by
    unfold distanceTo
    rw [Finset.sum_range_one, nV]
  have ed0 : distanceTo (fun _ => ((Real.pi / 2) • zAxis, ![Real.pi / 2, 0, 0])) 0 = 0 := by
    unfold distanceTo
    rw [Finset.sum_range_zero]
  rw [ed] at e1
  rw [ed0, nV, zero_add] at es
  unfold U at hU1
  have hUp : (2 : ℝ) ^ (-53 : ℤ) * (Real.pi / 2) ≤ 1.2e-16 * 1.6 := mul_le_mul hU1 (by linarith) (by positivity) (by norm_num)
  refine ⟨rels, [l], g, s, p, hm, hg, ?_, ?_, turnsAlike_mono e2 (by linarith), e3.trans (by linarith)⟩
  · rw [ep]
    change SE3.H (1, 0) * _ = _
    rw [show (1, 0) = SE3.one from rfl, SE3.H_one, one_mul, es]
    congr 1
    change f • twistHat ((Real.pi / 2) • zAxis, ![Real.pi / 2, 0, 0]) = _
    rw [mul_smul]
    congr 1
    rw [show ((Real.pi / 2) • zAxis, ![Real.pi / 2, 0, 0]) = (Real.pi / 2) • (zAxis, (![1, 0, 0] : V3)) by
      refine Prod.ext rfl ?_
      ext i; fin_cases i <;> simp]
    exact se3Rep.hat_smul _ _
  · have e : ((3 / 4 : ℚ) : ℝ) = 3 / 4 := by norm_num
    rw [e] at e1
    refine e1.trans ?_
    norm_num
    linarith

end Verif.Props
