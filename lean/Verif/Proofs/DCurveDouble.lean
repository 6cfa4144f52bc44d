import Verif.Spec.DCurveDouble
import Verif.Model.DCurveDouble
import Verif.Props.LogDouble
import Verif.Props.TransformDouble
import Verif.Props.CurveDouble
/-! # Distance curves in doubles: lemmas -/
namespace Verif.DCurveDouble
open Verif.Spec Verif.TransformDouble Verif.ExpDouble Verif.LogDouble Verif.Props Matrix SO3

/-- Composing stored poses whose errors are known separately. -/
theorem mul_near {a b c : Stored} {A B : Pose} (hA : IsRotation A.1) (hB : IsRotation B.1) {ea eb ta tb : ℝ}
    (ha : TurnsAlike ea (realRot a.rot) A.1) (hb : TurnsAlike eb (realRot b.rot) B.1) (hta : eucNorm (realVec a.trans - A.2) ≤ ta)
    (htb : eucNorm (realVec b.trans - B.2) ≤ tb) (h : Mul a b c) :
    TurnsAlike ((1 + ea) * (1 + eb) * (1 + 10 * U) - 1) (realRot c.rot) (SE3.mul A B).1 ∧
    eucNorm (realVec c.trans - (SE3.mul A B).2) ≤
      8.002 * U * ((1 + ea) * (eucNorm B.2 + tb) + (eucNorm A.2 + ta)) + 1250 * H + (ea * (eucNorm B.2 + tb) + (tb + ta)) := by
  have hU := U_pos
  have hea := turnsAlike_nonneg ha
  refine ⟨mulRot_error h.1 hA hB ha hb, ?_⟩
  have h1 := applied_error h.2 hA ha
  have n1 := (eucNorm_le_add (realVec a.trans) A.2).trans (add_le_add hta le_rfl)
  have n2 := (eucNorm_le_add (realVec b.trans) B.2).trans (add_le_add htb le_rfl)
  have h2 := ha (realVec b.trans)
  have e : realVec c.trans - (SE3.mul A B).2 =
      (realVec c.trans - (realRot a.rot *ᵥ realVec b.trans + realVec a.trans)) +
      ((realRot a.rot *ᵥ realVec b.trans - A.1 *ᵥ realVec b.trans) + (A.1 *ᵥ (realVec b.trans - B.2) + (realVec a.trans - A.2))) := by
    rw [mulVec_sub]
    change _ - (A.1 *ᵥ B.2 + A.2) = _
    abel
  rw [e]
  have h3 : eucNorm (A.1 *ᵥ (realVec b.trans - B.2)) ≤ tb := by rw [eucNorm_mulVec hA]; exact htb
  have i1 : (1 + ea) * eucNorm (realVec b.trans) ≤ (1 + ea) * (eucNorm B.2 + tb) := mul_le_mul_of_nonneg_left (by linarith) (by linarith)
  have i2 : ea * eucNorm (realVec b.trans) ≤ ea * (eucNorm B.2 + tb) := mul_le_mul_of_nonneg_left (by linarith) hea
  have i3 : 8.002 * U * ((1 + ea) * eucNorm (realVec b.trans) + eucNorm (realVec a.trans)) ≤
      8.002 * U * ((1 + ea) * (eucNorm B.2 + tb) + (eucNorm A.2 + ta)) := mul_le_mul_of_nonneg_left (by linarith) (by linarith)
  refine (eucNorm_add_le _ _).trans ((add_le_add h1 ((eucNorm_add_le _ _).trans (add_le_add h2 (eucNorm_add_le _ _)))).trans ?_)
  linarith

/-- The transform from one pose to the next. -/
theorem rel_near {δ B : ℝ} (hδ : δ ≤ 1e-5) (hB : 2 ^ (-1000 : ℤ) ≤ B) {p p' c r : Stored} {G G' : Pose} {x : Twist}
    (h : StoresPose δ B p G) (h' : StoresPose δ B p' G') (hx : poseMatrix G' = poseMatrix G * NormedSpace.exp (twistHat x))
    (hc : Inverse p c) (hr : Mul c p' r) :
    TurnsAlike (2.04 * δ + 20.4 * U) (realRot r.rot) (SO3.exp x.1) ∧
    eucNorm (realVec r.trans - (SE3.xexp x).2) ≤ 6.12 * (δ + 10 * U) * B := by
  have hU := U_pos
  have hU1 := U_tiny.1
  have hδ0 : 0 ≤ δ := turnsAlike_nonneg h.rot
  have hB0 : 0 < B := lt_of_lt_of_le (by positivity) hB
  have he : SameExpr δ B (.mul (.inv (.given p)) (.given p')) (.mul (.inv (.given G)) (.given G')) := .mul (.inv (.given h)) (.given h')
  obtain ⟨-, -, h3, h4⟩ := c88_expression hδ0 hB he (.mul (.inv (.given p) hc) (.given p') hr)
  have l2 := c88_linear hδ0 2 (by unfold U at hU1; norm_num at hU1 hδ ⊢; linarith)
  have l3 := c88_linear hδ0 3 (by unfold U at hU1; norm_num at hU1 hδ ⊢; linarith)
  have eG : G' = SE3.mul G (SE3.xexp x) := SE3.H_injective (by
    rw [SE3.H_mul, SE3.H_xexp]; exact hx)
  have ex : (exactly (.mul (.inv (.given G)) (.given G'))) = SE3.xexp x := by
    have : exactly (.mul (.inv (.given G)) (.given G')) = SE3.mul (SE3.inv G) G' := by
      simp [exactly, SE3.mul, SE3.inv, SO3.mul, SO3.inv, SO3.act, mulVec_neg]
    rw [this, eG]
    have hv : PoseValid G := h.rotation
    have l1 : SE3.mul (SE3.mul (SE3.inv G) G) (SE3.xexp x) = SE3.mul (SE3.inv G) (SE3.mul G (SE3.xexp x)) := se3Laws.mul_assoc _ _ _
    have l2 : SE3.mul (SE3.inv G) G = SE3.one := se3Laws.inv_mul hv
    have l3 : SE3.mul SE3.one (SE3.xexp x) = SE3.xexp x := se3Laws.one_mul _
    rw [← l1, l2, l3]
  rw [ex] at h3 h4
  have hc2 : count (Expr.mul (.inv (.given G)) (.given G')) = 2 := rfl
  have he3 : errors (Expr.mul (.inv (.given G)) (.given G')) = 3 := rfl
  rw [hc2] at h3
  rw [hc2, he3] at h4
  refine ⟨turnsAlike_mono h3 (by unfold U; linarith), h4.trans ?_⟩
  have : (2 : ℝ) * B * (growth δ 3 - 1) ≤ 2 * B * (1.02 * (3 * (δ + 10 * 2 ^ (-53 : ℤ)))) := mul_le_mul_of_nonneg_left (by exact_mod_cast l3) (by linarith)
  unfold U
  push_cast
  linarith

/-- The pose at a fraction of the way from one pose to the next. -/
theorem segment_near {δ B : ℝ} (hδ : δ ≤ 1e-5) (hB : 2 ^ (-1000 : ℤ) ≤ B) {p p' c r q g : Stored} {G G' : Pose} {x : Twist}
    (h : StoresPose δ B p G) (h' : StoresPose δ B p' G') (hx : poseMatrix G' = poseMatrix G * NormedSpace.exp (twistHat x))
    (hW : eucNorm x.1 ≤ Real.pi - (330 * δ + 4300 * 2 ^ (-53 : ℤ))) (hc : Inverse p c) (hr : Mul c p' r) {f : ℚ} (hf : |(f : ℝ)| ≤ 1)
    (hq : InterpSE3 r f q) (hg : Mul p q g) :
    TurnsAlike (330 * δ + 4800 * U) (realRot g.rot) (SE3.mul G (SE3.xexp ((f : ℝ) • x))).1 ∧
    eucNorm (realVec g.trans - (SE3.mul G (SE3.xexp ((f : ℝ) • x))).2) ≤
      (2700 * δ + 50000 * U) * eucNorm x.2 + (51 * δ + 510 * U) * B := by
  have hU := U_pos
  have hU1 := U_tiny.1
  have hδ0 : 0 ≤ δ := turnsAlike_nonneg h.rot
  have hB0 : 0 < B := lt_of_lt_of_le (by positivity) hB
  have hH := H_small hB
  have hH0 := H_pos
  obtain ⟨W, V⟩ := x
  obtain ⟨r1, r2⟩ := rel_near hδ hB h h' hx hc hr
  change eucNorm W ≤ Real.pi - (330 * δ + 4300 * U) at hW
  obtain ⟨i1, i2⟩ := interpSE3_near (W := W) r1 (by norm_num at hδ ⊢; linarith) r2 (by linarith) hf hq
  change _ ∧ _ ≤ (2700 * δ + 50000 * U) * eucNorm V + _
  have hV := eucNorm_nonneg V
  have hR : IsRotation (SE3.xexp ((f : ℝ) • (W, V))).1 := isRotation_exp _
  obtain ⟨m1, m2⟩ := mul_near h.rotation hR h.rot i1 h.trans i2 hg
  have n1 : eucNorm (SE3.xexp ((f : ℝ) • (W, V))).2 ≤ eucNorm V := by
    refine (SE3.xexp_norm _).trans ?_
    change eucNorm ((f : ℝ) • V) ≤ _
    rw [eucNorm_smul]
    exact mul_le_of_le_one_left hV hf
  have n2 := h.bound
  constructor
  · refine turnsAlike_mono m1 ?_
    norm_num at hδ hU1
    nlinarith [mul_nonneg hδ0 hU.le, mul_nonneg hδ0 hδ0, mul_pos hU hU, mul_nonneg (mul_nonneg hδ0 hδ0) hU.le, mul_nonneg hδ0 (mul_pos hU hU).le]
  · refine m2.trans ?_
    set n := eucNorm (SE3.xexp ((f : ℝ) • (W, V))).2
    set v := eucNorm V
    have a1 : δ * v ≤ 1e-5 * v := mul_le_mul_of_nonneg_right hδ hV
    have a2 : δ * B ≤ 1e-5 * B := mul_le_mul_of_nonneg_right hδ hB0.le
    have a3 : U * v ≤ 1.2e-16 * v := mul_le_mul_of_nonneg_right hU1 hV
    have a4 : U * B ≤ 1.2e-16 * B := mul_le_mul_of_nonneg_right hU1 hB0.le
    obtain ⟨t, ht⟩ : ∃ t, t = (1300 * (2.04 * δ + 20.4 * U) + 23000 * U) * v + 8 * (6.12 * (δ + 10 * U) * B) + 1200 * H := ⟨_, rfl⟩
    rw [← ht]
    have t1 : t ≤ 0.03 * v + 0.001 * B := by rw [ht]; linarith only [a1, a2, a3, a4, hH, hH0, hV, hB0]
    have t2 : 0 ≤ n + t := by
      have t0 : 0 ≤ t := (eucNorm_nonneg _).trans (i2.trans ht.ge)
      have := eucNorm_nonneg (SE3.xexp ((f : ℝ) • (W, V))).2
      linarith
    have t3 : (1 + δ) * (n + t) + (eucNorm G.2 + δ * B) ≤ 1.04 * v + 1.01 * B := by
      have : (1 + δ) * (n + t) ≤ (1 + 1e-5) * (1.03 * v + 0.001 * B) :=
        mul_le_mul (by linarith) (by linarith) t2 (by norm_num)
      linarith only [this, n2, a2, hV, hB0]
    have t4 : 8.002 * U * ((1 + δ) * (n + t) + (eucNorm G.2 + δ * B)) ≤ 8.002 * U * (1.04 * v + 1.01 * B) :=
      mul_le_mul_of_nonneg_left t3 (by linarith)
    have t5 : δ * (n + t) ≤ δ * (1.03 * v + 0.001 * B) := mul_le_mul_of_nonneg_left (by linarith) hδ0
    have p1 := mul_nonneg hδ0 hV
    have p2 := mul_nonneg hδ0 hB0.le
    have p3 := mul_nonneg hU.le hV
    have p4 := mul_nonneg hU.le hB0.le
    linarith only [t4, t5, ht, hH, p1, p2, p3, p4]

/-- The computed length of a segment is not negative. -/
theorem len_nonneg {r : Stored} {l : ℚ} (h : ArcLength r l) : 0 ≤ l := by
  obtain ⟨w, v, -, q, -, hl⟩ := h
  have h0 := Real.sqrt_nonneg (q : ℝ)
  have h1 := (abs_le.mp (hl : |(l : ℝ) - Real.sqrt q| ≤ 2 ^ (-53 : ℤ) * Real.sqrt q)).1
  have hU1 := U_tiny.1
  unfold U at hU1
  have h2 : (2 : ℝ) ^ (-53 : ℤ) * Real.sqrt q ≤ 1 * Real.sqrt q := mul_le_mul_of_nonneg_right (hU1.trans (by norm_num)) h0
  have : (0 : ℝ) ≤ l := by linarith
  exact_mod_cast this

/-- The computed length of a segment. -/
theorem len_near {δ B : ℝ} (hδ : δ ≤ 1e-5) (hB : 2 ^ (-1000 : ℤ) ≤ B) {p p' c r : Stored} {G G' : Pose} {x : Twist}
    (h : StoresPose δ B p G) (h' : StoresPose δ B p' G') (hx : poseMatrix G' = poseMatrix G * NormedSpace.exp (twistHat x))
    (hW : eucNorm x.1 ≤ Real.pi - (330 * δ + 4300 * 2 ^ (-53 : ℤ))) (hc : Inverse p c) (hr : Mul c p' r) {l : ℚ} (hl : ArcLength r l) :
    |((SampleIntervalDouble.round64 l : ℚ) : ℝ) - eucNorm x.2| ≤ (1960 * δ + 30200 * U) * eucNorm x.2 + ((43 * δ + 430 * U) * B + 2e-28) := by
  have hU := U_pos
  have hU1 := U_tiny.1
  have hδ0 : 0 ≤ δ := turnsAlike_nonneg h.rot
  have hB0 : 0 < B := lt_of_lt_of_le (by positivity) hB
  have hH := H_small hB
  have hH0 := H_pos
  obtain ⟨W, V⟩ := x
  obtain ⟨r1, r2⟩ := rel_near hδ hB h h' hx hc hr
  change eucNorm W ≤ Real.pi - (330 * δ + 4300 * U) at hW
  have i1 := arcLength_near (W := W) r1 (by norm_num at hδ ⊢; linarith) r2 (by linarith) hl
  have i2 := rnd l
  have l0 : (0 : ℝ) ≤ l := by exact_mod_cast len_nonneg hl
  rw [abs_of_nonneg l0] at i2
  change |_ - eucNorm V| ≤ (1960 * δ + 30200 * U) * eucNorm V + _
  have hV := eucNorm_nonneg V
  set v := eucNorm V
  have a1 : δ * v ≤ 1e-5 * v := mul_le_mul_of_nonneg_right hδ hV
  have a2 : δ * B ≤ 1e-5 * B := mul_le_mul_of_nonneg_right hδ hB0.le
  have a3 : U * v ≤ 1.2e-16 * v := mul_le_mul_of_nonneg_right hU1 hV
  have a4 : U * B ≤ 1.2e-16 * B := mul_le_mul_of_nonneg_right hU1 hB0.le
  have b1 : (l : ℝ) ≤ 1.1 * v + 0.01 * B + 1e-28 := by
    have := (abs_le.mp i1).2
    linarith only [this, a1, a2, a3, a4, hV, hB0]
  have b2 : U * l ≤ U * (1.1 * v + 0.01 * B + 1e-28) := mul_le_mul_of_nonneg_left b1 hU.le
  have p1 := mul_nonneg hδ0 hV
  have p2 := mul_nonneg hδ0 hB0.le
  have p3 := mul_nonneg hU.le hV
  have p4 := mul_nonneg hU.le hB0.le
  have e : ((SampleIntervalDouble.round64 l : ℚ) : ℝ) - v = (((SampleIntervalDouble.round64 l : ℚ) : ℝ) - l) + (l - v) := by ring
  rw [e]
  refine (abs_add_le _ _).trans ((add_le_add i2 i1).trans ?_)
  linarith only [b2, hH, p1, p2, p3, p4, hU1, hU]

theorem distanceTo_succ (x : ℕ → Twist) (k : ℕ) : distanceTo x (k + 1) = distanceTo x k + eucNorm (x k).2 := by
  unfold distanceTo; rw [Finset.sum_range_succ]

theorem distanceTo_nonneg (x : ℕ → Twist) (k : ℕ) : 0 ≤ distanceTo x k := Finset.sum_nonneg fun _ _ => eucNorm_nonneg _

theorem distanceTo_mono (x : ℕ → Twist) {j k : ℕ} (h : j ≤ k) : distanceTo x j ≤ distanceTo x k :=
  Finset.sum_le_sum_of_subset_of_nonneg (Finset.range_mono h) fun _ _ _ => eucNorm_nonneg _

theorem sum_near {lens : List ℚ} {x : ℕ → Twist} {α β : ℝ}
    (h : ∀ (i : ℕ) (_ : i < lens.length), |(lens[i] : ℝ) - eucNorm (x i).2| ≤ α * eucNorm (x i).2 + β) (k : ℕ) (hk : k ≤ lens.length) :
    |(((lens.take k).sum : ℚ) : ℝ) - distanceTo x k| ≤ α * distanceTo x k + k * β := by
  induction k with
  | zero => simp [distanceTo]
  | succ k ih =>
    have h1 := ih (by omega)
    have h2 := h k (by omega)
    rw [List.sum_take_succ _ _ (by omega), distanceTo_succ]
    rw [Rat.cast_add, Nat.cast_succ]
    have e : (((lens.take k).sum : ℚ) : ℝ) + (lens[k]'(by omega) : ℝ) - (distanceTo x k + eucNorm (x k).2) =
        ((((lens.take k).sum : ℚ) : ℝ) - distanceTo x k) + ((lens[k]'(by omega) : ℝ) - eucNorm (x k).2) := by ring
    rw [e]
    refine (abs_add_le _ _).trans ((add_le_add h1 h2).trans (le_of_eq ?_))
    ring

theorem pow_near {k : ℕ} (hk : k * U ≤ 1e-3) : (1 + U) ^ k - 1 ≤ 1.01 * (k * U) := by
  have hU := U_pos
  have h1 : (1 + U) ^ k ≤ Real.exp (k * U) := by
    rw [Real.exp_nat_mul]
    exact pow_le_pow_left₀ (by linarith) (by linarith [Real.add_one_le_exp U]) k
  have h0 : 0 ≤ k * U := by positivity
  have h2 := Real.abs_exp_sub_one_sub_id_le (x := k * U) (by rw [abs_of_nonneg h0]; norm_num at hk ⊢; linarith)
  have h3 := (abs_le.mp h2).2
  have h4 : (k * U) ^ 2 ≤ 1e-3 * (k * U) := by rw [sq]; exact mul_le_mul_of_nonneg_right hk h0
  norm_num at h4 ⊢
  linarith

/-- The computed distances of the poses along the curve. -/
theorem distances_near {δ B : ℝ} (hδ : δ ≤ 1e-5) (hB : 2 ^ (-1000 : ℤ) ≤ B) {ps rels : List Stored} {lens : List ℚ} {G : ℕ → Pose} {x : ℕ → Twist}
    (hm : Made ps rels lens) (hs : StoresPoses δ B ps G x) (hd : ∀ l ∈ lens, IsDouble l) (hn : lens.length * U ≤ 1e-3) {as : List ℚ}
    (h : (DLengths.make (lens.map .num)).controls = as.map .num) (k : ℕ) (hk : k < as.length) :
    |(as[k] : ℝ) - distanceTo x k| ≤
      (1960 * δ + (30200 + 1.04 * k) * U) * distanceTo x k + 1.01 * (k * ((43 * δ + 430 * U) * B + 2e-28)) := by
  have hU := U_pos
  have hU1 := U_tiny.1
  have hB0 : 0 < B := lt_of_lt_of_le (by positivity) hB
  have hpl : 0 < ps.length := by have := hm.lens_length; omega
  have hδ0 : 0 ≤ δ := turnsAlike_nonneg (hs.stores 0 hpl).rot
  have hls : ∀ l ∈ lens, IsDouble l ∧ 0 ≤ l := by
    intro l hl
    refine ⟨hd l hl, ?_⟩
    obtain ⟨i, hi, rfl⟩ := List.getElem_of_mem hl
    obtain ⟨r, hr, e⟩ := hm.len i (by have := hm.lens_length; omega)
    rw [e]
    exact SampleIntervalDouble.round64_nonneg (len_nonneg hr)
  have hsum : ∀ (i : ℕ) (_ : i < lens.length), |(lens[i] : ℝ) - eucNorm (x i).2| ≤
      (1960 * δ + 30200 * U) * eucNorm (x i).2 + ((43 * δ + 430 * U) * B + 2e-28) := by
    intro i hi
    have hi' : i + 1 < ps.length := by have := hm.lens_length; omega
    obtain ⟨r, hr, e⟩ := hm.len i hi'
    obtain ⟨c, hc, hr'⟩ := hm.rel i hi'
    rw [e]
    exact len_near hδ hB (hs.stores i (by omega)) (hs.stores (i + 1) hi') (hs.leads i hi') (hs.turn i hi') hc hr' hr
  obtain ⟨hl, -, -, he⟩ := c98_lengths lens as hls h
  have hk' : k ≤ lens.length := by omega
  have h1 := sum_near hsum k hk'
  have h2 : |(as[k] : ℝ) - (((lens.take k).sum : ℚ) : ℝ)| ≤ ((1 + U) ^ k - 1) * (((lens.take k).sum : ℚ) : ℝ) := by
    have := he k hk
    have h' : ((|as[k] - (lens.take k).sum| : ℚ) : ℝ) ≤ (((1 + 2 ^ (-53 : ℤ)) ^ k - 1) * (lens.take k).sum : ℚ) := by exact_mod_cast this
    rw [Rat.cast_abs, Rat.cast_sub, Rat.cast_mul, Rat.cast_sub, Rat.cast_pow, Rat.cast_add, Rat.cast_one, Rat.cast_zpow, Rat.cast_ofNat] at h'
    exact h'
  have hkn : (k : ℝ) ≤ lens.length := by exact_mod_cast hk'
  have hkU : k * U ≤ 1e-3 := (mul_le_mul_of_nonneg_right hkn hU.le).trans hn
  have h3 := pow_near hkU
  have hk0 : (0 : ℝ) ≤ k * U := by positivity
  have hL := distanceTo_nonneg x k
  obtain ⟨β, hβ⟩ : ∃ β, β = (43 * δ + 430 * U) * B + 2e-28 := ⟨_, rfl⟩
  rw [← hβ] at h1 ⊢
  have hβ0 : 0 ≤ β := by rw [hβ]; positivity
  set L := distanceTo x k
  set S := (((lens.take k).sum : ℚ) : ℝ)
  have hS0 : 0 ≤ S := by
    have : 0 ≤ (lens.take k).sum := List.sum_nonneg fun l hl => (hls l (List.mem_of_mem_take hl)).2
    exact Rat.cast_nonneg.mpr this
  have b1 : (1960 * δ + 30200 * U) * L ≤ 0.0197 * L := mul_le_mul_of_nonneg_right (by linarith) hL
  have b2 : S ≤ 1.02 * L + k * β := by have := (abs_le.mp h1).2; linarith
  have b3 : ((1 + U) ^ k - 1) * S ≤ 1.01 * (k * U) * (1.02 * L + k * β) := mul_le_mul h3 b2 hS0 (by positivity)
  have b4 : (k * U) * (k * β) ≤ 1e-3 * (k * β) := mul_le_mul_of_nonneg_right hkU (by positivity)
  have e : (as[k] : ℝ) - L = (as[k] - S) + (S - L) := by ring
  have b5 : 0 ≤ (k * U) * L := by positivity
  have b6 : 0 ≤ k * β := by positivity
  rw [e]
  refine (abs_add_le _ _).trans ((add_le_add h2 h1).trans ?_)
  linarith only [b3, b4, b5, b6]

theorem convex_near {f a b y la lb E e : ℝ} (f0 : 0 ≤ f) (f1 : f ≤ 1) (ha : |a - la| ≤ E) (hb : |b - lb| ≤ E) (hab : a < b)
    (hf : |f - (y - a) / (b - a)| ≤ e) : |la + f * (lb - la) - y| ≤ E + e * (b - a) := by
  have hd : 0 < b - a := by linarith
  have e1 : la + f * (lb - la) - y = -((1 - f) * (a - la)) + -(f * (b - lb)) + (f - (y - a) / (b - a)) * (b - a) := by
    field_simp
    ring
  have h1 : |(1 - f) * (a - la)| ≤ (1 - f) * E := by
    rw [abs_mul, abs_of_nonneg (by linarith : (0 : ℝ) ≤ 1 - f)]
    exact mul_le_mul_of_nonneg_left ha (by linarith)
  have h2 : |f * (b - lb)| ≤ f * E := by
    rw [abs_mul, abs_of_nonneg f0]
    exact mul_le_mul_of_nonneg_left hb f0
  have h3 : |(f - (y - a) / (b - a)) * (b - a)| ≤ e * (b - a) := by
    rw [abs_mul, abs_of_pos hd]
    exact mul_le_mul_of_nonneg_right hf hd.le
  rw [e1]
  refine (abs_add_le _ _).trans ((add_le_add (abs_add_le _ _) h3).trans ?_)
  rw [abs_neg, abs_neg]
  linarith

/-- The error of a distance between two poses from those at the poses. -/
theorem distance_near {n k : ℕ} (hk : k + 1 ≤ n) {δ B u f a b y la lb L : ℝ} (hδ0 : 0 ≤ δ) (hδ : δ ≤ 1e-5) (hB : 0 < B) (hu : 0 < u) (hu1 : u ≤ 1.2e-16)
    (hn : n * u ≤ 1e-3) (f0 : 0 ≤ f) (f1 : f ≤ 1) (hla : 0 ≤ la) (hlb : la ≤ lb) (hL : lb ≤ L) (ha0 : 0 ≤ a) (hab : a < b)
    (ha : |a - la| ≤ (1960 * δ + (30200 + 1.04 * (k : ℕ)) * u) * la + 1.01 * ((k : ℕ) * ((43 * δ + 430 * u) * B + 2e-28)))
    (hb : |b - lb| ≤ (1960 * δ + (30200 + 1.04 * (k + 1 : ℕ)) * u) * lb + 1.01 * ((k + 1 : ℕ) * ((43 * δ + 430 * u) * B + 2e-28)))
    (hf : |f - (y - a) / (b - a)| ≤ 8 * u) :
    |la + f * (lb - la) - y| ≤ (2000 * δ + (30300 + 1.1 * n) * u) * L + n * ((44 * δ + 440 * u) * B + 3e-28) := by
  obtain ⟨β, hβ⟩ : ∃ β, β = (43 * δ + 430 * u) * B + 2e-28 := ⟨_, rfl⟩
  rw [← hβ] at ha hb
  have hβ0 : 0 ≤ β := by rw [hβ]; positivity
  have hkn : ((k + 1 : ℕ) : ℝ) ≤ n := by exact_mod_cast hk
  have hkn' : (k : ℝ) ≤ n := by exact_mod_cast (Nat.le_of_succ_le hk)
  have hL0 : 0 ≤ L := by linarith
  have n0 : (0 : ℝ) ≤ n := Nat.cast_nonneg _
  have mono : ∀ {j : ℕ} {l : ℝ}, (j : ℝ) ≤ n → 0 ≤ l → l ≤ L →
      (1960 * δ + (30200 + 1.04 * (j : ℝ)) * u) * l + 1.01 * ((j : ℝ) * β) ≤ (1960 * δ + (30200 + 1.04 * n) * u) * L + 1.01 * (n * β) := by
    intro j l hj h0 hl
    have a1 : (1960 * δ + (30200 + 1.04 * (j : ℝ)) * u) ≤ (1960 * δ + (30200 + 1.04 * n) * u) := by
      have := mul_le_mul_of_nonneg_right hj hu.le
      linarith
    have a2 := mul_le_mul a1 hl h0 (by positivity)
    have a3 := mul_le_mul_of_nonneg_right hj hβ0
    linarith
  have ha' := ha.trans (mono hkn' hla (hlb.trans hL))
  have hb' := hb.trans (mono hkn (hla.trans hlb) hL)
  have h := convex_near f0 f1 ha' hb' hab hf
  refine h.trans ?_
  have c0 : (1960 * δ + (30200 + 1.04 * n) * u) * L ≤ 0.03 * L := mul_le_mul_of_nonneg_right (by linarith) hL0
  have c1 : b - a ≤ 1.03 * L + 1.01 * (n * β) := by
    have := (abs_le.mp hb').2
    linarith
  have c2 : 8 * u * (b - a) ≤ 8 * u * (1.03 * L + 1.01 * (n * β)) := mul_le_mul_of_nonneg_left c1 (by positivity)
  have c3 : u * (n * β) ≤ 1.2e-16 * (n * β) := mul_le_mul_of_nonneg_right hu1 (by positivity)
  have c4 : n * β = n * (43 * (δ * B) + 430 * (u * B) + 2e-28) := by rw [hβ]; ring
  have p1 : 0 ≤ δ * L := by positivity
  have p2 : 0 ≤ u * L := by positivity
  have p3 : 0 ≤ n * (δ * B) := by positivity
  have p4 : 0 ≤ n * (u * B) := by positivity
  have p5 : 0 ≤ n * u * L := by positivity
  linarith only [c2, c3, c4, p1, p2, p3, p4, p5, n0]

end Verif.DCurveDouble
