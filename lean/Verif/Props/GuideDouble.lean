import Verif.Proofs.GuideDouble
import Verif.Props.ConstructDouble
/-! # C119: interpolation as in the Lie group guide, in doubles -/
namespace Verif.Props
open Verif.Spec hiding Jet
open Verif.TransformDouble Verif.ExpDouble Verif.LogDouble Verif.ApproxDouble Verif.ConstructDouble Verif.GuideDouble Matrix SO3

/-- C119, any two rotations less than half a turn apart: the computed rotation is near the first followed by that fraction of the turn that leads from
it to the second, as seen from the first. -/
theorem c119_between_any {A B : M3} {W : V3} (hA : IsRotation A) (hW : A.transpose * B = NormedSpace.exp (rotHat W)) {δ : ℝ} (hδ : δ ≤ 1e-6)
    (hp : eucNorm W ≤ Real.pi - (70 * δ + 700 * 2 ^ (-53 : ℤ))) {a b c : Matrix (Fin 3) (Fin 3) ℚ} (ha : TurnsAlike δ (realRot a) A) (hb : TurnsAlike δ (realRot b) B)
    {f : ℚ} (h0 : 0 ≤ f) (h1 : f ≤ 1) (h : Between a b f c) :
    TurnsAlike (70 * δ + 910 * 2 ^ (-53 : ℤ)) (realRot c) (A * NormedSpace.exp ((f : ℝ) • rotHat W)) := by
  have e : B = A * SO3.exp W := by
    rw [exp_of_rotHat] at hW
    rw [← hW, ← Matrix.mul_assoc, mul_eq_one_comm.mp hA.orth, one_mul]
  have e2 : (f : ℝ) • rotHat W = rotHat ((f : ℝ) • W) := by
    ext i j; fin_cases i <;> fin_cases j <;> simp [rotHat]
  rw [e] at hb
  rw [e2, exp_of_rotHat]
  have f0 : 0 ≤ (f : ℝ) := by exact_mod_cast h0
  exact between_any hA hδ ha hb hp (by rw [abs_of_nonneg f0]; exact_mod_cast h1) h

/-- Between a quarter turn about the z axis and that followed by one radian about the x axis of the body, half way. -/
example : ∃ a b c, FromAngleAxis 1 ![1, 0, 0] b ∧ MulRot !![0, -1, 0; 1, 0, 0; 0, 0, 1] b a ∧ Between !![0, -1, 0; 1, 0, 0; 0, 0, 1] a (1 / 2) c ∧
    TurnsAlike 2e-12 (realRot c) ((!![0, -1, 0; 1, 0, 0; 0, 0, 1] : M3) * NormedSpace.exp ((1 / 2 : ℝ) • rotHat ![1, 0, 0])) := by
  obtain ⟨b, hb⟩ := angleAxisMatrix_some 1 ![1, 0, 0]
  choose a ha using fun i j => Evaluates.some (!![0, -1, 0; 1, 0, 0; 0, 0, 1] i : Fin 3 → ℚ) (fun k => b k j) univ3
  obtain ⟨c, hc⟩ := between_some !![0, -1, 0; 1, 0, 0; 0, 0, 1] a (1 / 2)
  have er : realRot !![0, -1, 0; 1, 0, 0; 0, 0, 1] = !![0, -1, 0; 1, 0, 0; 0, 0, 1] := by
    ext i j; fin_cases i <;> fin_cases j <;> simp [realRot]
  have hA : IsRotation !![0, -1, 0; 1, 0, 0; 0, 0, 1] := by
    constructor
    · ext i j; fin_cases i <;> fin_cases j <;> simp [Matrix.mul_apply, Fin.sum_univ_three]
    · simp [det_fin_three]
  have t0 : TurnsAlike 0 (realRot !![0, -1, 0; 1, 0, 0; 0, 0, 1]) !![0, -1, 0; 1, 0, 0; 0, 0, 1] := fun v => by
    rw [er, sub_self, eucNorm_zero, zero_mul]
  have tb := axis_err hb (by simp [sqNorm_eq, realVec])
  rw [show ((1 : ℚ) : ℝ) • realVec ![1, 0, 0] = ![1, 0, 0] by ext i; fin_cases i <;> simp [realVec]] at tb
  have ta := mulRot_error ha hA (isRotation_exp _) t0 tb
  have hU := U_pos; have hU1 := U_tiny.1
  have tol := mul_tol (a := 0) (b := 99 * U) le_rfl (by positivity) (by norm_num) (by linarith)
  have ta := turnsAlike_mono ta (tol.trans (show _ ≤ 110 * U by linarith))
  have p1 := Real.pi_gt_d4
  have := c119_between_any hA (B := !![0, -1, 0; 1, 0, 0; 0, 0, 1] * SO3.exp ![1, 0, 0]) (W := ![1, 0, 0])
    (by rw [exp_of_rotHat, ← Matrix.mul_assoc, hA.orth, one_mul]) (δ := 110 * U) (by linarith)
    (by rw [show eucNorm ![1, 0, 0] = 1 by simp [eucNorm, sqNorm_eq]]; change 1 ≤ Real.pi - (70 * (110 * U) + 700 * U); linarith)
    (turnsAlike_mono t0 (by positivity)) ta (by norm_num) (by norm_num) hc
  rw [show (((1 / 2 : ℚ)) : ℝ) = 1 / 2 by norm_num] at this
  exact ⟨a, b, c, hb, ha, hc, turnsAlike_mono this (show 70 * (110 * U) + 910 * U ≤ 2e-12 by linarith)⟩

/-- C119, two rotations about one axis: a fraction of the way from the first to the second is computed near the rotation about that axis by the angle at that
fraction of the shorter way.  The angles need not lie in any range; the difference must not be half a turn to within 1e-12. -/
theorem c119_between {α β f : ℚ} {axis : Fin 3 → ℚ} {N : V3} (hN : N ⬝ᵥ N = 1) (hn : ∀ i, |(axis i : ℝ) - N i| ≤ 3.6 * 2 ^ (-53 : ℤ))
    {a b c : Matrix (Fin 3) (Fin 3) ℚ} (ha : FromAngleAxis α axis a) (hb : FromAngleAxis β axis b) {D : ℝ} {k : ℤ} (hD : (β : ℝ) = α + D + 2 * Real.pi * k)
    (hp : |D| ≤ Real.pi - 1e-12) (h0 : 0 ≤ f) (h1 : f ≤ 1) (h : Between a b f c) :
    TurnsAlike (7800 * 2 ^ (-53 : ℤ)) (realRot c) (NormedSpace.exp (rotHat (((α : ℝ) + f * D) • N))) := by
  rw [exp_of_rotHat]
  have f0 : 0 ≤ (f : ℝ) := by exact_mod_cast h0
  exact between_near hN hn ha hb hD hp (by rw [abs_of_nonneg f0]; exact_mod_cast h1) h

/-- C119, two rotations about one axis: the result is reported as approximately equal to the rotation made from the angle. -/
theorem c119_between_approx {α β γ f : ℚ} {axis : Fin 3 → ℚ} {N : V3} (hN : N ⬝ᵥ N = 1) (hn : ∀ i, |(axis i : ℝ) - N i| ≤ 3.6 * 2 ^ (-53 : ℤ))
    {a b c d : Matrix (Fin 3) (Fin 3) ℚ} (ha : FromAngleAxis α axis a) (hb : FromAngleAxis β axis b) {D : ℝ} {k j : ℤ}
    (hD : (β : ℝ) = α + D + 2 * Real.pi * k) (hp : |D| ≤ Real.pi - 1e-12) (h0 : 0 ≤ f) (h1 : f ≤ 1) (h : Between a b f c) (hd : FromAngleAxis γ axis d)
    (hγ : |(γ : ℝ) - (α + f * D + 2 * Real.pi * j)| ≤ 5e-14) {r : Bool} (hr : RotationApprox c d r) : r = true := by
  have f0 : 0 ≤ (f : ℝ) := by exact_mod_cast h0
  exact between_agrees hN hn ha hb hD hp (by rw [abs_of_nonneg f0]; exact_mod_cast h1) h hd hγ hr

/-- C119, across half a turn, as in the guide: half way from an angle to its negative is half a turn, not the identity. -/
theorem c119_half_turn {α γ : ℚ} {w axis : Fin 3 → ℚ} (hw : (2 : ℝ) ^ (-500 : ℤ) ≤ eucNorm (realVec w)) (hn : Normalized w axis)
    (h1 : Real.pi / 2 + 1e-12 ≤ α) (h2 : α ≤ 3 * Real.pi / 2 - 1e-12) (hγ : |(γ : ℝ) - Real.pi| ≤ 5e-14) {a b c d : Matrix (Fin 3) (Fin 3) ℚ}
    (ha : FromAngleAxis α axis a) (hb : FromAngleAxis (-α) axis b) (h : Between a b (1 / 2) c) (hd : FromAngleAxis γ axis d) {r : Bool}
    (hr : RotationApprox c d r) : r = true := by
  have hp := two_500_pos.trans_le hw
  have n1 : ((eucNorm (realVec w))⁻¹ • realVec w) ⬝ᵥ ((eucNorm (realVec w))⁻¹ • realVec w) = 1 := by
    rw [smul_dotProduct, dotProduct_smul, smul_smul, show realVec w ⬝ᵥ realVec w = eucNorm (realVec w) ^ 2 from (eucNorm_sq _).symm, smul_eq_mul]
    field_simp
  refine c119_between_approx (α := α) (β := -α) (f := 1 / 2) (D := 2 * Real.pi - 2 * α) (k := -1) (j := 0) n1 (fun i => ?_) ha hb ?_ ?_ (by norm_num) (by norm_num)
    h hd ?_ hr
  · have := normalized_err hn hw i
    rw [Pi.smul_apply, smul_eq_mul, inv_mul_eq_div]
    exact this
  · push_cast; ring
  · rw [abs_le]; constructor <;> linarith
  · push_cast
    rw [show (α : ℝ) + 1 / 2 * (2 * Real.pi - 2 * α) + 2 * Real.pi * 0 = Real.pi by ring]
    exact hγ

/-- The angle of the guide, up to its last digits, and its axis. -/
example {n : Fin 3 → ℚ} {a b c d : Matrix (Fin 3) (Fin 3) ℚ} (hn : Normalized ![1, 2, 3] n) (ha : FromAngleAxis 3.131592653589793 n a)
    (hb : FromAngleAxis (-3.131592653589793) n b) (h : Between a b (1 / 2) c) (hd : FromAngleAxis 3.14159265358979311 n d) {r : Bool} (hr : RotationApprox c d r) :
    r = true := by
  have p1 := Real.pi_gt_d20
  have p2 := Real.pi_lt_d20
  refine c119_half_turn ?_ hn ?_ ?_ ?_ ha hb h hd hr
  · have e : realVec ![1, 2, 3] = ![1, 2, 3] := by ext i; fin_cases i <;> simp [realVec]
    rw [e]
    refine (zpow_le_one_of_nonpos₀ (by norm_num) (by norm_num)).trans ?_
    rw [eucNorm, Real.one_le_sqrt, sqNorm_eq]
    norm_num [Matrix.cons_val_two]
  · push_cast; norm_num; linarith
  · push_cast; norm_num; linarith
  · push_cast; rw [abs_le]; constructor <;> linarith

/-- A quarter of the way from one radian to six about the z axis: the shorter way leads backwards through zero. -/
example : ∃ a b c, FromAngleAxis 1 ![0, 0, 1] a ∧ FromAngleAxis 6 ![0, 0, 1] b ∧ Between a b (1 / 4) c ∧
    TurnsAlike (7800 * 2 ^ (-53 : ℤ)) (realRot c) (NormedSpace.exp (rotHat ((9 / 4 - Real.pi / 2) • ![0, 0, 1]))) := by
  obtain ⟨a, ha⟩ := angleAxisMatrix_some 1 ![0, 0, 1]
  obtain ⟨b, hb⟩ := angleAxisMatrix_some 6 ![0, 0, 1]
  obtain ⟨c, hc⟩ := between_some a b (1 / 4)
  refine ⟨a, b, c, ha, hb, hc, ?_⟩
  have p1 := Real.pi_gt_d4
  have p2 := Real.pi_lt_d4
  have := c119_between (D := 5 - 2 * Real.pi) (k := 1) (N := ![0, 0, 1]) (by simp [dotProduct, Fin.sum_univ_three]) (fun i => by
    have : (0 : ℝ) ≤ 3.6 * 2 ^ (-53 : ℤ) := by positivity
    fin_cases i <;> simpa using this) ha hb (by push_cast; ring) (by rw [abs_le]; constructor <;> linarith) (by norm_num) (by norm_num) hc
  convert this using 5
  push_cast
  ring

/-- The same, compared with the rotation made from that angle. -/
example {a b c d : Matrix (Fin 3) (Fin 3) ℚ} (ha : FromAngleAxis 1 ![0, 0, 1] a) (hb : FromAngleAxis 2 ![0, 0, 1] b) (hc : Between a b (1 / 4) c)
    (hd : FromAngleAxis 1.25 ![0, 0, 1] d) {r : Bool} (hr : RotationApprox c d r) : r = true := by
  have p1 := Real.pi_gt_d4
  exact c119_between_approx (D := 1) (k := 0) (j := 0) (N := ![0, 0, 1]) (by simp [dotProduct, Fin.sum_univ_three]) (fun i => by
    have : (0 : ℝ) ≤ 3.6 * 2 ^ (-53 : ℤ) := by positivity
    fin_cases i <;> simpa using this) ha hb (by push_cast; ring) (by rw [abs_one]; linarith) (by norm_num) (by norm_num) hc hd (by norm_num) hr

/-- C119, two parts: a transform interpolated by a fraction and by the rest, composed, is reported as approximately equal to the transform, half turns
included. -/
theorem c119_parts {g c : Stored} {R : M3} {δ : ℝ} (hR : IsRotation R) (hm : TurnsAlike δ (realRot g.rot) R) (hδ : δ ≤ 4e-14)
    (ht : g.trans = 0 ∨ 1e-147 ≤ eucNorm (realVec g.trans)) {f : ℚ} (h0 : 0 ≤ f) (h1 : f ≤ 1) (h : Parts g f c) {r : Bool} (hr : TransformApprox g c r) :
    r = true := by
  obtain ⟨w, v, p, q, hl, hp, hq, hc⟩ := h
  obtain ⟨r1, r2, r3⟩ := rest_ok h0 h1
  exact parts_agree hR hm hδ ht (by exact_mod_cast h0) (by exact_mod_cast h1) r1 r2 r3 hl hp hq hc hr

/-- C119, two halves: the assertion of the guide. -/
theorem c119_halves {g c : Stored} {R : M3} {δ : ℝ} (hR : IsRotation R) (hm : TurnsAlike δ (realRot g.rot) R) (hδ : δ ≤ 4e-14)
    (ht : g.trans = 0 ∨ 1e-147 ≤ eucNorm (realVec g.trans)) (h : Twice g (1 / 2) c) {r : Bool} (hr : TransformApprox g c r) : r = true := by
  obtain ⟨p, ⟨w, v, hl, hp⟩, hc⟩ := h
  have hU := U_pos
  have e : (((1 / 2 : ℚ)) : ℝ) = 1 / 2 := by norm_num
  exact parts_agree hR hm hδ ht (f := 1 / 2) (f' := 1 / 2) (by rw [e]; norm_num) (by rw [e]; norm_num) (by rw [e]; norm_num) (by rw [e]; norm_num)
    (by rw [e, show (1 : ℝ) / 2 + 1 / 2 - 1 = 0 by norm_num, abs_zero]; linarith) hl hp hp hc hr

/-- The transform of the guide: three angles, translation (1, 2, 3). -/
example {a b c ab abc : Matrix (Fin 3) (Fin 3) ℚ} (ha : FromAngleAxis (1 / 10) ![1, 0, 0] a) (hb : FromAngleAxis (1 / 2) ![0, 1, 0] b)
    (hc : FromAngleAxis 0.785 ![0, 0, 1] c) (hab : MulRot a b ab) (habc : MulRot ab c abc) :
    ∃ x, Twice ⟨abc, ![1, 2, 3]⟩ (1 / 2) x ∧ ∀ r, TransformApprox ⟨abc, ![1, 2, 3]⟩ x r → r = true := by
  obtain ⟨x, hx⟩ := twice_some ⟨abc, ![1, 2, 3]⟩ (1 / 2)
  refine ⟨x, hx, fun r hr => ?_⟩
  refine c119_halves (isRotation_mul (isRotation_mul (isRotation_exp _) (isRotation_exp _)) (isRotation_exp _)) (c118_euler ha hb hc hab habc)
    (by have := U_tiny.1; unfold U at this; linarith) (Or.inr ?_) hx hr
  have e : realVec ![1, 2, 3] = ![1, 2, 3] := by ext i; fin_cases i <;> simp [realVec]
  rw [e]
  refine le_trans (by norm_num : (1e-147 : ℝ) ≤ 1) ?_
  rw [eucNorm, Real.one_le_sqrt, sqNorm_eq]
  norm_num [Matrix.cons_val_two]

/-- A half turn, stored exactly, cut at a third. -/
example : ∃ x, Parts ⟨!![1, 0, 0; 0, -1, 0; 0, 0, -1], ![0, 0, 5]⟩ (1 / 3) x ∧
    ∀ r, TransformApprox ⟨!![1, 0, 0; 0, -1, 0; 0, 0, -1], ![0, 0, 5]⟩ x r → r = true := by
  obtain ⟨x, hx⟩ := parts_some ⟨!![1, 0, 0; 0, -1, 0; 0, 0, -1], ![0, 0, 5]⟩ (1 / 3)
  refine ⟨x, hx, fun r hr => ?_⟩
  have hR : IsRotation (realRot !![1, 0, 0; 0, -1, 0; 0, 0, -1]) := by
    have e : realRot !![1, 0, 0; 0, -1, 0; 0, 0, -1] = !![1, 0, 0; 0, -1, 0; 0, 0, -1] := by
      ext i j; fin_cases i <;> fin_cases j <;> simp [realRot]
    rw [e]
    constructor
    · ext i j; fin_cases i <;> fin_cases j <;> simp [Matrix.mul_apply, Fin.sum_univ_three]
    · simp [det_fin_three]
  refine c119_parts (δ := 0) hR (fun v => by rw [sub_self, eucNorm_zero, zero_mul]) (by norm_num) (Or.inr ?_) (by norm_num) (by norm_num) hx hr
  have e : realVec ![0, 0, 5] = ![0, 0, 5] := by ext i; fin_cases i <;> simp [realVec]
  rw [e]
  refine le_trans (by norm_num : (1e-147 : ℝ) ≤ 1) ?_
  rw [eucNorm, Real.one_le_sqrt, sqNorm_eq]
  norm_num [Matrix.cons_val_two]

/-- C119, there is always a result. -/
theorem c119_computed (a b : Matrix (Fin 3) (Fin 3) ℚ) (g : Stored) (f : ℚ) : (∃ c, Between a b f c) ∧ (∃ c, Twice g f c) ∧ ∃ c, Parts g f c :=
  ⟨between_some a b f, twice_some g f, parts_some g f⟩

example : ∃ c, Twice ⟨1, ![1, 2, 3]⟩ (1 / 2) c := (c119_computed 1 1 _ _).2.1

end Verif.Props
