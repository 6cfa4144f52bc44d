import Verif.Proofs.TCurveDouble
/-! # Time curves in doubles: the units of time -/
namespace Verif.TCurveDouble
open Verif.Spec Verif.TransformDouble Verif.ExpDouble Verif.LogDouble Verif.SampleIntervalDouble Verif.Props Verif.DCurveDouble Matrix SO3

/-- A vector times a factor that is itself rounded. -/
theorem rate_vec {k : ℚ} {K n s m : ℝ} {x y : Fin 3 → ℚ} {X : V3} (hK : 0 < K) (hk : |(k : ℝ) - K| ≤ n * U * K) (hn : n ≤ 8)
    (hx : eucNorm (realVec x - X) ≤ s) (hm : eucNorm X ≤ m) (h : ∀ i, y i = round64 (k * x i)) :
    eucNorm (realVec y - K • X) ≤ K * s + (n + 2.001) * U * (K * (m + s)) + 2 * H := by
  have hU := U_pos
  have hU1 := U_tiny.1
  have h1 := scale_vec hk (abs_of_pos hK).le hx ((norm_near (realVec x) X).trans (add_le_add hm hx)) h
  have s0 := (eucNorm_nonneg _).trans hx
  have m0 := (eucNorm_nonneg _).trans hm
  have p1 : 0 ≤ U * (K * (m + s)) := by positivity
  have p2 : 2 * (n * U) * (U * (K * (m + s))) ≤ 0.001 * (U * (K * (m + s))) := by
    refine mul_le_mul_of_nonneg_right ?_ p1
    have : n * U ≤ 8 * U := mul_le_mul_of_nonneg_right hn hU.le
    linarith
  refine h1.trans ?_
  have e : n * U * K * (m + s) + K * s + 2 * (U * ((K + n * U * K) * (m + s)) + H) =
    K * s + (n + 2) * (U * (K * (m + s))) + 2 * (n * U) * (U * (K * (m + s))) + 2 * H := by ring
  rw [e]
  linarith

/-- Once. -/
theorem rate_once {k : ℚ} {K n S M : ℝ} {x y : Fin 3 → ℚ} {X : V3} (hK : 0 < K) (hk : |(k : ℝ) - K| ≤ n * U * K) (hn : n ≤ 8) (hn0 : 0 ≤ n)
    (hx : K * eucNorm (realVec x - X) ≤ S) (hm : K * eucNorm X ≤ M) (h : ∀ i, y i = round64 (k * x i)) :
    eucNorm (realVec y - K • X) ≤ S + (n + 2.001) * U * (M + S) + 2 * H := by
  have hU := U_pos
  refine (rate_vec hK hk hn le_rfl le_rfl h).trans ?_
  have : (n + 2.001) * U * (K * (eucNorm X + eucNorm (realVec x - X))) ≤ (n + 2.001) * U * (M + S) :=
    mul_le_mul_of_nonneg_left (by rw [mul_add]; linarith) (by positivity)
  linarith

/-- Twice. -/
theorem rate_twice {k : ℚ} {K n S M : ℝ} {x y z : Fin 3 → ℚ} {X : V3} (hK : 0 < K) (hk : |(k : ℝ) - K| ≤ n * U * K) (hn : n ≤ 8) (hn0 : 0 ≤ n)
    (hx : K ^ 2 * eucNorm (realVec x - X) ≤ S) (hm : K ^ 2 * eucNorm X ≤ M) (h : ∀ i, y i = round64 (k * x i)) (h' : ∀ i, z i = round64 (k * y i)) :
    eucNorm (realVec z - K ^ 2 • X) ≤ S + (n + 2.001) * U * (2.001 * M + 2.001 * S + 2 * (H * K)) + 2 * (H * K) + 2 * H := by
  have hU := U_pos
  have hU1 := U_tiny.1
  have hH := H_pos
  have S0 : 0 ≤ S := (mul_nonneg (by positivity) (eucNorm_nonneg _)).trans hx
  have M0 : 0 ≤ M := (mul_nonneg (by positivity) (eucNorm_nonneg _)).trans hm
  have h1 := rate_vec (X := X) hK hk hn le_rfl le_rfl h
  have q1 : K * eucNorm (realVec y - K • X) ≤ S + (n + 2.001) * U * (M + S) + 2 * (H * K) := by
    have := mul_le_mul_of_nonneg_left h1 hK.le
    refine this.trans ?_
    have e : K * (K * eucNorm (realVec x - X) + (n + 2.001) * U * (K * (eucNorm X + eucNorm (realVec x - X))) + 2 * H) =
      K ^ 2 * eucNorm (realVec x - X) + (n + 2.001) * U * (K ^ 2 * eucNorm X + K ^ 2 * eucNorm (realVec x - X)) + 2 * (H * K) := by ring
    rw [e]
    have := mul_le_mul_of_nonneg_left (add_le_add hm hx) (show 0 ≤ (n + 2.001) * U by positivity)
    linarith
  have q2 : K * eucNorm (K • X) ≤ M := by
    rw [eucNorm_smul, abs_of_pos hK, ← mul_assoc, ← sq]; exact hm
  have h2 := rate_once hK hk hn hn0 q1 q2 h'
  rw [smul_smul, ← sq] at h2
  refine h2.trans ?_
  have c0 : 0 ≤ (n + 2.001) * U := by positivity
  have c1 : (n + 2.001) * U ≤ 0.001 / 2 := by
    have := mul_le_mul_of_nonneg_right (show n + 2.001 ≤ 11 by linarith) hU.le
    linarith
  have c2 : (n + 2.001) * U * ((n + 2.001) * U * (M + S)) ≤ (n + 2.001) * U * (0.001 / 2 * (M + S)) :=
    mul_le_mul_of_nonneg_left (mul_le_mul_of_nonneg_right c1 (by linarith)) c0
  have c3 : 0 ≤ (n + 2.001) * U * (M + S) := mul_nonneg c0 (by linarith)
  linarith only [c2, c3]


/-- What underflows is small. -/
theorem underflow {B T : ℝ} (hB : 2 ^ (-800 : ℤ) ≤ B) (hT : 0 < T) (hT1 : T ≤ 2 ^ (100 : ℤ)) :
    H ≤ 1e-6 * (U * B) ∧ H * T ≤ 1e-6 * (U * B) ∧ H * T ^ 2 ≤ 1e-6 * (U * B) := by
  have hU := U_pos
  have hH := H_pos
  have e : H * 2 ^ (200 : ℤ) ≤ 1e-6 * (U * 2 ^ (-800 : ℤ)) := by
    have e1 : H * 2 ^ (200 : ℤ) = 2 ^ (-22 : ℤ) * (U * 2 ^ (-800 : ℤ)) := by
      unfold H U
      rw [← zpow_add₀ (by norm_num), ← zpow_add₀ (by norm_num), ← zpow_add₀ (by norm_num)]
      norm_num
    rw [e1]
    refine mul_le_mul_of_nonneg_right (by norm_num) (by positivity)
  have e2 : 1e-6 * (U * 2 ^ (-800 : ℤ)) ≤ 1e-6 * (U * B) := mul_le_mul_of_nonneg_left (mul_le_mul_of_nonneg_left hB hU.le) (by norm_num)
  have o1 : (1 : ℝ) ≤ 2 ^ (100 : ℤ) := one_le_zpow₀ (by norm_num) (by norm_num)
  have o2 : (2 : ℝ) ^ (200 : ℤ) = 2 ^ (100 : ℤ) * 2 ^ (100 : ℤ) := by rw [← zpow_add₀ (by norm_num)]; norm_num
  set P : ℝ := 2 ^ (100 : ℤ)
  have o3 : P ≤ P * P := le_mul_of_one_le_left (by linarith) o1
  rw [o2] at e
  have f : ∀ y, y ≤ P * P → H * y ≤ 1e-6 * (U * B) := fun y hy => (mul_le_mul_of_nonneg_left hy hH.le).trans (e.trans e2)
  refine ⟨?_, f _ (hT1.trans o3), f _ ?_⟩
  · have := f 1 (by linarith)
    rwa [mul_one] at this
  · rw [sq]
    exact mul_le_mul hT1 hT1 hT.le (by linarith)

/-- A control point in the units of a segment. -/
theorem control_near {δ B T : ℝ} (hδ0 : 0 ≤ δ) (hδ : δ ≤ 9e-11) (hB : 2 ^ (-800 : ℤ) ≤ B) (hT : 0 < T) (hT1 : T ≤ 2 ^ (100 : ℤ)) {k : ℚ} (hk : |(k : ℝ) - T| ≤ 2 * U * T)
    {j o : Jet} {J : Pose × Twist × Twist} (hp : StoresPose δ B j.g J.1) (hv : StoresRate δ B T j.d J.2.1) (ha : StoresRate δ B (T ^ 2) j.d2 J.2.2)
    (h : Rescaled k j o) : StoresJet (δ + 81 * U) B o (inUnits T J) := by
  have hU := U_pos
  have hU1 := U_tiny.1
  have hB0 : 0 < B := lt_of_lt_of_le (by positivity) hB
  have hH := H_pos
  obtain ⟨u1, u2, -⟩ := underflow hB hT hT1
  obtain ⟨w1, w2, -⟩ := underflow (B := 1) (zpow_le_one_of_nonpos₀ (by norm_num) (by norm_num)) hT hT1
  obtain ⟨e, h1, y, h2, h3⟩ := h
  have p1 := mul_nonneg hδ0 hB0.le
  have p2 := mul_nonneg hU.le hB0.le
  have p3 := mul_nonneg hU.le hδ0
  have p4 : U * (δ * B) ≤ 1e-6 * (U * B) := by
    have : U * (δ * B) = δ * (U * B) := by ring
    rw [this]
    exact mul_le_mul_of_nonneg_right (hδ.trans (by norm_num)) p2
  have p5 : U * δ ≤ 1e-6 * U := by
    rw [mul_comm]
    exact mul_le_mul_of_nonneg_right (hδ.trans (by norm_num)) hU.le
  have p6 : U * (H * T) ≤ 1e-6 * (U * B) := by
    have := mul_le_mul_of_nonneg_right (show U ≤ 1 by linarith) (mul_nonneg hH.le hT.le)
    linarith
  have p7 : U * (H * T) ≤ 1e-6 * U := by
    have := mul_le_mul_of_nonneg_right (show U ≤ 1 by linarith) (mul_nonneg hH.le hT.le)
    linarith
  refine ⟨⟨hp.rotation, ?_, hp.bound, ?_⟩, ⟨?_, ?_, ?_, ?_⟩, ⟨?_, ?_, ?_, ?_⟩⟩
  · rw [e]; exact turnsAlike_mono hp.rot (by linarith)
  · rw [e]; exact hp.trans.trans (mul_le_mul_of_nonneg_right (by linarith) hB0.le)
  · change eucNorm (T • J.2.1.1) ≤ _
    rw [eucNorm_smul, abs_of_pos hT]; exact hv.turn
  · change eucNorm (T • J.2.1.2) ≤ _
    rw [eucNorm_smul, abs_of_pos hT]; exact hv.bound
  · refine (rate_once hT hk (by norm_num) (by norm_num) hv.rot hv.turn h1.1).trans ?_
    linarith only [p5, w1, hU, hδ0]
  · refine (rate_once hT hk (by norm_num) (by norm_num) hv.trans hv.bound h1.2).trans ?_
    linarith only [p4, u1, p2, p1]
  · change eucNorm (T ^ 2 • J.2.2.1) ≤ _
    rw [eucNorm_smul, abs_of_pos (by positivity)]; exact ha.turn
  · change eucNorm (T ^ 2 • J.2.2.2) ≤ _
    rw [eucNorm_smul, abs_of_pos (by positivity)]; exact ha.bound
  · refine (rate_twice hT hk (by norm_num) (by norm_num) ha.rot ha.turn h2.1 h3.1).trans ?_
    linarith only [p5, p7, w1, w2, hU, hδ0]
  · refine (rate_twice hT hk (by norm_num) (by norm_num) ha.trans ha.bound h2.2 h3.2).trans ?_
    linarith only [p4, p6, u1, u2, p2, p1]

theorem back_once {ε b T e p e' : ℝ} (hε : 90 * U ≤ ε) (hε1 : ε ≤ 1e-9) (hb : 0 < b) (hT : 0 < T) (hH : H * T ≤ 1e-6 * (U * b)) {k : ℚ}
    (hk : |(k : ℝ) - 1 / T| ≤ 8 * U * (1 / T)) {x y : Fin 3 → ℚ} {X : V3} (hx : eucNorm (realVec x - X) ≤ e * ε * b) (hX : eucNorm X ≤ p * b) (he : e ≤ 1e6)
    (h : ∀ i, y i = round64 (k * x i)) (he' : e + 0.12 * (p + 0.001) + 1e-6 ≤ e') :
    eucNorm (realVec y - (1 / T) • X) ≤ e' * ε * b / T := by
  have hU := U_pos
  have hε0 : 0 < ε := by linarith
  have h1 := rate_vec (one_div_pos.mpr hT) hk le_rfl hx hX h
  have p0 : 0 ≤ p + 0.001 := by
    have := nonneg_of_mul_nonneg_left ((eucNorm_nonneg _).trans hX) hb
    linarith
  refine h1.trans ?_
  rw [le_div_iff₀ hT]
  have e1 : (1 / T * (e * ε * b) + (8 + 2.001) * U * (1 / T * (p * b + e * ε * b)) + 2 * H) * T =
      e * (ε * b) + (8 + 2.001) * U * ((p + e * ε) * b) + 2 * (H * T) := by
    field_simp
  rw [e1]
  have q1 : e * ε ≤ 0.001 := by
    have := mul_le_mul_of_nonneg_right he hε0.le
    linarith
  have q2 : (p + e * ε) * b ≤ (p + 0.001) * b := mul_le_mul_of_nonneg_right (by linarith) hb.le
  have q3 : (8 + 2.001) * U * ((p + e * ε) * b) ≤ 0.12 * ε * ((p + 0.001) * b) :=
    (mul_le_mul_of_nonneg_left q2 (by linarith)).trans (mul_le_mul_of_nonneg_right (by linarith) (mul_nonneg p0 hb.le))
  have q4 : U * b ≤ ε / 90 * b := mul_le_mul_of_nonneg_right (by linarith) hb.le
  have q5 : (e + 0.12 * (p + 0.001) + 1e-6) * (ε * b) ≤ e' * (ε * b) := mul_le_mul_of_nonneg_right he' (mul_pos hε0 hb).le
  have q6 := mul_pos hε0 hb
  linarith only [q3, q4, q5, hH, q6]

theorem back_twice {ε b T e p e' : ℝ} (hε : 90 * U ≤ ε) (hε1 : ε ≤ 1e-9) (hb : 0 < b) (hT : 0 < T) (hH : H * T ≤ 1e-6 * (U * b))
    (hH2 : H * T ^ 2 ≤ 1e-6 * (U * b)) {k : ℚ}
    (hk : |(k : ℝ) - 1 / T| ≤ 8 * U * (1 / T)) {x y z : Fin 3 → ℚ} {X : V3} (hx : eucNorm (realVec x - X) ≤ e * ε * b) (hX : eucNorm X ≤ p * b) (he : e ≤ 1e6)
    (h : ∀ i, y i = round64 (k * x i)) (h' : ∀ i, z i = round64 (k * y i)) (he' : e + 0.25 * (p + 0.001) + 1e-6 ≤ e') :
    eucNorm (realVec z - (1 / T) ^ 2 • X) ≤ e' * ε * b / T ^ 2 := by
  have hU := U_pos
  have hU1 := U_tiny.1
  have hε0 : 0 < ε := by linarith
  have hK : 0 < 1 / T := one_div_pos.mpr hT
  have h1 := rate_twice hK hk le_rfl (by norm_num) (mul_le_mul_of_nonneg_left hx (sq_nonneg (1 / T))) (mul_le_mul_of_nonneg_left hX (sq_nonneg (1 / T))) h h'
  have p0 : 0 ≤ p + 0.001 := by
    have := nonneg_of_mul_nonneg_left ((eucNorm_nonneg _).trans hX) hb
    linarith
  refine h1.trans ?_
  rw [le_div_iff₀ (by positivity)]
  have e1 : ((1 / T) ^ 2 * (e * ε * b) + (8 + 2.001) * U * (2.001 * ((1 / T) ^ 2 * (p * b)) + 2.001 * ((1 / T) ^ 2 * (e * ε * b)) + 2 * (H * (1 / T))) +
      2 * (H * (1 / T)) + 2 * H) * T ^ 2 =
      e * (ε * b) + (8 + 2.001) * 2.001 * U * ((p + e * ε) * b) + (8 + 2.001) * 2 * (U * (H * T)) + 2 * (H * T) + 2 * (H * T ^ 2) := by
    field_simp
    ring
  rw [e1]
  have q1 : e * ε ≤ 0.001 := by
    have := mul_le_mul_of_nonneg_right he hε0.le
    linarith
  have q2 : (p + e * ε) * b ≤ (p + 0.001) * b := mul_le_mul_of_nonneg_right (by linarith) hb.le
  have q3 : (8 + 2.001) * 2.001 * U * ((p + e * ε) * b) ≤ 0.25 * ε * ((p + 0.001) * b) :=
    (mul_le_mul_of_nonneg_left q2 (by linarith)).trans (mul_le_mul_of_nonneg_right (by linarith) (mul_nonneg p0 hb.le))
  have q4 : U * b ≤ ε / 90 * b := mul_le_mul_of_nonneg_right (by linarith) hb.le
  have q5 : (e + 0.25 * (p + 0.001) + 1e-6) * (ε * b) ≤ e' * (ε * b) := mul_le_mul_of_nonneg_right he' (mul_pos hε0 hb).le
  have q6 := mul_pos hε0 hb
  have q7 : U * (H * T) ≤ 1 * (H * T) := mul_le_mul_of_nonneg_right (by linarith) (mul_pos H_pos hT).le
  linarith only [q3, q4, q5, hH, hH2, q6, q7]

/-- The answer in the units of the client. -/
theorem answer_near {ε B T : ℝ} (C : Ctx ε B) (hε : 90 * U ≤ ε) (hB : 2 ^ (-800 : ℤ) ≤ B) (hT : 0 < T) (hT1 : T ≤ 2 ^ (100 : ℤ)) {k : ℚ} (hk : |(k : ℝ) - 1 / T| ≤ 8 * U * (1 / T))
    {q out : Jet} {J : Pose × Twist × Twist} (hq : JNear ε B 1210 6600 2.7 11000 19900 32.1 14.1 263000 550000 508 344 q J) (h : Rescaled k q out) :
    JetWithin (1210 * ε) (6600 * ε * B) (11010 * ε / T) (19910 * ε * B / T) (263200 * ε / T ^ 2) (550200 * ε * B / T ^ 2) out (inUnits (1 / T) J) := by
  obtain ⟨-, u2, u3⟩ := underflow hB hT hT1
  obtain ⟨-, w2, w3⟩ := underflow (B := 1) (zpow_le_one_of_nonpos₀ (by norm_num) (by norm_num)) hT hT1
  obtain ⟨e, h1, y, h2, h3⟩ := h
  have o : ∀ r : ℝ, r = r * 1 := fun r => (mul_one r).symm
  refine ⟨e ▸ hq.g.r, e ▸ hq.g.t, ?_, ?_, ?_, ?_⟩
  · rw [o (11010 * ε)]
    exact back_once hε C.small one_pos hT w2 hk (hq.d.r.trans_eq (o _)) (hq.d.rn.trans_eq (o _)) hq.d.e1 h1.1 (by norm_num)
  · exact back_once hε C.small C.bpos hT u2 hk hq.d.t hq.d.tn hq.d.f1 h1.2 (by norm_num)
  · rw [o (263200 * ε)]
    exact back_twice hε C.small one_pos hT w2 w3 hk (hq.d2.r.trans_eq (o _)) (hq.d2.rn.trans_eq (o _)) hq.d2.e1 h2.1 h3.1 (by norm_num)
  · exact back_twice hε C.small C.bpos hT u2 u3 hk hq.d2.t hq.d2.tn hq.d2.f1 h2.2 h3.2 (by norm_num)

/-- One piece of the exact curve. -/
noncomputable def piece (t t' : ℝ) (J J' : Pose × Twist × Twist) (s : ℝ) : Pose × Twist × Twist :=
  inUnits (1 / (t' - t)) (motion (inUnits (t' - t) J) (inUnits (t' - t) J') (1 / (t' - t) * (s - t)))

theorem inUnits_inv {T : ℝ} (hT : T ≠ 0) (J : Pose × Twist × Twist) : inUnits (1 / T) (inUnits T J) = J := by
  unfold inUnits
  simp only [smul_smul, one_div, inv_mul_cancel₀ hT, ← mul_pow, one_pow, one_smul]

theorem piece_isPiece {t t' : ℝ} (ht : t < t') {J J' : Pose × Twist × Twist} {x : Twist} (hJ : IsRotation J.1.1)
    (hx : poseMatrix J'.1 = NormedSpace.exp (twistHat x) * poseMatrix J.1) (hW : eucNorm x.1 < Real.pi) : IsPiece x t t' J J' (piece t t' J J') := by
  have hT : t' - t ≠ 0 := by linarith
  have hq := motion_quintic (J := inUnits (t' - t) J) (J' := inUnits (t' - t) J') (x := x) hJ hx hW
  refine ⟨fun s => ?_, fun s => ?_, ?_, ?_⟩
  · rw [← one_div_mul_eq_div]
    exact hq.formula _
  · have := HasLeftJet.rescale (t := s) (t0 := t) SE3.xrep.hat_smul (hq.jet (1 / (t' - t) * (s - t)))
    rw [smul_smul _ _ (motion _ _ _).2.2, ← sq] at this
    exact this
  · unfold piece
    rw [sub_self, mul_zero, hq.start, inUnits_inv hT]
  · unfold piece
    rw [one_div_mul_cancel hT, hq.stop, inUnits_inv hT]

/-- The rounded step between two controls. -/
theorem step_near {s s' dt : ℚ} (h1 : (2 : ℚ) ^ (-1021 : ℤ) ≤ s' - s) (h : Double.sub (.num s') (.num s) = .num dt) :
    |(dt : ℝ) - ((s' : ℝ) - s)| ≤ 2 * U * ((s' : ℝ) - s) := by
  have e : dt = round64 (s' - s) := by
    have h' : Double.ofExact (s' - s) = .num dt := h
    unfold Double.ofExact at h'
    split at h'
    · exact (Double.num.inj h').symm
    · exact absurd h' (by simp)
  have h2 := rnd (s' - s)
  rw [← e] at h2
  have h3 : (2 : ℝ) ^ (-1021 : ℤ) ≤ ((s' - s : ℚ) : ℝ) := by
    have : (((2 : ℚ) ^ (-1021 : ℤ) : ℚ) : ℝ) ≤ ((s' - s : ℚ) : ℝ) := by exact_mod_cast h1
    rwa [Rat.cast_zpow, Rat.cast_ofNat] at this
  have h4 : H ≤ U * ((s' - s : ℚ) : ℝ) := by
    have e1 : H ≤ U * 2 ^ (-1021 : ℤ) := by
      unfold H U
      rw [← zpow_add₀ (by norm_num)]
      exact zpow_le_zpow_right₀ (by norm_num) (by norm_num)
    exact e1.trans (mul_le_mul_of_nonneg_left h3 U_pos.le)
  have h5 : (0 : ℝ) ≤ ((s' - s : ℚ) : ℝ) := le_trans (by positivity) h3
  rw [abs_of_nonneg h5] at h2
  rw [Rat.cast_sub] at h2 h4
  linarith

theorem step_wide {ts : List ℚ} (h : ∀ (i : ℕ) (h : i + 1 < ts.length), (2 : ℚ) ^ (-1021 : ℤ) ≤ ts[i + 1] - ts[i] ∧ ts[i + 1] - ts[i] ≤ 2 ^ (100 : ℤ)) :
    ∀ (i : ℕ) (h : i + 1 < ts.length), (2 : ℚ) ^ (-1021 : ℤ) ≤ ts[i + 1] - ts[i] ∧ ts[i + 1] - ts[i] ≤ 2 ^ (1021 : ℤ) :=
  fun i hi => ⟨(h i hi).1, (h i hi).2.trans (zpow_le_zpow_right₀ (by norm_num) (by norm_num))⟩

/-- What an answer is made of. -/
theorem PointAt.found {ts : List ℚ} {ps : List Jet} {q : ℚ} {out : Jet} (h : PointAt ts ps q out) (hd : ∀ t ∈ ts, IsDouble t) (hlen : ps.length = ts.length)
    (hstep : ∀ (i : ℕ) (h : i + 1 < ts.length), (2 : ℚ) ^ (-1021 : ℤ) ≤ ts[i + 1] - ts[i] ∧ ts[i + 1] - ts[i] ≤ 2 ^ (100 : ℤ)) (hq : IsDouble q) :
    ∃ (i : ℕ) (dt inv t : ℚ) (o d p : Jet) (h : i + 1 < ts.length), ts[i] ≤ q ∧ q ≤ ts[i + 1] ∧ 0 ≤ t ∧ t ≤ 1 ∧
      |t - (q - ts[i]) / (ts[i + 1] - ts[i])| ≤ 2 ^ (-50 : ℤ) ∧ |inv - 1 / (ts[i + 1] - ts[i])| ≤ 1 / (ts[i + 1] - ts[i]) * 2 ^ (-50 : ℤ) ∧
      Double.sub (.num ts[i + 1]) (.num ts[i]) = .num dt ∧ Rescaled dt ps[i] o ∧ Rescaled dt ps[i + 1] d ∧ SegmentPointAt o d t p ∧ Rescaled inv p out := by
  obtain ⟨c, i, dt, inv, t, p, p', o, d, r, hm, hqu, ⟨s, s', e1, e2, hs⟩, e3, e4, h1, h2, h3, h4⟩ := h
  have hl : (ts.map Double.num).length = ts.length := List.length_map _
  have h2' : 2 ≤ ts.length := by
    by_contra hno
    have := c97_too_short _ c hm (by omega) (.num q)
    rw [hqu] at this
    exact absurd this (by simp)
  have hok := (c97_answers _ c hm (by omega) (.num q) (by simp)).1.mp ⟨_, hqu⟩
  have b0 : ts[0] ≤ q := by simpa [Double.le] using hok.1
  have b1 : q ≤ ts[ts.length - 1] := by simpa [Double.le] using hok.2
  obtain ⟨i', v, y, hi, hq', g1, g2, -, g3, g4, g5, g6, -⟩ := c97_fraction_partial ts c hm h2' hd (step_wide hstep) q hq b0 b1
  rw [hqu] at hq'
  simp only [Outcome.ok.injEq, Prod.mk.injEq, Double.num.injEq] at hq'
  obtain ⟨rfl, rfl, rfl⟩ := hq'
  rw [List.getElem?_eq_getElem (by omega), Option.some.injEq] at e1 e2 e3 e4
  subst e1 e2 e3 e4
  exact ⟨i, dt, inv, t, o, d, r, hi, g1, g2, g3, g4, g5, g6, hs, h1, h2, h3, h4⟩

theorem cast_le {a b : ℚ} (h : a ≤ b) : (a : ℝ) ≤ b := by exact_mod_cast h

/-- The answer of a curve. -/
theorem curve_answer {δ B : ℝ} (hδ : δ ≤ 9e-11) (hB : 2 ^ (-800 : ℤ) ≤ B) {ts : List ℚ} {ps : List Jet} {J : ℕ → Pose × Twist × Twist} {x : ℕ → Twist}
    (hs : StoresCurve δ B ts ps J x) {q : ℚ} (hq : IsDouble q) {out : Jet} (h : PointAt ts ps q out) :
    ∃ (i : ℕ) (h : i + 1 < ts.length) (τ : ℝ), (ts[i] : ℝ) ≤ q ∧ (q : ℝ) ≤ ts[i + 1] ∧ ts[i] ≤ τ ∧ τ ≤ ts[i + 1] ∧
      |τ - q| ≤ 2 ^ (-50 : ℤ) * ((ts[i + 1] : ℝ) - ts[i]) ∧
      JetWithin (1210 * (δ + 91 * U)) (6600 * (δ + 91 * U) * B) (11010 * (δ + 91 * U) / ((ts[i + 1] : ℝ) - ts[i]))
        (19910 * (δ + 91 * U) * B / ((ts[i + 1] : ℝ) - ts[i])) (263200 * (δ + 91 * U) / ((ts[i + 1] : ℝ) - ts[i]) ^ 2)
        (550200 * (δ + 91 * U) * B / ((ts[i + 1] : ℝ) - ts[i]) ^ 2) out (piece ts[i] ts[i + 1] (J i) (J (i + 1)) τ) ∧
      eucNorm (piece ts[i] ts[i + 1] (J i) (J (i + 1)) τ).1.2 ≤ 2.7 * B := by
  have hU := U_pos
  have hU1 := U_tiny.1
  obtain ⟨i, dt, inv, t, o, d, p, hi, g1, g2, t0, t1, te, ie, hsub, r1, r2, hseg, r3⟩ := h.found hs.double hs.length hs.step hq
  have hl := hs.length
  have hδ0 : 0 ≤ δ := turnsAlike_nonneg (hs.pose i (by omega)).rot
  have hB1 : (2 : ℝ) ^ (-1000 : ℤ) ≤ B := (zpow_le_zpow_right₀ (by norm_num) (by norm_num)).trans hB
  have C := ctx (δ := δ + 81 * U) (by linarith) (by norm_num at hδ hU1 ⊢; linarith) hB1
  have eε : δ + 81 * U + 10 * U = δ + 91 * U := by ring
  obtain ⟨st1, st2⟩ := hs.step i hi
  obtain ⟨T, hTe⟩ : ∃ T : ℝ, T = (ts[i + 1] : ℝ) - ts[i] := ⟨_, rfl⟩
  have hT0 : (2 : ℝ) ^ (-1021 : ℤ) ≤ T := by
    have := cast_le st1
    rw [Rat.cast_sub, Rat.cast_zpow, Rat.cast_ofNat] at this
    rwa [hTe]
  have hT1 : T ≤ 2 ^ (100 : ℤ) := by
    have := cast_le st2
    rw [Rat.cast_sub, Rat.cast_zpow, Rat.cast_ofNat] at this
    rwa [hTe]
  have hT : 0 < T := lt_of_lt_of_le (by positivity) hT0
  have hdt := step_near st1 hsub
  rw [← hTe] at hdt
  have u8 : (2 : ℝ) ^ (-50 : ℤ) = 8 * U := by unfold U; norm_num
  have hte : |(t : ℝ) - (q - ts[i]) / T| ≤ 8 * U := by
    have := cast_le te
    rw [Rat.cast_abs, Rat.cast_sub, Rat.cast_div, Rat.cast_sub, Rat.cast_sub, Rat.cast_zpow, Rat.cast_ofNat, ← hTe, u8] at this
    exact this
  have hie : |(inv : ℝ) - 1 / T| ≤ 8 * U * (1 / T) := by
    have := cast_le ie
    rw [Rat.cast_abs, Rat.cast_sub, Rat.cast_mul, Rat.cast_div, Rat.cast_one, Rat.cast_sub, Rat.cast_zpow, Rat.cast_ofNat, ← hTe, u8, mul_comm (1 / T)] at this
    exact this
  obtain ⟨v1, a1⟩ := hs.rates i hi i (by omega) (.inl rfl)
  obtain ⟨v2, a2⟩ := hs.rates i hi (i + 1) (by omega) (.inr rfl)
  rw [← hTe] at v1 a1 v2 a2
  have ho := control_near hδ0 hδ hB hT hT1 hdt (hs.pose i (by omega)) v1 a1 r1
  have hd := control_near hδ0 hδ hB hT hT1 hdt (hs.pose (i + 1) (by omega)) v2 a2 r2
  have hans := segment_answer (by norm_num at hδ hU1 ⊢; linarith) hB1 ho hd (hs.leads i (by omega)) t0 t1 hseg
  have hout := answer_near C (by linarith) hB hT hT1 hie hans r3
  rw [eε] at hout
  have c0 : (0 : ℝ) ≤ t := by exact_mod_cast t0
  have c1 : (t : ℝ) ≤ 1 := by exact_mod_cast t1
  have k0 := mul_nonneg hT.le c0
  have k1 := mul_le_mul_of_nonneg_left c1 hT.le
  refine ⟨i, hi, ts[i] + T * t, cast_le g1, cast_le g2, by linarith, by rw [hTe] at k1 ⊢; linarith, ?_, ?_⟩ <;> rw [← hTe]
  · have e : ts[i] + T * t - q = T * (t - (q - ts[i]) / T) := by field_simp; ring
    rw [e, abs_mul, abs_of_pos hT, u8, mul_comm]
    exact mul_le_mul_of_nonneg_right hte hT.le
  · unfold piece
    rw [← hTe, add_sub_cancel_left, one_div, inv_mul_cancel_left₀ hT.ne', ← one_div]
    exact ⟨hout, hans.g.n⟩

/-! Every step of the computation has a result. -/

theorem univ4 : (Finset.univ : Finset (Fin 4)).Nonempty := ⟨0, Finset.mem_univ _⟩
theorem univ5 : (Finset.univ : Finset (Fin 5)).Nonempty := ⟨0, Finset.mem_univ _⟩

theorem horner_some (t : ℚ) (ms : List ℚ) : ∃ r, Horner t ms r := by
  induction ms with
  | nil => exact ⟨0, rfl⟩
  | cons m ms ih =>
    obtain ⟨acc, h⟩ := ih
    exact ⟨_, acc, h, .inl rfl⟩

theorem coeffs_some (c : Fin 5 → ℚ) (t : ℚ) : ∃ a da d2a, Coeffs c t a da d2a := by
  obtain ⟨a, ha⟩ := horner_some t [c 0, c 1, c 2, c 3, c 4]
  obtain ⟨da, hda⟩ := horner_some t [2 * c 1, 3 * c 2, 4 * c 3, 5 * c 4]
  obtain ⟨d2a, hd2a⟩ := horner_some t [6 * c 2, 12 * c 3, 20 * c 4]
  exact ⟨_, _, _, ⟨a, ha, rfl⟩, ⟨da, hda, rfl⟩, ⟨d2a, hd2a, rfl⟩⟩

theorem scaled_some (k : ℚ) (x : Tangent) : ∃ y, Scaled k x y := ⟨(fun i => round64 (k * x.1 i), fun i => round64 (k * x.2 i)), fun _ => rfl, fun _ => rfl⟩

theorem added_some (x y : Tangent) : ∃ z, Added x y z :=
  ⟨(fun i => round64 (x.1 i + y.1 i), fun i => round64 (x.2 i + y.2 i)), fun _ => rfl, fun _ => rfl⟩

theorem adTimes_some (g : Stored) (x : Tangent) : ∃ y, AdTimes g x y := by
  choose r hr using fun i => Evaluates.some (g.rot i) x.1 univ3
  obtain ⟨y0, h0⟩ := Evaluates.some ![g.trans 1, -g.trans 2, g.rot 0 0, g.rot 0 1, g.rot 0 2] ![r 2, r 1, x.2 0, x.2 1, x.2 2] univ5
  obtain ⟨y1, h1⟩ := Evaluates.some ![g.trans 2, -g.trans 0, g.rot 1 0, g.rot 1 1, g.rot 1 2] ![r 0, r 2, x.2 0, x.2 1, x.2 2] univ5
  obtain ⟨y2, h2⟩ := Evaluates.some ![g.trans 0, -g.trans 1, g.rot 2 0, g.rot 2 1, g.rot 2 2] ![r 1, r 0, x.2 0, x.2 1, x.2 2] univ5
  exact ⟨(r, ![y0, y1, y2]), hr, h0, h1, h2⟩

theorem bracket_some (x y : Tangent) : ∃ z, Bracket x y z := by
  obtain ⟨r, hr⟩ := cross_some x.1 y.1
  obtain ⟨y0, h0⟩ := Evaluates.some ![x.2 1, -x.2 2, x.1 1, -x.1 2] ![y.1 2, y.1 1, y.2 2, y.2 1] univ4
  obtain ⟨y1, h1⟩ := Evaluates.some ![x.2 2, -x.2 0, x.1 2, -x.1 0] ![y.1 0, y.1 2, y.2 0, y.2 2] univ4
  obtain ⟨y2, h2⟩ := Evaluates.some ![x.2 0, -x.2 1, x.1 0, -x.1 1] ![y.1 1, y.1 0, y.2 1, y.2 0] univ4
  exact ⟨(r, ![y0, y1, y2]), hr, h0, h1, h2⟩

theorem mul_some (a b : Stored) : ∃ c, Mul a b c := by
  obtain ⟨c, hc⟩ := c88_computed (.mul (.given a) (.given b))
  cases hc with
  | mul h1 h2 h3 => cases h1; cases h2; exact ⟨c, h3⟩

theorem inverse_some (a : Stored) : ∃ c, Inverse a c := by
  obtain ⟨c, hc⟩ := c88_computed (.inv (.given a))
  cases hc with
  | inv h1 h2 => cases h1; exact ⟨c, h2⟩

theorem jetMul_some (a b : Jet) : ∃ c, JetMul a b c := by
  obtain ⟨g, hg⟩ := mul_some a.g b.g
  obtain ⟨r, hr⟩ := adTimes_some a.g b.d
  obtain ⟨d, hd⟩ := added_some a.d r
  obtain ⟨r2, hr2⟩ := adTimes_some a.g b.d2
  obtain ⟨s, hs⟩ := added_some a.d2 r2
  obtain ⟨z, hz⟩ := bracket_some a.d r
  obtain ⟨d2, hd2⟩ := added_some s z
  exact ⟨⟨g, d, d2⟩, hg, ⟨r, hr, hd⟩, r, r2, s, z, hr, hr2, hs, hz, hd2⟩

theorem accumulates_some (t : ℚ) (c : Fin 5 → ℚ) (x : Tangent) (p : Jet) : ∃ p', Accumulates t c x p p' := by
  obtain ⟨a, da, d2a, hc⟩ := coeffs_some c t
  obtain ⟨y, hy⟩ := scaled_some a x
  obtain ⟨g, hg⟩ := expSE3_some y.1 y.2
  obtain ⟨d, hd⟩ := scaled_some da x
  obtain ⟨d2, hd2⟩ := scaled_some d2a x
  obtain ⟨p', hp⟩ := jetMul_some ⟨g, d, d2⟩ p
  exact ⟨p', a, da, d2a, y, ⟨g, d, d2⟩, hc, hy, hg, hd, hd2, hp⟩

theorem segment_some (o d : Jet) (t : ℚ) : ∃ out, SegmentPointAt o d t out := by
  obtain ⟨i, hi⟩ := inverse_some o.g
  obtain ⟨r, hr⟩ := mul_some d.g i
  obtain ⟨w, v, hy⟩ := logSE3_some r
  obtain ⟨p1, h1⟩ := accumulates_some t destOrigTable (w, v) start
  obtain ⟨p2, h2⟩ := accumulates_some t dOrigTable o.d p1
  obtain ⟨p3, h3⟩ := accumulates_some t dDestTable d.d p2
  obtain ⟨p4, h4⟩ := accumulates_some t d2OrigTable o.d2 p3
  obtain ⟨p5, h5⟩ := accumulates_some t d2DestTable d.d2 p4
  obtain ⟨g, hg⟩ := mul_some p5.g o.g
  exact ⟨⟨g, p5.d, p5.d2⟩, i, r, (w, v), p1, p2, p3, p4, p5, hi, hr, hy, h1, h2, h3, h4, h5, hg, rfl, rfl⟩

theorem rescaled_some (k : ℚ) (p : Jet) : ∃ q, Rescaled k p q := by
  obtain ⟨d, hd⟩ := scaled_some k p.d
  obtain ⟨y, hy⟩ := scaled_some k p.d2
  obtain ⟨d2, hd2⟩ := scaled_some k y
  exact ⟨⟨p.g, d, d2⟩, rfl, hd, y, hy, hd2⟩

theorem point_some {ts : List ℚ} {ps : List Jet} (h2 : 2 ≤ ts.length) (hd : ∀ t ∈ ts, IsDouble t) (hlen : ps.length = ts.length)
    (hstep : ∀ (i : ℕ) (h : i + 1 < ts.length), (2 : ℚ) ^ (-1021 : ℤ) ≤ ts[i + 1] - ts[i] ∧ ts[i + 1] - ts[i] ≤ 2 ^ (100 : ℤ)) {q : ℚ} (hq : IsDouble q)
    (h0 : ts[0] ≤ q) (h1 : q ≤ ts[ts.length - 1]) : ∃ out, PointAt ts ps q out := by
  obtain ⟨c, hc⟩ : (TTimes.make (ts.map Double.num)).IsOk := by
    rw [(c97_accepts_finite ts [] []).1, ← List.isChain_iff_pairwise, List.isChain_iff_getElem]
    intro i hi
    have := lt_of_lt_of_le (by positivity) (hstep i hi).1
    linarith
  obtain ⟨i, v, y, hi, hqu, -⟩ := c97_fraction_partial ts c hc h2 hd (step_wide hstep) q hq h0 h1
  have hsub : Double.sub (.num ts[i + 1]) (.num ts[i]) = .num (round64 (ts[i + 1] - ts[i])) :=
    Double.ofExact_between Double.isDouble_lo Double.isDouble_hi (step_wide hstep i hi).1 (step_wide hstep i hi).2
  obtain ⟨o, ho⟩ := rescaled_some (round64 (ts[i + 1] - ts[i])) ps[i]
  obtain ⟨d, hd⟩ := rescaled_some (round64 (ts[i + 1] - ts[i])) ps[i + 1]
  obtain ⟨p, hp⟩ := segment_some o d y
  obtain ⟨out, hout⟩ := rescaled_some v p
  exact ⟨out, c, i, _, v, y, _, _, o, d, p, hc, hqu, ⟨_, _, List.getElem?_eq_getElem (by omega), List.getElem?_eq_getElem hi, hsub⟩,
    List.getElem?_eq_getElem (by omega), List.getElem?_eq_getElem (by omega), ho, hd, hp, hout⟩

end Verif.TCurveDouble
