import Verif.Proofs.TCurveDoubleCoeffs
/-! # Time curves in doubles: one term after the other -/
namespace Verif.TCurveDouble
open Verif.Spec Verif.TransformDouble Verif.ExpDouble Verif.LogDouble Verif.SampleIntervalDouble Verif.Props Verif.DCurveDouble Matrix SO3

variable {ε B : ℝ}

/-- A point with its two derivatives, with errors and sizes. -/
structure JNear (ε B E F T e1 f1 p1 q1 e2 f2 p2 q2 : ℝ) (j : Jet) (J : Pose × Twist × Twist) : Prop where
  g : PNear ε B E F T j.g J.1
  d : TNear ε B e1 f1 p1 q1 j.d J.2.1
  d2 : TNear ε B e2 f2 p2 q2 j.d2 J.2.2

/-- The increment of one term. -/
theorem inc_near (C : Ctx ε B) {a da d2a : ℚ} {k : PolyCoeffs} {c0 c1 c2 κ0 κ1 κ2 e f p q : ℝ} (hk : CNear ε a da d2a k c0 c1 c2 κ0 κ1 κ2)
    {x y : Tangent} {X : Twist} (hx : TNear ε B e f p q x X) {inc : Jet} (hy : Scaled a x y) (hg : ExpSE3 y.1 y.2 inc.g) (hd : Scaled da x inc.d)
    (hd2 : Scaled d2a x inc.d2) (ye yf ge gf de df se sf : ℝ) (hc : c0 ≤ 1e6 ∧ c1 ≤ 1e6 ∧ c2 ≤ 1e6) (hp : κ0 * p ≤ 100)
    (b1 : ye ≤ 1e6 ∧ yf ≤ 1e6 ∧ ge ≤ 1e6 ∧ gf ≤ 1e6 ∧ de ≤ 1e6 ∧ df ≤ 1e6 ∧ se ≤ 1e6 ∧ sf ≤ 1e6)
    (n1 : c0 * (p + 0.001) + κ0 * e + 0.2 * ((κ0 + 0.001) * (p + 0.001)) + 1e-6 ≤ ye)
    (n2 : c0 * (q + 0.001) + κ0 * f + 0.2 * ((κ0 + 0.001) * (q + 0.001)) + 1e-6 ≤ yf)
    (n3 : ye + 10 * (κ0 * p + 1.001) ≤ ge) (n4 : 500 * (κ0 * q + 0.001) + yf + ye * (κ0 * q + 0.001) + 0.01 ≤ gf)
    (n5 : c1 * (p + 0.001) + κ1 * e + 0.2 * ((κ1 + 0.001) * (p + 0.001)) + 1e-6 ≤ de)
    (n6 : c1 * (q + 0.001) + κ1 * f + 0.2 * ((κ1 + 0.001) * (q + 0.001)) + 1e-6 ≤ df)
    (n7 : c2 * (p + 0.001) + κ2 * e + 0.2 * ((κ2 + 0.001) * (p + 0.001)) + 1e-6 ≤ se)
    (n8 : c2 * (q + 0.001) + κ2 * f + 0.2 * ((κ2 + 0.001) * (q + 0.001)) + 1e-6 ≤ sf) :
    JNear ε B ge gf (κ0 * q) de df (κ1 * p) (κ1 * q) se sf (κ2 * p) (κ2 * q) inc (vinc SE3.xops k X) := by
  obtain ⟨b1, b2, b3, b4, b5, b6, b7, b8⟩ := b1
  exact ⟨exp_near C (scaled_near C hk.h0 hk.k0 hc.1 hx hy n1 n2 b1 b2) hg hp n3 n4 b3 b4, scaled_near C hk.h1 hk.k1 hc.2.1 hx hd n5 n6 b5 b6,
    scaled_near C hk.h2 hk.k2 hc.2.2 hx hd2 n7 n8 b7 b8⟩

/-- The product of two points. -/
theorem jmul_near (C : Ctx ε B) {E F T e1 f1 p1 q1 e2 f2 p2 q2 E' F' T' e1' f1' p1' q1' e2' f2' p2' q2' : ℝ} {a b c : Jet} {X Y : Pose × Twist × Twist}
    (hX : JNear ε B E F T e1 f1 p1 q1 e2 f2 p2 q2 a X) (hY : JNear ε B E' F' T' e1' f1' p1' q1' e2' f2' p2' q2' b Y) (h : JetMul a b c)
    (re rf r2e r2f ue uf be bf G1 G2 D1 D2 A1 A2 : ℝ)
    (b1 : re ≤ 1e6 ∧ rf ≤ 1e6 ∧ r2e ≤ 1e6 ∧ r2f ≤ 1e6 ∧ ue ≤ 1e6 ∧ uf ≤ 1e6 ∧ be ≤ 1e6 ∧ bf ≤ 1e6)
    (b2 : G1 ≤ 1e6 ∧ G2 ≤ 1e6 ∧ D1 ≤ 1e6 ∧ D2 ≤ 1e6 ∧ A1 ≤ 1e6 ∧ A2 ≤ 1e6)
    (n1 : e1' + (E + 0.61) * (p1' + 0.001) + 0.001 ≤ re)
    (n2 : 1.01 * ((T + 0.001) * (p1' + 0.002) + 1.001 * (q1' + 0.001)) + F * (p1' + 0.002) + T * re + E * (q1' + 0.001) + f1' + 0.001 ≤ rf)
    (n3 : e2' + (E + 0.61) * (p2' + 0.001) + 0.001 ≤ r2e)
    (n4 : 1.01 * ((T + 0.001) * (p2' + 0.002) + 1.001 * (q2' + 0.001)) + F * (p2' + 0.002) + T * r2e + E * (q2' + 0.001) + f2' + 0.001 ≤ r2f)
    (n5 : e2 + r2e + 0.2 * (p2 + p2' + 0.002) + 1e-6 ≤ ue) (n6 : f2 + r2f + 0.2 * (q2 + (T * p2' + q2') + 0.002) + 1e-6 ≤ uf)
    (n7 : e1 * (p1' + 0.001) + p1 * re + 0.41 * ((p1 + 0.001) * (p1' + 0.001)) + 0.001 ≤ be)
    (n8 : f1 * (p1' + 0.001) + q1 * re + e1 * ((T * p1' + q1') + 0.001) + p1 * rf +
      0.81 * ((q1 + 0.001) * (p1' + 0.001) + (p1 + 0.001) * ((T * p1' + q1') + 0.001)) + 0.001 ≤ bf)
    (m1 : 1.003 * (E + E' + 1) ≤ G1) (m2 : 0.81 * (1.001 * (T' + 0.001) + T + 0.001) + 0.001 + E * (T' + 0.001) + F' + F ≤ G2)
    (m3 : e1 + re + 0.2 * (p1 + p1' + 0.002) + 1e-6 ≤ D1) (m4 : f1 + rf + 0.2 * (q1 + (T * p1' + q1') + 0.002) + 1e-6 ≤ D2)
    (m5 : ue + be + 0.2 * (p2 + p2' + p1 * p1' + 0.002) + 1e-6 ≤ A1)
    (m6 : uf + bf + 0.2 * (q2 + (T * p2' + q2') + (q1 * p1' + p1 * (T * p1' + q1')) + 0.002) + 1e-6 ≤ A2) :
    JNear ε B G1 G2 (T + T') D1 D2 (p1 + p1') (q1 + (T * p1' + q1')) A1 A2 (p2 + p2' + p1 * p1')
      (q2 + (T * p2' + q2') + (q1 * p1' + p1 * (T * p1' + q1'))) c (vmul SE3.xops X Y) := by
  obtain ⟨b1, b2', b3, b4, b5, b6, b7, b8⟩ := b1
  obtain ⟨b9, b10, b11, b12, b13, b14⟩ := b2
  obtain ⟨hm, ⟨r, hr, hd⟩, r', r2, s, z, hr', hr2, hs, hz, hd2⟩ := h
  exact ⟨pmul_near C hX.g hY.g hm m1 m2 b9 b10, added_near C hX.d (ad_near C hX.g hY.d hr n1 n2 b1 b2') hd m3 m4 b11 b12,
    added_near C (added_near C hX.d2 (ad_near C hX.g hY.d2 hr2 n3 n4 b3 b4) hs n5 n6 b5 b6)
      (bracket_near C hX.d (ad_near C hX.g hY.d hr' n1 n2 b1 b2') hz n7 n8 b7 b8) hd2 m5 m6 b13 b14⟩

theorem JNear.mono (C : Ctx ε B) {E F T e1 f1 p1 q1 e2 f2 p2 q2 : ℝ} {j : Jet} {J : Pose × Twist × Twist} (h : JNear ε B E F T e1 f1 p1 q1 e2 f2 p2 q2 j J)
    {T' p1' q1' p2' q2' : ℝ} (n1 : T ≤ T') (n2 : p1 ≤ p1') (n3 : q1 ≤ q1') (n4 : p2 ≤ p2') (n5 : q2 ≤ q2') :
    JNear ε B E F T' e1 f1 p1' q1' e2 f2 p2' q2' j J :=
  ⟨h.g.mono C le_rfl le_rfl n1 h.g.e1 h.g.f1, h.d.mono C le_rfl le_rfl n2 n3 h.d.e1 h.d.f1, h.d2.mono C le_rfl le_rfl n4 n5 h.d2.e1 h.d2.f1⟩

/-- The point that the segment starts from. -/
theorem start_near : JNear ε B 0 0 0 0 0 0 0 0 0 0 0 start (SE3.xops.one, 0, 0) := by
  have z : realVec (0 : Fin 3 → ℚ) = 0 := by ext i; simp [realVec]
  have o : realRot (1 : Matrix (Fin 3) (Fin 3) ℚ) = 1 := by
    ext i j; simp only [realRot, Matrix.map_apply, Matrix.one_apply]; split <;> simp
  have tw : TNear ε B 0 0 0 0 (0, 0) (0, 0) := by
    refine ⟨?_, ?_, ?_, ?_, by norm_num, by norm_num⟩ <;> simp [z, eucNorm_zero]
  refine ⟨⟨SO3.isRotation_one, ?_, ?_, ?_, by norm_num, by norm_num⟩, tw, tw⟩
  · intro v
    change eucNorm (realRot 1 *ᵥ v - (1 : M3) *ᵥ v) ≤ _
    rw [o, sub_self, eucNorm_zero]; simp
  · change eucNorm (realVec 0 - (0 : V3)) ≤ _
    rw [z, sub_self, eucNorm_zero]; simp
  · change eucNorm (0 : V3) ≤ _
    rw [eucNorm_zero]; simp

theorem step1 (C : Ctx ε B) {t : ℚ} (h0 : 0 ≤ t) (h1 : t ≤ 1) {x : Tangent} {X : Twist} (hx : TNear ε B 428 3052 3.2 1 x X) {j j' : Jet}
    {J : Pose × Twist × Twist} (hj : JNear ε B 0 0 0 0 0 0 0 0 0 0 0 j J) (h : Accumulates t destOrigTable x j j') :
    JNear ε B 594 4150 1 1290 5960 6.08 1.9 3980 19000 19.2 6 j' (vmul SE3.xops (vinc SE3.xops (Quintic.destFromOrig t) X) J) := by
  obtain ⟨a, da, d2a, y, inc, hc, hy, hg, hd, hd2, hm⟩ := h
  have h1 := inc_near C ((tables_near C h0 h1).1 hc) hx hy hg hd hd2 548 3090 591 4140 1280 5950 3960 18800
    (by norm_num) (by norm_num) (by norm_num) (by norm_num) (by norm_num) (by norm_num) (by norm_num) (by norm_num) (by norm_num) (by norm_num) (by norm_num)
  have h2 := jmul_near C h1 hj hm 0.593 9.47 0.593 9.47 3970 18900 4.89 66 594 4150 1290 5960 3980 19000
    (by norm_num) (by norm_num) (by norm_num) (by norm_num) (by norm_num) (by norm_num) (by norm_num) (by norm_num) (by norm_num) (by norm_num)
    (by norm_num) (by norm_num) (by norm_num) (by norm_num) (by norm_num) (by norm_num)
  exact h2.mono C (by norm_num) (by norm_num) (by norm_num) (by norm_num) (by norm_num)

theorem step2 (C : Ctx ε B) {t : ℚ} (h0 : 0 ≤ t) (h1 : t ≤ 1) {x : Tangent} {X : Twist} (hx : TNear ε B 1 1 10 1 x X) {j j' : Jet}
    {J : Pose × Twist × Twist} (hj : JNear ε B 594 4150 1 1290 5960 6.08 1.9 3980 19000 19.2 6 j J) (h : Accumulates t dOrigTable x j j') :
    JNear ε B 856 4650 1.3 3670 8860 16.1 4.73 45000 123000 120 59.1 j' (vmul SE3.xops (vinc SE3.xops (Quintic.dOrig t) X) J) := by
  obtain ⟨a, da, d2a, y, inc, hc, hy, hg, hd, hd2, hm⟩ := h
  have h1 := inc_near C ((tables_near C h0 h1).2.1 hc) hx hy hg hd hd2 217 22 258 238 796 80.5 2320 236
    (by norm_num) (by norm_num) (by norm_num) (by norm_num) (by norm_num) (by norm_num) (by norm_num) (by norm_num) (by norm_num) (by norm_num) (by norm_num)
  have h2 := jmul_near C h1 hj hm 2870 8770 8950 27900 11300 28200 33600 94100 856 4650 3670 8860 45000 123000
    (by norm_num) (by norm_num) (by norm_num) (by norm_num) (by norm_num) (by norm_num) (by norm_num) (by norm_num) (by norm_num) (by norm_num)
    (by norm_num) (by norm_num) (by norm_num) (by norm_num) (by norm_num) (by norm_num)
  exact h2.mono C (by norm_num) (by norm_num) (by norm_num) (by norm_num) (by norm_num)

theorem step3 (C : Ctx ε B) {t : ℚ} (h0 : 0 ≤ t) (h1 : t ≤ 1) {x : Tangent} {X : Twist} (hx : TNear ε B 1 1 10 1 x X) {j j' : Jet}
    {J : Pose × Twist × Twist} (hj : JNear ε B 856 4650 1.3 3670 8860 16.1 4.73 45000 123000 120 59.1 j J) (h : Accumulates t dDestTable x j j') :
    JNear ε B 1080 5150 1.6 7740 15700 26.1 10.6 154000 356000 321 211 j' (vmul SE3.xops (vinc SE3.xops (Quintic.dDest t) X) J) := by
  obtain ⟨a, da, d2a, y, inc, hc, hy, hg, hd, hd2, hm⟩ := h
  have h1 := inc_near C ((tables_near C h0 h1).2.2.1 hc) hx hy hg hd hd2 169 17.2 210 219 664 67.3 2030 207
    (by norm_num) (by norm_num) (by norm_num) (by norm_num) (by norm_num) (by norm_num) (by norm_num) (by norm_num) (by norm_num) (by norm_num) (by norm_num)
  have h2 := jmul_near C h1 hj hm 7070 15600 70300 183000 72400 184000 81500 171000 1080 5150 7740 15700 154000 356000
    (by norm_num) (by norm_num) (by norm_num) (by norm_num) (by norm_num) (by norm_num) (by norm_num) (by norm_num) (by norm_num) (by norm_num)
    (by norm_num) (by norm_num) (by norm_num) (by norm_num) (by norm_num) (by norm_num)
  exact h2.mono C (by norm_num) (by norm_num) (by norm_num) (by norm_num) (by norm_num)

theorem step4 (C : Ctx ε B) {t : ℚ} (h0 : 0 ≤ t) (h1 : t ≤ 1) {x : Tangent} {X : Twist} (hx : TNear ε B 1 1 10 1 x X) {j j' : Jet}
    {J : Pose × Twist × Twist} (hj : JNear ε B 1080 5150 1.6 7740 15700 26.1 10.6 154000 356000 321 211 j J) (h : Accumulates t d2OrigTable x j j') :
    JNear ε B 1150 5290 1.65 9590 17900 29.1 12.3 209000 449000 410 272 j' (vmul SE3.xops (vinc SE3.xops (Quintic.d2Orig t) X) J) := by
  obtain ⟨a, da, d2a, y, inc, hc, hy, hg, hd, hd2, hm⟩ := h
  have h1 := inc_near C ((tables_near C h0 h1).2.2.2.1 hc) hx hy hg hd hd2 48.2 4.87 63.3 32.9 169 17.2 460 46.9
    (by norm_num) (by norm_num) (by norm_num) (by norm_num) (by norm_num) (by norm_num) (by norm_num) (by norm_num) (by norm_num) (by norm_num) (by norm_num)
  have h2 := jmul_near C h1 hj hm 9410 17800 175000 389000 176000 390000 32700 58800 1150 5290 9590 17900 209000 449000
    (by norm_num) (by norm_num) (by norm_num) (by norm_num) (by norm_num) (by norm_num) (by norm_num) (by norm_num) (by norm_num) (by norm_num)
    (by norm_num) (by norm_num) (by norm_num) (by norm_num) (by norm_num) (by norm_num)
  exact h2.mono C (by norm_num) (by norm_num) (by norm_num) (by norm_num) (by norm_num)

theorem step5 (C : Ctx ε B) {t : ℚ} (h0 : 0 ≤ t) (h1 : t ≤ 1) {x : Tangent} {X : Twist} (hx : TNear ε B 1 1 10 1 x X) {j j' : Jet}
    {J : Pose × Twist × Twist} (hj : JNear ε B 1150 5290 1.65 9590 17900 29.1 12.3 209000 449000 410 272 j J) (h : Accumulates t d2DestTable x j j') :
    JNear ε B 1200 5390 1.7 11000 19900 32.1 14.1 263000 550000 508 344 j' (vmul SE3.xops (vinc SE3.xops (Quintic.d2Dest t) X) J) := by
  obtain ⟨a, da, d2a, y, inc, hc, hy, hg, hd, hd2, hm⟩ := h
  have h1 := inc_near C ((tables_near C h0 h1).2.2.2.2 hc) hx hy hg hd hd2 24.2 2.47 39.3 29.3 97 9.97 304 31.3
    (by norm_num) (by norm_num) (by norm_num) (by norm_num) (by norm_num) (by norm_num) (by norm_num) (by norm_num) (by norm_num) (by norm_num) (by norm_num)
  have h2 := jmul_near C h1 hj hm 10800 19800 226000 484000 227000 485000 35300 64400 1200 5390 11000 19900 263000 550000
    (by norm_num) (by norm_num) (by norm_num) (by norm_num) (by norm_num) (by norm_num) (by norm_num) (by norm_num) (by norm_num) (by norm_num)
    (by norm_num) (by norm_num) (by norm_num) (by norm_num) (by norm_num) (by norm_num)
  exact h2.mono C (by norm_num) (by norm_num) (by norm_num) (by norm_num) (by norm_num)

end Verif.TCurveDouble
