import Verif.Proofs.TCurveDoubleTimes
import Verif.Spec.TrajectoryDouble
import Verif.Props.RigidBodyState
/-! # Trajectories in doubles: lemmas -/
namespace Verif.TrajectoryDouble
open Verif.Spec hiding Jet
open Verif.TransformDouble Verif.ExpDouble Verif.LogDouble Verif.TCurveDouble Verif.Binary64 Verif.Props Matrix SO3

theorem realVec_neg (v : Fin 3 → ℚ) : realVec (-v) = -realVec v := by ext i; simp [realVec]

theorem inv_eq (G : Pose) : SE3.inv G = (G.1ᵀ, -(G.1ᵀ *ᵥ G.2)) := by
  simp [SE3.inv, SO3.inv, SO3.act, mulVec_neg]

/-- Errors of an inverse. -/
theorem inverse_near {e f N : ℝ} {p c : Stored} {G : Pose} (hr : IsRotation G.1) (ha : TurnsAlike e (realRot p.rot) G.1)
    (ht : eucNorm (realVec p.trans - G.2) ≤ f) (hn : eucNorm G.2 ≤ N) (hc : Inverse p c) :
    TurnsAlike e (realRot c.rot) (SE3.inv G).1 ∧
    eucNorm (realVec c.trans - (SE3.inv G).2) ≤ (6.002 * U * (1 + e) + e) * (N + f) + f + 250 * H := by
  obtain ⟨h1, h2⟩ := hc
  have he := turnsAlike_nonneg ha
  have hU := U_pos
  have ha' : TurnsAlike e (realRot p.rot.transpose) G.1ᵀ := turnsAlike_transpose ha
  have hr' := isRotation_transpose hr
  rw [inv_eq]
  refine ⟨by rw [h1]; exact ha', ?_⟩
  have k1 := rotated_error h2 hr' ha'
  have k2 := ha' (realVec (-p.trans))
  have hp : eucNorm (realVec (-p.trans)) ≤ N + f := by
    rw [realVec_neg, eucNorm_neg]
    have : realVec p.trans = G.2 + (realVec p.trans - G.2) := by abel
    rw [this]
    exact (eucNorm_add_le _ _).trans (by linarith)
  have k3 : eucNorm (G.1ᵀ *ᵥ (G.2 - realVec p.trans)) ≤ f := by
    rw [eucNorm_mulVec hr', ← eucNorm_neg, neg_sub]
    exact ht
  have e1 : realVec c.trans - -(G.1ᵀ *ᵥ G.2) = (realVec c.trans - realRot p.rot.transpose *ᵥ realVec (-p.trans)) +
      ((realRot p.rot.transpose *ᵥ realVec (-p.trans) - G.1ᵀ *ᵥ realVec (-p.trans)) + G.1ᵀ *ᵥ (G.2 - realVec p.trans)) := by
    rw [mulVec_sub, realVec_neg, mulVec_neg, mulVec_neg]
    abel
  change eucNorm (realVec c.trans - -(G.1ᵀ *ᵥ G.2)) ≤ _
  rw [e1]
  have m1 : (1 + e) * eucNorm (realVec (-p.trans)) ≤ (1 + e) * (N + f) := mul_le_mul_of_nonneg_left hp (by linarith)
  have m2 : 6.002 * U * ((1 + e) * eucNorm (realVec (-p.trans))) ≤ 6.002 * U * ((1 + e) * (N + f)) := mul_le_mul_of_nonneg_left m1 (by linarith)
  have m3 : e * eucNorm (realVec (-p.trans)) ≤ e * (N + f) := mul_le_mul_of_nonneg_left hp he
  have t1 := eucNorm_add_le (realVec c.trans - realRot p.rot.transpose *ᵥ realVec (-p.trans))
    ((realRot p.rot.transpose *ᵥ realVec (-p.trans) - G.1ᵀ *ᵥ realVec (-p.trans)) + G.1ᵀ *ᵥ (G.2 - realVec p.trans))
  have t2 := eucNorm_add_le (realRot p.rot.transpose *ᵥ realVec (-p.trans) - G.1ᵀ *ᵥ realVec (-p.trans)) (G.1ᵀ *ᵥ (G.2 - realVec p.trans))
  linarith only [k1, k2, k3, m2, m3, t1, t2]

/-- The left two-jet that is stored for a state. -/
theorem control_pose {δ B : ℝ} (hδ : δ ≤ 4e-11) (hB : 2 ^ (-1000 : ℤ) ≤ B) {p c : Stored} {G : Pose} (h : StoresPose δ B p G) (hc : Inverse p c) :
    StoresPose (2.001 * δ + 7 * U) B c (SE3.inv G) := by
  have hU := U_pos
  have hU1 := U_tiny.1
  have hδ0 : 0 ≤ δ := turnsAlike_nonneg h.rot
  have hB0 : 0 < B := lt_of_lt_of_le (by positivity) hB
  have hH := H_small hB
  obtain ⟨k1, k2⟩ := inverse_near h.rotation h.rot h.trans h.bound hc
  have ei := inv_eq G
  refine ⟨?_, turnsAlike_mono k1 (by linarith), ?_, k2.trans ?_⟩
  · rw [ei]; exact isRotation_transpose h.rotation
  · rw [ei]
    change eucNorm (-(G.1ᵀ *ᵥ G.2)) ≤ B
    rw [eucNorm_neg, eucNorm_mulVec (isRotation_transpose h.rotation)]
    exact h.bound
  · have e : (6.002 * U * (1 + δ) + δ) * (B + δ * B) + δ * B = ((6.002 * U * (1 + δ) + δ) * (1 + δ) + δ) * B := by ring
    have l : (6.002 * U * (1 + δ) + δ) * (1 + δ) + δ ≤ 2.001 * δ + 6.9 * U := by
      have q1 : U * δ ≤ U * 1e-10 := mul_le_mul_of_nonneg_left (by norm_num at hδ ⊢; linarith) hU.le
      have q2 : U * δ * δ ≤ U * 1e-10 := by
        have : U * δ * δ ≤ U * δ * 1 := mul_le_mul_of_nonneg_left (by norm_num at hδ ⊢; linarith) (mul_nonneg hU.le hδ0)
        linarith
      have q3 : δ * δ ≤ δ * 1e-10 := mul_le_mul_of_nonneg_left (by norm_num at hδ ⊢; linarith) hδ0
      have : (6.002 * U * (1 + δ) + δ) * (1 + δ) + δ = 6.002 * U + 12.004 * (U * δ) + 6.002 * (U * δ * δ) + 2 * δ + δ * δ := by ring
      rw [this]
      norm_num at q1 q2 q3 ⊢
      linarith
    have m := mul_le_mul_of_nonneg_right l hB0.le
    rw [e]
    have p := mul_nonneg hU.le hB0.le
    linarith only [m, hH, p]

/-- The answer. -/
theorem answer_pose {δ B ε : ℝ} (hε : ε = 2.001 * δ + 98 * U) (hδ0 : 0 ≤ δ) (hδ : δ ≤ 4e-11) (hB : 2 ^ (-1000 : ℤ) ≤ B) {p c : Stored} {G : Pose}
    (hr : IsRotation G.1) (ha : TurnsAlike (1210 * ε) (realRot p.rot) G.1) (ht : eucNorm (realVec p.trans - G.2) ≤ 6600 * ε * B)
    (hn : eucNorm G.2 ≤ 2.7 * B) (hc : Inverse p c) : TurnsAlike (2430 * (δ + 49 * U)) (realRot c.rot) (SE3.inv G).1 ∧
    eucNorm (realVec c.trans - (SE3.inv G).2) ≤ 19800 * (δ + 49 * U) * B := by
  have hU := U_pos
  have hU1 := U_tiny.1
  have hB0 : 0 < B := lt_of_lt_of_le (by positivity) hB
  have hH := H_small hB
  obtain ⟨k1, k2⟩ := inverse_near hr ha ht hn hc
  have he0 : 0 ≤ ε := by linarith
  have he1 : ε ≤ 9e-11 := by rw [hε]; norm_num at hδ hU1 ⊢; linarith
  have he2 : 98 * U ≤ ε := by linarith
  have he3 : ε ≤ 2.001 * (δ + 49 * U) := by linarith
  refine ⟨turnsAlike_mono k1 (by linarith), k2.trans ?_⟩
  have e : (6.002 * U * (1 + 1210 * ε) + 1210 * ε) * (2.7 * B + 6600 * ε * B) + 6600 * ε * B =
      ((6.002 * U * (1 + 1210 * ε) + 1210 * ε) * (2.7 + 6600 * ε) + 6600 * ε) * B := by ring
  have l : (6.002 * U * (1 + 1210 * ε) + 1210 * ε) * (2.7 + 6600 * ε) + 6600 * ε ≤ 9870 * ε := by
    have q1 : 6.002 * U * (1 + 1210 * ε) + 1210 * ε ≤ 1210.07 * ε := by
      have : U * ε ≤ U * 1 := mul_le_mul_of_nonneg_left (by norm_num at he1 ⊢; linarith) hU.le
      have : U * ε ≤ U * 9e-11 := mul_le_mul_of_nonneg_left he1 hU.le
      norm_num at this ⊢
      linarith
    have q2 : 2.7 + 6600 * ε ≤ 2.7001 := by norm_num at he1 ⊢; linarith
    have := mul_le_mul q1 q2 (by linarith) (by linarith)
    norm_num at this ⊢
    linarith
  have m := mul_le_mul_of_nonneg_right (l.trans (mul_le_mul_of_nonneg_left he3 (by norm_num))) hB0.le
  rw [e]
  have p := mul_nonneg hU.le hB0.le
  have p' := mul_nonneg hδ0 hB0.le
  linarith only [m, hH, p, p']

/-- The intended left two-jet of an intended state, and back. -/
noncomputable def reversed (S : Pose × Twist × Twist) : Pose × Twist × Twist := (SE3.inv S.1, -S.2.1, -S.2.2)

theorem reversed_reversed {S : Pose × Twist × Twist} (h : IsRotation S.1.1) : reversed (reversed S) = S := by
  have : SE3.inv (SE3.inv S.1) = S.1 := by
    rw [inv_eq, inv_eq]
    simp only [transpose_transpose, mulVec_neg, neg_neg, mulVec_mulVec]
    rw [mul_eq_one_comm.mp h.orth, one_mulVec]
  unfold reversed
  simp only [this, neg_neg]

theorem rate_neg {δ B T : ℝ} {y : Tangent} {x : Twist} (h : StoresRate δ B T y x) : StoresRate δ B T (-y) (-x) := by
  have e : ∀ (v : Fin 3 → ℚ) (w : V3), eucNorm (realVec (-v) - -w) = eucNorm (realVec v - w) := fun v w => by
    rw [realVec_neg, ← eucNorm_neg]; congr 1; abel
  refine ⟨?_, ?_, ?_, ?_⟩
  · change T * eucNorm (-x.1) ≤ 10
    rw [eucNorm_neg]; exact h.turn
  · change T * eucNorm (-x.2) ≤ B
    rw [eucNorm_neg]; exact h.bound
  · change T * eucNorm (realVec (-y.1) - -x.1) ≤ δ
    rw [e]; exact h.rot
  · change T * eucNorm (realVec (-y.2) - -x.2) ≤ δ * B
    rw [e]; exact h.trans

theorem twistHat_neg (x : Twist) : twistHat (-x) = -twistHat x := by
  have := se3Rep.hat_smul (-1) x
  rw [neg_one_smul, neg_one_smul] at this
  exact this

theorem exp_cancel (c : ℝ) (x : Twist) :
    NormedSpace.exp (c • twistHat x) * NormedSpace.exp (c • twistHat (-x)) = 1 := by
  have hc : Commute (c • twistHat x) (-(c • twistHat x)) := by
    change _ * _ = _ * _
    rw [Matrix.mul_neg, Matrix.neg_mul]
  rw [twistHat_neg, smul_neg, ← Matrix.exp_add_of_commute _ _ hc, add_neg_cancel, NormedSpace.exp_zero]

theorem poseMatrix_inv {G : Pose} (h : IsRotation G.1) : poseMatrix (SE3.inv G) * poseMatrix G = 1 ∧ poseMatrix G * poseMatrix (SE3.inv G) = 1 :=
  SE3.H_inv h

/-- What leads from one pose to the next seen from the body leads back seen from outside. -/
theorem leads_reversed {G G' : Pose} (h : IsRotation G.1) (h' : IsRotation G'.1) {y : Twist}
    (e : poseMatrix G' = poseMatrix G * NormedSpace.exp (twistHat y)) :
    poseMatrix (SE3.inv G') = NormedSpace.exp (twistHat (-y)) * poseMatrix (SE3.inv G) := by
  have c := exp_cancel 1 y
  rw [one_smul, one_smul] at c
  have k : poseMatrix G' * (NormedSpace.exp (twistHat (-y)) * poseMatrix (SE3.inv G)) = 1 := by
    rw [e, Matrix.mul_assoc, ← Matrix.mul_assoc (NormedSpace.exp (twistHat y)), c, Matrix.one_mul, (poseMatrix_inv h).2]
  calc poseMatrix (SE3.inv G') = poseMatrix (SE3.inv G') * (poseMatrix G' * (NormedSpace.exp (twistHat (-y)) * poseMatrix (SE3.inv G))) := by
        rw [k, Matrix.mul_one]
    _ = _ := by rw [← Matrix.mul_assoc, (poseMatrix_inv h').1, Matrix.one_mul]

theorem body_quintic {S S' : Pose × Twist × Twist} (h : IsRotation S.1.1) (y : Twist) (u : ℝ) :
    bodyMotion y S S' u * quinticMotion (-y) (reversed S) (reversed S') u = 1 := by
  unfold bodyMotion quinticMotion reversed
  have c : ∀ (a : ℝ) (z : Twist) (M : Matrix (Fin 3 ⊕ Unit) (Fin 3 ⊕ Unit) ℝ),
      NormedSpace.exp (a • twistHat z) * (NormedSpace.exp (a • twistHat (-z)) * M) = M := fun a z M => by
    rw [← Matrix.mul_assoc, exp_cancel, Matrix.one_mul]
  simp only [Matrix.mul_assoc]
  rw [c, c, c, c, c]
  exact (poseMatrix_inv h).2


/-- A motion made of screws from a pose stays among the poses. -/
theorem quintic_rotation {x : Twist} {J J' : Pose × Twist × Twist} {u : ℝ} {G : Pose} (hJ : IsRotation J.1.1) (h : poseMatrix G = quinticMotion x J J' u) :
    IsRotation G.1 := by
  have hexp : ∀ (c : ℝ) (y : Twist), NormedSpace.exp (c • twistHat y) = SE3.H (SE3.xexp (c • y)) := by
    intro c y
    rw [SE3.H_xexp]
    congr 1
    exact (se3Rep.hat_smul c y).symm
  unfold quinticMotion at h
  rw [hexp, hexp, hexp, hexp, hexp] at h
  change SE3.H G = _ * SE3.H J.1 at h
  rw [← SE3.H_mul, ← SE3.H_mul, ← SE3.H_mul, ← SE3.H_mul, ← SE3.H_mul] at h
  rw [SE3.H_injective h]
  have hv : ∀ z, PoseValid (SE3.xexp z) := fun z => SO3.isRotation_exp z.1
  exact SE3.xlaws.valid_mul (SE3.xlaws.valid_mul (SE3.xlaws.valid_mul (SE3.xlaws.valid_mul (SE3.xlaws.valid_mul (hv _) (hv _)) (hv _)) (hv _)) (hv _)) hJ

/-- The motion of a body is the motion of the reference frame seen from the body, backwards. -/
theorem body_piece {y : Twist} {t t' : ℝ} {S S' : Pose × Twist × Twist} {Γ : ℝ → Pose × Twist × Twist} (h : IsRotation S.1.1) (h' : IsRotation S'.1.1)
    (hp : IsPiece (-y) t t' (reversed S) (reversed S') Γ) : (∀ s, IsRotation (Γ s).1.1) ∧ IsBodyPiece y t t' S S' (fun s => reversed (Γ s)) := by
  have hi : ∀ (T : ℝ) (S : Pose × Twist × Twist), inUnits T (reversed S) = reversed (inUnits T S) := fun T S => by
    simp only [inUnits, reversed, smul_neg]
  have hrot : ∀ s, IsRotation (Γ s).1.1 := fun s => by
    refine quintic_rotation ?_ (hp.formula s)
    change IsRotation (SE3.inv S.1).1
    rw [inv_eq]
    exact isRotation_transpose h
  refine ⟨hrot, ⟨fun s => ?_, fun s => ?_, fun s => ?_, ?_, ?_⟩⟩
  · have k := body_quintic (S := inUnits (t' - t) S) (S' := inUnits (t' - t) S') h y ((s - t) / (t' - t))
    rw [← hi, ← hi, ← hp.formula s] at k
    have := (poseMatrix_inv (hrot s)).2
    exact (left_inv_eq_right_inv k this).symm
  · change IsRotation (SE3.inv (Γ s).1).1
    rw [inv_eq]
    exact isRotation_transpose (hrot s)
  · have := SE3.xrep.left_inv (g := fun r => (Γ r).1) (fun r => hrot r) (hp.jet s)
    exact (c48_body_kinematics ⟨⟨⟨(Γ s).1, Frame.null, Frame.null⟩, -(Γ s).2.1, -(Γ s).2.2⟩⟩ (fun r => SE3.inv (Γ r).1) s).mp this
  · rw [hp.start, reversed_reversed h]
  · rw [hp.stop, reversed_reversed h']

variable {δ B : ℝ} {ats : List ℤ} {ss : List State} {S : ℕ → Pose × Twist × Twist} {y : ℕ → Twist}

/-- The times of the curve. -/
def curveTimes (ats : List ℤ) : List ℚ := ats.map fun a => asSeconds (a - ats.getD 0 0)

theorem curveTimes_length : (curveTimes ats).length = ats.length := List.length_map _

theorem getD_get {l : List ℤ} {i : ℕ} (h : i < l.length) : l.getD i 0 = l[i] := by simp [List.getD, h]

theorem curveTimes_get (i : ℕ) (h : i < (curveTimes ats).length) : (curveTimes ats)[i] = secondsTo ats i := by
  have h' : i < ats.length := by rwa [curveTimes_length] at h
  unfold secondsTo
  rw [getD_get h']
  simp [curveTimes]

/-- The times as the curve needs them. -/
theorem times_ok (span : ∀ a ∈ ats, InI64 (a - ats.getD 0 0)) (order : ∀ i, i + 1 < ats.length → secondsTo ats i < secondsTo ats (i + 1)) :
    (∀ t ∈ curveTimes ats, IsDouble t) ∧ ∀ (i : ℕ) (h : i + 1 < (curveTimes ats).length),
      (2 : ℚ) ^ (-1021 : ℤ) ≤ (curveTimes ats)[i + 1] - (curveTimes ats)[i] ∧ (curveTimes ats)[i + 1] - (curveTimes ats)[i] ≤ 2 ^ (100 : ℤ) := by
  constructor
  · intro t ht
    obtain ⟨a, ha, rfl⟩ := List.mem_map.mp ht
    exact (Double.asSeconds_multiple (span a ha)).1
  · intro i h
    have h' : i + 1 < ats.length := by rwa [curveTimes_length] at h
    have o := order i h'
    have s1 := span ats[i] (List.getElem_mem _)
    have s2 := span ats[i + 1] (List.getElem_mem _)
    rw [curveTimes_get, curveTimes_get]
    unfold secondsTo at o ⊢
    rw [getD_get h', getD_get (by omega : i < ats.length)] at o ⊢
    refine ⟨(Double.asSeconds_step s1 s2 o).1, ?_⟩
    have b1 := abs_le.mp (Double.asSeconds_multiple s1).2.1
    have b2 := abs_le.mp (Double.asSeconds_multiple s2).2.1
    have : (2 : ℚ) ^ (36 : ℤ) ≤ 2 ^ (100 : ℤ) := zpow_le_zpow_right₀ (by norm_num) (by norm_num)
    refine le_trans ?_ this
    norm_num at b1 b2 ⊢
    linarith

/-- What the curve of a trajectory stores. -/
theorem stores_curve (hδ : δ ≤ 4e-11) (hB : 2 ^ (-1000 : ℤ) ≤ B) (hs : StoresTrajectory δ B ats ss S y) {js : List Jet} (hj : List.Forall₂ LeftOf ss js) :
    StoresCurve (2.001 * δ + 7 * U) B (curveTimes ats) js (fun i => reversed (S i)) (fun i => -y i) := by
  have hU := U_pos
  have hl : ss.length = js.length := hj.length_eq
  have hjl : js.length = ats.length := hl.symm.trans hs.length
  have hget : ∀ (i : ℕ) (h : i < ss.length) (h' : i < js.length), LeftOf ss[i] js[i] := fun i h h' => hj.get h h'
  obtain ⟨t1, t2⟩ := times_ok hs.span hs.order
  refine ⟨by rw [hjl, curveTimes_length], t1, t2, fun i h => ?_, fun i h => ?_, fun i h k hk hki => ?_⟩
  · exact control_pose hδ hB (hs.pose i (by omega)) (hget i (by omega) h).1
  · have k1 := (hs.pose i (by omega)).rotation
    have k2 := (hs.pose (i + 1) (by omega)).rotation
    refine ⟨leads_reversed k1 k2 (hs.leads i (by omega)), ?_, ?_⟩
    · change eucNorm (-(y i).1) ≤ _
      rw [eucNorm_neg]
      have h0 : 0 ≤ δ := turnsAlike_nonneg (hs.pose i (by omega)).rot
      have h1 : eucNorm (y i).1 ≤ Real.pi - (661 * δ + 33400 * U) := hs.turn i (by omega)
      change _ ≤ Real.pi - (330 * (2.001 * δ + 7 * U + 81 * U) + 4300 * U)
      linarith
    · change eucNorm (-(y i).2) ≤ _
      rw [eucNorm_neg]
      exact hs.bound i (by omega)
  · have h' : i + 1 < ats.length := by rwa [curveTimes_length] at h
    have hk' : k < ss.length := by omega
    obtain ⟨r1, r2⟩ := hs.rates i h' k hk' hki
    obtain ⟨-, d1, d2⟩ := hget k hk' hk
    rw [curveTimes_get, curveTimes_get, d1, d2]
    have h0 : 0 ≤ δ := turnsAlike_nonneg (hs.pose k hk').rot
    have mono : ∀ {T : ℝ} {z : Tangent} {x : Twist}, StoresRate δ B T z x → StoresRate (2.001 * δ + 7 * U) B T z x := fun h =>
      ⟨h.turn, h.bound, h.rot.trans (by linarith), h.trans.trans (mul_le_mul_of_nonneg_right (by linarith) ((by positivity : (0 : ℝ) ≤ 2 ^ (-1000 : ℤ)).trans hB))⟩
    exact ⟨mono (rate_neg r1), mono (rate_neg r2)⟩

theorem stateWithin_of_jet {r t dr dt d2r d2t : ℝ} {j : Jet} {s : State} {J : Pose × Twist × Twist} {a b c d : ℝ} (hj : JetWithin r t a b c d j J)
    (h : RightOf j s) {r' t' : ℝ} (hr : TurnsAlike r' (realRot s.g.rot) (SE3.inv J.1).1) (ht : eucNorm (realVec s.g.trans - (SE3.inv J.1).2) ≤ t')
    (h1 : a ≤ dr) (h2 : b ≤ dt) (h3 : c ≤ d2r) (h4 : d ≤ d2t) : StateWithin r' t' dr dt d2r d2t s (reversed J) := by
  obtain ⟨-, e1, e2⟩ := h
  have e : ∀ (v : Fin 3 → ℚ) (w : V3), eucNorm (realVec (-v) - -w) = eucNorm (realVec v - w) := fun v w => by
    rw [realVec_neg, ← eucNorm_neg]; congr 1; abel
  refine ⟨hr, ht, ?_, ?_, ?_, ?_⟩
  · rw [e1]
    change eucNorm (realVec (-j.d.1) - -J.2.1.1) ≤ _
    rw [e]; exact hj.drot.trans h1
  · rw [e1]
    change eucNorm (realVec (-j.d.2) - -J.2.1.2) ≤ _
    rw [e]; exact hj.dtrans.trans h2
  · rw [e2]
    change eucNorm (realVec (-j.d2.1) - -J.2.2.1) ≤ _
    rw [e]; exact hj.d2rot.trans h3
  · rw [e2]
    change eucNorm (realVec (-j.d2.2) - -J.2.2.2) ≤ _
    rw [e]; exact hj.d2trans.trans h4

end Verif.TrajectoryDouble
