import Verif.Proofs.MessageDouble
import Verif.Props.TrajectoryDouble
/-! # C116: accuracy of what is relayed through messages -/
namespace Verif.Props
open Verif.CurveExamples (zAxis)
open Verif.Spec hiding Jet
open Verif.TransformDouble Verif.ExpDouble Verif.LogDouble Verif.TCurveDouble Verif.TrajectoryDouble Verif.MessageDouble Verif.Binary64 Matrix SO3

/-- C116, rotations: after any number of messages a rotation is within 420 roundings of an exact one, however far the data was from one; and it is near the
rotation that was meant, with errors that grow by the same amount with every message. -/
theorem c116_rotation {m m' : Matrix (Fin 3) (Fin 3) ℚ} {R : M3} {δ : ℝ} (hR : IsRotation R) (hm : TurnsAlike δ (realRot m) R) (hδ : δ ≤ 1 / 1000) {n : ℕ}
    (hn : 1 ≤ n) (h : Times RelayRotation n m m') :
    TurnsAlike (100 * δ + 43000 * n * 2 ^ (-53 : ℤ)) (realRot m') R ∧ ∃ R', IsRotation R' ∧ TurnsAlike (420 * 2 ^ (-53 : ℤ)) (realRot m') R' := by
  have hU := U_pos
  obtain ⟨k, rfl⟩ : ∃ k, n = k + 1 := ⟨n - 1, by omega⟩
  obtain ⟨R', r1, r2, r3⟩ := relays_rotation hR hm hδ k m' h
  refine ⟨turnsAlike_mono (turnsAlike_trans r2 r3) ?_, R', r1, r2⟩
  change _ ≤ 100 * δ + 43000 * ((k + 1 : ℕ) : ℝ) * U
  have : 0 ≤ (k : ℝ) * U := by positivity
  push_cast
  linarith

/-- C116, transforms: after any number of messages. -/
theorem c116_transform {g g' : Stored} {G : Pose} {δ B : ℝ} (hB : 2 ^ (-1000 : ℤ) ≤ B) (hs : StoresPose δ B g G) {n : ℕ} (hn : 1 ≤ n)
    (hb : 100 * δ + 43000 * n * 2 ^ (-53 : ℤ) ≤ 1 / 1000) (h : Times Relay n g g') :
    StoresPose (100 * δ + 43000 * n * 2 ^ (-53 : ℤ)) B g' G ∧ eucNorm (realVec g'.trans - G.2) ≤ (δ + 36000 * n * 2 ^ (-53 : ℤ)) * B :=
  ⟨relays_pose hB hs hn hb h, relays_trans hB hs n hb g' h⟩

/-- C116, states: pose as above, velocity and acceleration as they were. -/
theorem c116_state {s s' : State} {G : Pose} {δ B : ℝ} (hB : 2 ^ (-1000 : ℤ) ≤ B) (hs : StoresPose δ B s.g G) {n : ℕ} (hn : 1 ≤ n)
    (hb : 100 * δ + 43000 * n * 2 ^ (-53 : ℤ) ≤ 1 / 1000) (h : Times RelayState n s s') :
    StoresPose (100 * δ + 43000 * n * 2 ^ (-53 : ℤ)) B s'.g G ∧ s'.d = s.d ∧ s'.d2 = s.d2 := by
  obtain ⟨h1, h2⟩ := relays_state h
  exact ⟨relays_pose hB hs hn hb h1, h2⟩

/-- C116, time curves: what a curve that went through `n` messages answers is near the exact motion between the points that were meant. -/
theorem c116_curve {δ B ε : ℝ} {n : ℕ} (hn : 1 ≤ n) (hε : ε = 100 * δ + 43100 * n * 2 ^ (-53 : ℤ)) (hb : ε ≤ 9e-11) (hB : 2 ^ (-800 : ℤ) ≤ B)
    {ts : List ℚ} {ps ps' : List Jet} {J : ℕ → Pose × Twist × Twist} {x : ℕ → Twist} (hs : StoresCurve δ B ts ps J x)
    (ht : ∀ i, i + 1 < ps.length → eucNorm (x i).1 ≤ Real.pi - 340 * ε) (h : Times RelayCurve n ps ps') :
    ∃ Γ : ℕ → ℝ → Pose × Twist × Twist, (∀ (i : ℕ) (h : i + 1 < ts.length), IsPiece (x i) ts[i] ts[i + 1] (J i) (J (i + 1)) (Γ i)) ∧
      ∀ (q : ℚ) (out : Jet), IsDouble q → PointAt ts ps' q out → ∃ (i : ℕ) (h : i + 1 < ts.length) (τ T : ℝ), T = (ts[i + 1] : ℝ) - ts[i] ∧
        (ts[i] : ℝ) ≤ q ∧ (q : ℝ) ≤ ts[i + 1] ∧ ts[i] ≤ τ ∧ τ ≤ ts[i + 1] ∧ |τ - q| ≤ 2 ^ (-50 : ℤ) * T ∧
        JetWithin (1210 * ε) (6600 * ε * B) (11010 * ε / T) (19910 * ε * B / T) (263200 * ε / T ^ 2) (550200 * ε * B / T ^ 2) out (Γ i τ) := by
  have hU := U_pos
  have hU1 := U_tiny.1
  have hB0 : 0 < B := lt_of_lt_of_le (by positivity) hB
  have hB1 : (2 : ℝ) ^ (-1000 : ℤ) ≤ B := (zpow_le_zpow_right₀ (by norm_num) (by norm_num)).trans hB
  have hnU : U ≤ n * U := le_mul_of_one_le_left hU.le (by exact_mod_cast hn)
  change ε = 100 * δ + 43100 * n * U at hε
  have le : 100 * δ + 43000 * n * U + 91 * U ≤ ε := by linarith
  have hl := hs.length
  have hc : 2 ≤ ts.length → StoresCurve (100 * δ + 43000 * n * U) B ts ps' J x := fun h2 => by
    have hδ0 : 0 ≤ δ := turnsAlike_nonneg (hs.pose 0 (by omega)).rot
    refine relays_curve hn (by norm_num at hb ⊢; linarith) hB1 hs (fun i hi => (ht i hi).trans ?_) h
    linarith
  by_cases h2 : 2 ≤ ts.length
  · obtain ⟨Γ, k1, k2⟩ := c112_curve (by norm_num at hb ⊢; linarith) hB (hc h2)
    refine ⟨Γ, k1, fun q out hq hp => ?_⟩
    obtain ⟨i, hi, τ, h1, h2, h3, h4, h5, h6⟩ := k2 q out hq hp
    have hT : 0 < (ts[i + 1] : ℝ) - ts[i] := by
      have : 0 < ts[i + 1] - ts[i] := lt_of_lt_of_le (by positivity) (hs.step i hi).1
      exact_mod_cast this
    obtain ⟨T, eT⟩ : ∃ T : ℝ, T = (ts[i + 1] : ℝ) - ts[i] := ⟨_, rfl⟩
    rw [← eT] at hT h5 h6
    refine ⟨i, hi, τ, T, eT, h1, h2, h3, h4, h5, ?_⟩
    change JetWithin (1210 * (100 * δ + 43000 * n * U + 91 * U)) (6600 * (100 * δ + 43000 * n * U + 91 * U) * B)
      (11010 * (100 * δ + 43000 * n * U + 91 * U) / T) (19910 * (100 * δ + 43000 * n * U + 91 * U) * B / T)
      (263200 * (100 * δ + 43000 * n * U + 91 * U) / T ^ 2) (550200 * (100 * δ + 43000 * n * U + 91 * U) * B / T ^ 2) out (Γ i τ) at h6
    obtain ⟨a1, a2, a3, a4, a5, a6⟩ := h6
    have up : ∀ c : ℝ, 0 ≤ c → c * (100 * δ + 43000 * n * U + 91 * U) ≤ c * ε := fun c h => mul_le_mul_of_nonneg_left le h
    exact ⟨turnsAlike_mono a1 (up _ (by norm_num)), a2.trans (mul_le_mul_of_nonneg_right (up _ (by norm_num)) hB0.le),
      a3.trans (div_le_div_of_nonneg_right (up _ (by norm_num)) hT.le),
      a4.trans (div_le_div_of_nonneg_right (mul_le_mul_of_nonneg_right (up _ (by norm_num)) hB0.le) hT.le),
      a5.trans (div_le_div_of_nonneg_right (up _ (by norm_num)) (sq_nonneg T)),
      a6.trans (div_le_div_of_nonneg_right (mul_le_mul_of_nonneg_right (up _ (by norm_num)) hB0.le) (sq_nonneg T))⟩
  · refine ⟨fun i _ => J i, fun i hi => by omega, fun q out hq hp => ?_⟩
    have hlen := (relays_list h).length_eq
    obtain ⟨c, i, dt, inv, t, p, p', o, d, r, -, -, ⟨s, s', -, g2, -⟩, -⟩ := hp
    have := (List.getElem?_eq_some_iff.mp g2).1
    omega

/-- C116, distance curves: the controls of a distance curve that was relayed still mean the poses they meant, so that its distances and points are as accurate
as C111 says for the larger error. -/
theorem c116_distance_controls {δ B ε : ℝ} {n : ℕ} (hn : 1 ≤ n) (hε : ε = 100 * δ + 43000 * n * 2 ^ (-53 : ℤ)) (hb : ε ≤ 1e-5) (hB : 2 ^ (-1000 : ℤ) ≤ B)
    {ps ps' : List Stored} {G : ℕ → Pose} {x : ℕ → Twist} (hs : StoresPoses δ B ps G x)
    (ht : ∀ i, i + 1 < ps.length → eucNorm (x i).1 ≤ Real.pi - (330 * ε + 4300 * 2 ^ (-53 : ℤ))) (h : Times RelayPoses n ps ps') :
    ps'.length = ps.length ∧ StoresPoses ε B ps' G x := by
  have hl := relays_list h
  have hlen := hl.length_eq
  refine ⟨hlen.symm, fun i hi => ?_, fun i hi => hs.leads i (by omega), fun i hi => ht i (by omega)⟩
  rw [hε]
  refine relays_pose hB (hs.stores i (by omega)) hn ?_ (hl.get (by omega) hi)
  change ε = 100 * δ + 43000 * n * U at hε
  rw [← hε]
  exact hb.trans (by norm_num)

/-- C116, distance curves: the pose computed for the distance `y` on the curve that is made of the relayed controls. -/
theorem c116_distance_point {δ B D ε : ℝ} {m : ℕ} (hm : 1 ≤ m) (hε : ε = 100 * δ + 43000 * m * 2 ^ (-53 : ℤ)) (hb : ε ≤ 1e-5) (hB : 2 ^ (-1000 : ℤ) ≤ B)
    {ps ps' rels : List Stored} {lens : List ℚ} {G : ℕ → Pose} {x : ℕ → Twist} (hs : StoresPoses δ B ps G x)
    (ht : ∀ i, i + 1 < ps.length → eucNorm (x i).1 ≤ Real.pi - (330 * ε + 4300 * 2 ^ (-53 : ℤ))) (h : Times RelayPoses m ps ps')
    (hmade : DCurveDouble.Made ps' rels lens) (hd : ∀ l ∈ lens, IsDouble l) {n : ℕ} (hps : ps.length = n + 1) (hn : n ≤ 2 ^ 40)
    (hD : ∀ i < n, eucNorm (x i).2 ≤ D) {as : List ℚ} (ha : (DLengths.make (lens.map .num)).controls = as.map .num) {y : ℚ} (hy : IsDouble y)
    {g : Stored} (hg : DCurveDouble.PointAt ps' rels lens y g) :
    ∃ s p, IsPoseAt G x n s p ∧
      |s - y| ≤ (2000 * ε + (30300 + 1.1 * n) * 2 ^ (-53 : ℤ)) * distanceTo x n + n * ((44 * ε + 440 * 2 ^ (-53 : ℤ)) * B + 3e-28) ∧
      TurnsAlike (330 * ε + 4800 * 2 ^ (-53 : ℤ)) (realRot g.rot) p.1 ∧
      eucNorm (realVec g.trans - p.2) ≤ (2700 * ε + 50000 * 2 ^ (-53 : ℤ)) * D + (51 * ε + 510 * 2 ^ (-53 : ℤ)) * B := by
  obtain ⟨h1, h2⟩ := c116_distance_controls hm hε hb hB hs ht h
  exact c111_point hb hB hmade h2 hd (h1.trans hps) hn hD ha hy hg

/-- C116, trajectories: what a trajectory that went through `n` messages answers is near the exact motion of the body through the states that were meant. -/
theorem c116_trajectory {δ B η : ℝ} {n : ℕ} (hn : 1 ≤ n) (hη : η = 201 * δ + 43800 * n * 2 ^ (-53 : ℤ)) (hb : η ≤ 8e-11) (hB : 2 ^ (-800 : ℤ) ≤ B)
    {ats : List ℤ} {ss : List State} {S : ℕ → Pose × Twist × Twist} {y : ℕ → Twist} (hs : StoresTrajectory δ B ats ss S y)
    (ht : ∀ i, i + 1 < ss.length → eucNorm (y i).1 ≤ Real.pi - (66100 * δ + 14500000 * n * 2 ^ (-53 : ℤ))) :
    ∃ Γ : ℕ → ℝ → Pose × Twist × Twist,
      (∀ i, i + 1 < ats.length → IsBodyPiece (y i) (secondsTo ats i) (secondsTo ats (i + 1)) (S i) (S (i + 1)) (Γ i)) ∧
      ∀ (d : ℤ) (out : State), InI64 d → PointAfterRelays n ats ss d out → ∃ (i : ℕ) (τ T : ℝ), i + 1 < ats.length ∧
        T = (secondsTo ats (i + 1) : ℝ) - secondsTo ats i ∧ (secondsTo ats i : ℝ) ≤ asSeconds d ∧ (asSeconds d : ℝ) ≤ secondsTo ats (i + 1) ∧
        secondsTo ats i ≤ τ ∧ τ ≤ secondsTo ats (i + 1) ∧ |τ - asSeconds d| ≤ 2 ^ (-50 : ℤ) * T ∧
        StateWithin (1215 * η) (9900 * η * B) (11010 * η / T) (19910 * η * B / T) (263200 * η / T ^ 2) (550200 * η * B / T ^ 2) out (Γ i τ) :=
  ⟨fun i s => reversed (piece (secondsTo ats i) (secondsTo ats (i + 1)) (reversed (S i)) (reversed (S (i + 1))) s), fun _ hi => (body_pieces hs hi).2,
    fun _ _ hd h => relays_trajectory hn hη hb hB hs ht hd h⟩

/-- C116, answers: everything can be relayed any number of times, and a trajectory that was relayed answers for the same times as before. -/
theorem c116_computed (n : ℕ) : (∀ m, ∃ m', Times RelayRotation n m m') ∧ (∀ g, ∃ g', Times Relay n g g') ∧ (∀ s, ∃ s', Times RelayState n s s') ∧
    (∀ ps, ∃ ps', Times RelayCurve n ps ps') ∧ (∀ ps, ∃ ps', Times RelayPoses n ps ps') ∧
    ∀ (ats : List ℤ) (ss : List State), ss.length = ats.length → (∀ a ∈ ats, InI64 (a - ats.getD 0 0)) →
      (∀ i, i + 1 < ats.length → secondsTo ats i < secondsTo ats (i + 1)) → 2 ≤ ats.length →
      ∀ d, InI64 d → ((∃ out, PointAfterRelays n ats ss d out) ↔ ∃ out, PointAfter ats ss d out) := by
  refine ⟨relays_some relayRotation_some n, relays_some relay_some n, relays_some relayState_some n, relays_some (forall₂_some relayJet_some) n,
    relays_some (forall₂_some relay_some) n, fun ats ss hl span order h2 d hd => ?_⟩
  obtain ⟨t1, t2⟩ := times_ok span order
  have hlen : (curveTimes ats).length = ats.length := curveTimes_length
  have key : ∀ js js' : List Jet, js.length = ats.length → js'.length = ats.length →
      (∃ out, PointAt (curveTimes ats) js (asSeconds d) out) → ∃ out, PointAt (curveTimes ats) js' (asSeconds d) out := fun js js' k k' h => by
    rw [c112_computed.2 (curveTimes ats) js t1 (by rw [k, hlen]) t2 (asSeconds d) (Double.asSeconds_multiple hd).1] at h
    rw [c112_computed.2 (curveTimes ats) js' t1 (by rw [k', hlen]) t2 (asSeconds d) (Double.asSeconds_multiple hd).1]
    exact h
  have hh : ats.head? = some (ats.getD 0 0) := by
    cases ats with
    | nil => simp at h2
    | cons b l => simp
  constructor
  · rintro ⟨out, a₀, js, js', q, ha, hi, hj, hm, hp, -⟩
    rw [hh, Option.some.injEq] at ha
    subst ha
    have e1 := hj.length_eq
    have e2 := (relays_list hm).length_eq
    obtain ⟨q', hq'⟩ := key js' js (by omega) (by omega) ⟨q, hp⟩
    obtain ⟨c, hc⟩ := inverse_some q'.g
    exact ⟨⟨c, -q'.d, -q'.d2⟩, _, js, q', hh, hi, hj, hq', hc, rfl, rfl⟩
  · rintro ⟨out, a₀, js, q, ha, hi, hj, hp, -⟩
    rw [hh, Option.some.injEq] at ha
    subst ha
    obtain ⟨js', hm⟩ := relays_some (forall₂_some relayJet_some) n js
    have e1 := hj.length_eq
    have e2 := (relays_list hm).length_eq
    obtain ⟨q', hq'⟩ := key js js' (by omega) (by omega) ⟨q, hp⟩
    obtain ⟨c, hc⟩ := inverse_some q'.g
    exact ⟨⟨c, -q'.d, -q'.d2⟩, _, js, js', q', hh, hi, hj, hm, hq', hc, rfl, rfl⟩

/-- Half a turn about the first axis at a distance of two, stored exactly, through ten messages: still within 1e-10. -/
example : ∃ g', Times Relay 10 ⟨!![1, 0, 0; 0, -1, 0; 0, 0, -1], ![2, 0, 0]⟩ g' ∧
    TurnsAlike 1e-10 (realRot g'.rot) !![1, 0, 0; 0, -1, 0; 0, 0, -1] ∧ eucNorm (realVec g'.trans - ![2, 0, 0]) ≤ 1e-10 := by
  obtain ⟨g', hg⟩ := (c116_computed 10).2.1 ⟨!![1, 0, 0; 0, -1, 0; 0, 0, -1], ![2, 0, 0]⟩
  have e : realRot !![1, 0, 0; 0, -1, 0; 0, 0, -1] = !![1, 0, 0; 0, -1, 0; 0, 0, -1] := by
    ext i j; fin_cases i <;> fin_cases j <;> simp [realRot]
  have ev : realVec ![2, 0, 0] = ![2, 0, 0] := by ext i; fin_cases i <;> simp [realVec]
  have nv : eucNorm ![2, 0, 0] = 2 := by rw [eucNorm, sqNorm_eq]; simp
  have hR : IsRotation !![1, 0, 0; 0, -1, 0; 0, 0, -1] := by
    refine ⟨?_, ?_⟩
    · ext i j; fin_cases i <;> fin_cases j <;> simp [Matrix.mul_apply, Fin.sum_univ_three]
    · simp [Matrix.det_fin_three]
  have S : StoresPose 0 2 ⟨!![1, 0, 0; 0, -1, 0; 0, 0, -1], ![2, 0, 0]⟩ (!![1, 0, 0; 0, -1, 0; 0, 0, -1], ![2, 0, 0]) := by
    refine ⟨hR, ?_, nv.le, ?_⟩
    · intro x
      change eucNorm (realRot !![1, 0, 0; 0, -1, 0; 0, 0, -1] *ᵥ x - _) ≤ _
      rw [e, sub_self, eucNorm_zero, zero_mul]
    · change eucNorm (realVec ![2, 0, 0] - ![2, 0, 0]) ≤ _
      rw [ev, sub_self, eucNorm_zero, zero_mul]
  have hU := U_tiny.1
  unfold U at hU
  have hB : (2 : ℝ) ^ (-1000 : ℤ) ≤ 2 := (zpow_le_zpow_right₀ (by norm_num) (by norm_num : (-1000 : ℤ) ≤ 1)).trans (by norm_num)
  obtain ⟨h1, h2⟩ := c116_transform hB S (by norm_num : 1 ≤ 10) (by push_cast; linarith) hg
  push_cast at h1 h2
  exact ⟨g', hg, turnsAlike_mono h1.rot (by norm_num at hU ⊢), h2.trans (by norm_num at hU ⊢)⟩

/-- The trajectory of the example of C113 through three messages, at the middle. -/
example : ∃ (out : State) (Γ : ℝ → Pose × Twist × Twist) (τ : ℝ), PointAfterRelays 3 [5000000000, 7000000000] quarterStates 1000000000 out ∧
    Γ 0 = ((1, 0), (0, ![1 / 2, 0, 0]), 0) ∧ Γ 2 = ((!![0, -1, 0; 1, 0, 0; 0, 0, 1], ![1, 1, 0]), 0, 0) ∧
    (∀ s, BodyKinematics (fun r => (Γ r).1) s (Γ s).2.1.2 (Γ s).2.1.1 (Γ s).2.2.2 (Γ s).2.2.1) ∧
    |τ - 1| ≤ 1e-14 ∧ StateWithin 1e-7 1e-6 1e-6 1e-6 1e-5 1e-5 out (Γ τ) := by
  have C := quarter_trajectory
  obtain ⟨z0, z1, z2⟩ := quarter_times
  have hd : InI64 1000000000 := ⟨by decide, by decide⟩
  obtain ⟨k1, k2⟩ := c113_computed [5000000000, 7000000000] quarterStates C.length C.span C.order (by simp)
  obtain ⟨out, h⟩ := ((c116_computed 3).2.2.2.2.2 [5000000000, 7000000000] quarterStates C.length C.span C.order (by simp) 1000000000 hd).mpr
    ((k1 1000000000 hd).mpr ⟨by rw [z2]; norm_num, by
      change asSeconds 1000000000 ≤ secondsTo [5000000000, 7000000000] 1
      rw [z1, z2]; norm_num⟩)
  have hB : (2 : ℝ) ^ (-800 : ℤ) ≤ 2 := (zpow_le_zpow_right₀ (by norm_num) (by norm_num : (-800 : ℤ) ≤ 1)).trans (by norm_num)
  have hU1 := U_tiny.1
  have n1 : eucNorm ((Real.pi / 2) • zAxis) = Real.pi / 2 := by
    rw [eucNorm_smul, zAxis_norm, mul_one, abs_of_pos Real.pi_div_two_pos]
  have hpi := Real.pi_gt_d4
  obtain ⟨η, hη⟩ : ∃ η : ℝ, η = 201 * 0 + 43800 * (3 : ℕ) * 2 ^ (-53 : ℤ) := ⟨_, rfl⟩
  have hη1 : η ≤ 1.6e-11 := by rw [hη]; norm_num
  obtain ⟨Γ, h1, h2⟩ := c116_trajectory (n := 3) (by norm_num) hη (by norm_num at hη1 ⊢; linarith) hB C (fun i hi => by
    change eucNorm ((Real.pi / 2) • zAxis) ≤ Real.pi - (66100 * 0 + 14500000 * (3 : ℕ) * U)
    rw [n1]
    push_cast
    linarith)
  obtain ⟨i, τ, T, hi, hT, -, -, -, -, h3, h4⟩ := h2 1000000000 out hd h
  have hi0 : i = 0 := by simp at hi; omega
  subst hi0
  have P := h1 0 (by simp)
  rw [z0, z1] at P hT
  have hT2 : T = 2 := by rw [hT]; norm_num
  subst hT2
  rw [Rat.cast_zero, Rat.cast_ofNat] at P
  refine ⟨out, Γ 0, τ, h, P.start, P.stop, P.kinematics, ?_, ?_⟩
  · rw [z2, Rat.cast_one] at h3
    refine h3.trans (by norm_num)
  · obtain ⟨a1, a2, a3, a4, a5, a6⟩ := h4
    norm_num at hη1
    exact ⟨turnsAlike_mono a1 (by norm_num; linarith), a2.trans (by norm_num; linarith), a3.trans (by norm_num; linarith), a4.trans (by norm_num; linarith),
      a5.trans (by norm_num; linarith), a6.trans (by norm_num; linarith)⟩

/-- A rotation stored with an error of 1e-6 through four messages: it is again a rotation up to 5e-14, and within 1.1e-4 of the one that was meant. -/
example : ∃ m', Times RelayRotation 4 !![1, 0, 0; 0, -1, 0; 0, 0, -(1 + 1 / 1000000)] m' ∧
    TurnsAlike 1.1e-4 (realRot m') !![1, 0, 0; 0, -1, 0; 0, 0, -1] ∧ ∃ R', IsRotation R' ∧ TurnsAlike 5e-14 (realRot m') R' := by
  obtain ⟨m', hm⟩ := (c116_computed 4).1 !![1, 0, 0; 0, -1, 0; 0, 0, -(1 + 1 / 1000000)]
  have hR : IsRotation !![1, 0, 0; 0, -1, 0; 0, 0, -1] := by
    refine ⟨?_, ?_⟩
    · ext i j; fin_cases i <;> fin_cases j <;> simp [Matrix.mul_apply, Fin.sum_univ_three]
    · simp [Matrix.det_fin_three]
  have T : TurnsAlike 1e-6 (realRot !![1, 0, 0; 0, -1, 0; 0, 0, -(1 + 1 / 1000000)]) !![1, 0, 0; 0, -1, 0; 0, 0, -1] := by
    intro x
    have e : realRot !![1, 0, 0; 0, -1, 0; 0, 0, -(1 + 1 / 1000000)] *ᵥ x - !![1, 0, 0; 0, -1, 0; 0, 0, -1] *ᵥ x = ![0, 0, -(1e-6 * x 2)] := by
      ext i
      fin_cases i <;> simp [realRot, Matrix.mulVec, dotProduct, Fin.sum_univ_three]; ring
    have n : eucNorm ![0, 0, -(1e-6 * x 2)] = 1e-6 * |x 2| := by
      rw [eucNorm, sqNorm_eq]
      have : (![0, 0, -(1e-6 * x 2)] : V3) 0 ^ 2 + (![0, 0, -(1e-6 * x 2)] : V3) 1 ^ 2 + (![0, 0, -(1e-6 * x 2)] : V3) 2 ^ 2 = (1e-6 * x 2) ^ 2 := by
        simp
      rw [this, Real.sqrt_sq_eq_abs, abs_mul, abs_of_nonneg (by norm_num)]
    rw [e, n]
    exact mul_le_mul_of_nonneg_left (abs_entry_le x 2) (by norm_num)
  obtain ⟨h1, R', h2, h3⟩ := c116_rotation hR T (by norm_num) (by norm_num : 1 ≤ 4) hm
  exact ⟨m', hm, turnsAlike_mono h1 (by norm_num), R', h2, turnsAlike_mono h3 (by norm_num)⟩

/-- A state through one message. -/
example : ∃ s', Times RelayState 1 ⟨⟨1, 0⟩, (0, ![1 / 2, 0, 0]), 0⟩ s' ∧ StoresPose 1e-11 2 s'.g (1, 0) ∧ s'.d = (0, ![1 / 2, 0, 0]) ∧ s'.d2 = 0 := by
  obtain ⟨s', hs⟩ := (c116_computed 1).2.2.1 ⟨⟨1, 0⟩, (0, ![1 / 2, 0, 0]), 0⟩
  have hB : (2 : ℝ) ^ (-1000 : ℤ) ≤ 2 := (zpow_le_zpow_right₀ (by norm_num) (by norm_num : (-1000 : ℤ) ≤ 1)).trans (by norm_num)
  obtain ⟨h1, h2, h3⟩ := c116_state (s := ⟨⟨1, 0⟩, (0, ![1 / 2, 0, 0]), 0⟩) hB (quarter_stored.stores 0 (by simp)) le_rfl (by norm_num) hs
  refine ⟨s', hs, ⟨h1.rotation, turnsAlike_mono h1.rot (by norm_num), h1.bound, h1.trans.trans (by norm_num)⟩, h2, h3⟩

/-- The time curve of the example of C112 through three messages, at the middle. -/
example : ∃ (ps' : List Jet) (out : Jet) (Γ : ℝ → Pose × Twist × Twist) (τ : ℝ), Times RelayCurve 3 quarterControls ps' ∧ PointAt [0, 2] ps' 1 out ∧
    Γ 0 = ((1, 0), (0, ![1 / 2, 0, 0]), 0) ∧ Γ 2 = ((!![0, -1, 0; 1, 0, 0; 0, 0, 1], ![1, 1, 0]), 0, 0) ∧ |τ - 1| ≤ 1e-14 ∧
    JetWithin 1e-7 1e-6 1e-6 1e-6 1e-5 1e-5 out (Γ τ) := by
  have C := quarter_curve
  obtain ⟨ps', hp⟩ := (c116_computed 3).2.2.2.1 quarterControls
  have hB : (2 : ℝ) ^ (-800 : ℤ) ≤ 2 := (zpow_le_zpow_right₀ (by norm_num) (by norm_num : (-800 : ℤ) ≤ 1)).trans (by norm_num)
  have n1 : eucNorm ((Real.pi / 2) • zAxis) = Real.pi / 2 := by
    rw [eucNorm_smul, zAxis_norm, mul_one, abs_of_pos Real.pi_div_two_pos]
  have hpi := Real.pi_gt_d4
  have hl : ps'.length = 2 := (relays_list hp).length_eq.symm
  have h1d : IsDouble 1 := ⟨1, 0, by norm_num, by norm_num, by norm_num, by norm_num⟩
  obtain ⟨out, ho⟩ := (c112_computed.2 [0, 2] ps' C.double (by rw [hl]; rfl) C.step 1 h1d).mpr ⟨by simp, by norm_num, by norm_num⟩
  obtain ⟨ε, hε⟩ : ∃ ε : ℝ, ε = 100 * 0 + 43100 * (3 : ℕ) * 2 ^ (-53 : ℤ) := ⟨_, rfl⟩
  have hε1 : ε ≤ 1.5e-11 := by rw [hε]; norm_num
  norm_num at hε1
  obtain ⟨Γ, h1, h2⟩ := c116_curve (n := 3) (by norm_num) hε (by norm_num; linarith) hB C (fun i hi => by
    change eucNorm ((Real.pi / 2) • zAxis) ≤ _
    rw [n1]
    linarith) hp
  obtain ⟨i, hi, τ, T, hT, -, -, -, -, h3, h4⟩ := h2 1 out h1d ho
  have hi0 : i = 0 := by simp at hi; omega
  subst hi0
  have P := h1 0 (by simp)
  have hT2 : T = 2 := by rw [hT]; norm_num
  subst hT2
  simp only [List.getElem_cons_zero, List.getElem_cons_succ, Rat.cast_zero, Rat.cast_ofNat, zero_add] at P
  refine ⟨ps', out, Γ 0, τ, hp, ho, P.start, P.stop, ?_, ?_⟩
  · rw [Rat.cast_one] at h3
    exact h3.trans (by norm_num)
  · obtain ⟨a1, a2, a3, a4, a5, a6⟩ := h4
    exact ⟨turnsAlike_mono a1 (by norm_num; linarith), a2.trans (by norm_num; linarith), a3.trans (by norm_num; linarith), a4.trans (by norm_num; linarith),
      a5.trans (by norm_num; linarith), a6.trans (by norm_num; linarith)⟩

/-- The distance curve of the example of C111 through two messages, at a distance of 3/4. -/
example : ∃ (ps' rels : List Stored) (lens : List ℚ) (g : Stored) (s : ℝ) (p : Pose),
    Times RelayPoses 2 [⟨1, 0⟩, ⟨!![0, -1, 0; 1, 0, 0; 0, 0, 1], ![1, 1, 0]⟩] ps' ∧ DCurveDouble.Made ps' rels lens ∧
    DCurveDouble.PointAt ps' rels lens (3 / 4) g ∧ |s - 3 / 4| ≤ 1e-7 ∧ TurnsAlike 1e-8 (realRot g.rot) p.1 ∧ eucNorm (realVec g.trans - p.2) ≤ 1e-7 ∧
    IsPoseAt (fun i => if i = 0 then (1, 0) else (!![0, -1, 0; 1, 0, 0; 0, 0, 1], ![1, 1, 0])) (fun _ => ((Real.pi / 2) • zAxis, ![Real.pi / 2, 0, 0])) 1 s p := by
  obtain ⟨ps', hp⟩ := (c116_computed 2).2.2.2.2.1 [⟨1, 0⟩, ⟨!![0, -1, 0; 1, 0, 0; 0, 0, 1], ![1, 1, 0]⟩]
  have hpl : ps'.length = 2 := (relays_list hp).length_eq.symm
  obtain ⟨⟨rels, lens, hm⟩, hans⟩ := c111_computed ps' (by intro e; rw [e] at hpl; simp at hpl)
  have hll : lens.length = 1 := by have := hm.lens_length; omega
  obtain ⟨l, rfl⟩ := List.length_eq_one_iff.mp hll
  have hpi := Real.pi_gt_d4
  have hpi' := Real.pi_lt_d4
  have hU1 := U_tiny.1
  have hB : (2 : ℝ) ^ (-1000 : ℤ) ≤ 2 := (zpow_le_zpow_right₀ (by norm_num) (by norm_num : (-1000 : ℤ) ≤ 1)).trans (by norm_num)
  have nV : eucNorm ![Real.pi / 2, 0, 0] = Real.pi / 2 := by
    rw [eucNorm, sqNorm_eq]
    simp [Real.sqrt_sq Real.pi_div_two_pos.le]
  have n1 : eucNorm ((Real.pi / 2) • zAxis) = Real.pi / 2 := by
    rw [eucNorm_smul, zAxis_norm, mul_one, abs_of_pos Real.pi_div_two_pos]
  obtain ⟨ε, hε⟩ : ∃ ε : ℝ, ε = 100 * 0 + 43000 * (2 : ℕ) * 2 ^ (-53 : ℤ) := ⟨_, rfl⟩
  have hε1 : ε ≤ 1e-11 := by rw [hε]; norm_num
  have hε0 : 0 ≤ ε := by rw [hε]; norm_num
  norm_num at hε1
  have ht : ∀ i, i + 1 < [(⟨1, 0⟩ : Stored), ⟨!![0, -1, 0; 1, 0, 0; 0, 0, 1], ![1, 1, 0]⟩].length →
      eucNorm ((Real.pi / 2) • zAxis, ![Real.pi / 2, 0, 0]).1 ≤ Real.pi - (330 * ε + 4300 * 2 ^ (-53 : ℤ)) := fun i hi => by
    change eucNorm ((Real.pi / 2) • zAxis) ≤ Real.pi - (330 * ε + 4300 * U)
    rw [n1]
    linarith
  have hbε : ε ≤ 1e-5 := by norm_num; linarith
  have Q := (c116_distance_controls (n := 2) (by norm_num) hε hbε hB quarter_stored ht hp).2
  have hlen : |(l : ℝ) - Real.pi / 2| ≤ 1e-7 := by
    obtain ⟨r, hr, e⟩ := hm.len 0 (by omega)
    obtain ⟨c, hc, hr'⟩ := hm.rel 0 (by omega)
    have := DCurveDouble.len_near hbε hB (Q.stores 0 (by omega)) (Q.stores 1 (by omega)) (Q.leads 0 (by omega))
      (Q.turn 0 (by omega)) hc hr' hr
    rw [← e] at this
    simp only [List.getElem_cons_zero, nV] at this
    refine this.trans ?_
    have : U * (Real.pi / 2) ≤ 1.2e-16 * 1.6 := mul_le_mul hU1 (by linarith) (by positivity) (by norm_num)
    have : ε * (Real.pi / 2) ≤ ε * 1.6 := mul_le_mul_of_nonneg_left (by linarith) hε0
    norm_num at *
    linarith
  norm_num at hlen
  have hl := abs_le.mp hlen
  have l1 : (3 / 4 : ℚ) ≤ l := by
    have : ((3 / 4 : ℚ) : ℝ) ≤ l := by push_cast; linarith [hl.1]
    exact_mod_cast this
  have l2 : l ≤ 2 := by
    have : (l : ℝ) ≤ (2 : ℚ) := by push_cast; linarith [hl.2]
    exact_mod_cast this
  have hbig : |l| < 2 ^ 1024 := by
    rw [abs_of_nonneg (by linarith)]
    exact lt_of_le_of_lt l2 (lt_of_lt_of_le (by norm_num : (2 : ℚ) < 2 ^ 2) (pow_le_pow_right₀ (by norm_num) (by norm_num)))
  have hd : IsDouble l := by
    obtain ⟨r, -, e⟩ := hm.len 0 (by omega)
    change l = _ at e
    rw [e] at hbig ⊢
    exact SampleIntervalDouble.isDouble_round64 hbig
  have hds : ∀ k ∈ [l], IsDouble k := by simpa using hd
  have hc : (DLengths.make ([l].map .num)).controls = [0, l].map .num := by
    change [Double.num 0, Double.ofExact (0 + l)] = _
    unfold Double.ofExact
    rw [zero_add, SampleIntervalDouble.round64_double hd, if_pos hbig]
    rfl
  have h34 : IsDouble (3 / 4) := ⟨3, -2, by norm_num, by norm_num, by norm_num, by norm_num⟩
  obtain ⟨g, hg⟩ := (hans rels [l] hm hds [0, l] hc (3 / 4) l h34 rfl).mpr ⟨by omega, by norm_num, l1, .inl (by norm_num)⟩
  obtain ⟨s, p, hsp, e1, e2, e3⟩ := c116_distance_point (D := Real.pi / 2) (m := 2) (by norm_num) hε hbε hB quarter_stored ht hp hm hds (n := 1) (by simp)
    (by norm_num) (fun i _ => nV.le) hc h34 hg
  have ed : distanceTo (fun _ => ((Real.pi / 2) • zAxis, ![Real.pi / 2, 0, 0])) 1 = Real.pi / 2 := by
    unfold distanceTo
    rw [Finset.sum_range_one, nV]
  rw [ed] at e1
  unfold U at hU1
  have hUp : (2 : ℝ) ^ (-53 : ℤ) * (Real.pi / 2) ≤ 1.2e-16 * 1.6 := mul_le_mul hU1 (by linarith) (by positivity) (by norm_num)
  have hεp : ε * (Real.pi / 2) ≤ ε * 1.6 := mul_le_mul_of_nonneg_left (by linarith) hε0
  refine ⟨ps', rels, [l], g, s, p, hp, hm, hg, ?_, turnsAlike_mono e2 (by norm_num; linarith), e3.trans ?_, hsp⟩
  · have e : ((3 / 4 : ℚ) : ℝ) = 3 / 4 := by norm_num
    rw [e] at e1
    refine e1.trans ?_
    norm_num at *
    linarith
  · norm_num at *
    linarith

end Verif.Props
