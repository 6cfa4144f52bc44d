import Verif.Model.MessageDouble
import Verif.Proofs.TrajectoryDouble
import Verif.Proofs.LogDoubleRound
/-! # Transforms and curves relayed through messages in doubles: lemmas -/
namespace Verif.MessageDouble
open Verif.Spec hiding Jet
open Verif.TransformDouble Verif.ExpDouble Verif.LogDouble Verif.TCurveDouble Verif.TrajectoryDouble Verif.Binary64 Verif.Props Matrix SO3

/-- One message: what is read is within 420 roundings of an exact rotation near the one that was written. -/
theorem relay_rotation {m m' : Matrix (Fin 3) (Fin 3) ℚ} {R : M3} {δ : ℝ} (hR : IsRotation R) (hm : TurnsAlike δ (realRot m) R) (hδ : δ ≤ 1 / 1000)
    (h : RelayRotation m m') : ∃ R', IsRotation R' ∧ TurnsAlike (420 * U) (realRot m') R' ∧ TurnsAlike (100 * δ + 660 * U) R' R := by
  obtain ⟨w, h1, h2⟩ := h
  obtain ⟨b1, b2⟩ := logSO3_back hR hm hδ h1
  have hU := U_pos
  have hwU := mul_le_mul_of_nonneg_right (b2.trans pi_small) hU.le
  exact ⟨SO3.exp (realVec w), isRotation_exp _, turnsAlike_mono (expSO3_error h2) (by linarith), b1⟩

/-- A chain of messages: errors of the data count once, those of the messages add up. -/
theorem relays_rotation {m : Matrix (Fin 3) (Fin 3) ℚ} {R : M3} {δ : ℝ} (hR : IsRotation R) (hm : TurnsAlike δ (realRot m) R) (hδ : δ ≤ 1 / 1000) (n : ℕ) :
    ∀ m', Times RelayRotation (n + 1) m m' →
      ∃ R', IsRotation R' ∧ TurnsAlike (420 * U) (realRot m') R' ∧ TurnsAlike (100 * δ + 660 * U + n * (42660 * U)) R' R := by
  have hU := U_pos
  have hU1 := U_tiny.1
  induction n with
  | zero =>
    rintro m' ⟨c, rfl, h⟩
    obtain ⟨R', r1, r2, r3⟩ := relay_rotation hR hm hδ h
    exact ⟨R', r1, r2, turnsAlike_mono r3 (by simp)⟩
  | succ n ih =>
    rintro m' ⟨c, hc, h⟩
    obtain ⟨R', r1, r2, r3⟩ := ih c hc
    obtain ⟨R'', q1, q2, q3⟩ := relay_rotation r1 r2 (by linarith) h
    refine ⟨R'', q1, q2, turnsAlike_mono (turnsAlike_trans q3 r3) ?_⟩
    push_cast
    linarith

theorem relays_rot {g g' : Stored} {n : ℕ} (h : Times Relay n g g') : Times RelayRotation n g.rot g'.rot := by
  induction n generalizing g' with
  | zero => cases h; rfl
  | succ n ih =>
    obtain ⟨c, hc, w, v, h1, h2⟩ := h
    exact ⟨c.rot, ih hc, w, h1.1, h2.1⟩

/-- The translations of a chain of messages. -/
theorem relays_trans {g : Stored} {G : Pose} {δ B : ℝ} (hB : 2 ^ (-1000 : ℤ) ≤ B) (hs : StoresPose δ B g G) (n : ℕ)
    (hn : 100 * δ + 43000 * n * U ≤ 1 / 1000) : ∀ g', Times Relay n g g' → eucNorm (realVec g'.trans - G.2) ≤ (δ + 36000 * n * U) * B := by
  have hU := U_pos
  have hU1 := U_tiny.1
  have hB0 : 0 < B := lt_of_lt_of_le (by positivity) hB
  have hH := H_small hB
  have hδ0 : 0 ≤ δ := turnsAlike_nonneg hs.rot
  induction n with
  | zero =>
    rintro g' rfl
    simpa using hs.trans
  | succ n ih =>
    rintro g' ⟨c, hc, w, v, h1, h2⟩
    push_cast at hn ⊢
    have hnU : 0 ≤ (n : ℝ) * U := by positivity
    have i := ih (by linarith) c hc
    have hδ : δ ≤ 1 / 1000 := by linarith
    obtain ⟨R, r1, r2⟩ : ∃ R, IsRotation R ∧ TurnsAlike (1 / 1000) (realRot c.rot) R := by
      cases n with
      | zero => cases hc; exact ⟨G.1, hs.rotation, turnsAlike_mono hs.rot hδ⟩
      | succ k =>
        obtain ⟨R', p1, p2, -⟩ := relays_rotation hs.rotation hs.rot hδ k _ (relays_rot hc)
        exact ⟨R', p1, turnsAlike_mono p2 (by linarith)⟩
    have k := (exp_log r1 r2 le_rfl h1 h2).2
    have t : eucNorm (realVec c.trans) ≤ 1.001 * B := by
      have a := eucNorm_le_add (realVec c.trans) G.2
      have b := hs.bound
      have d := mul_le_mul_of_nonneg_right (show δ + 36000 * n * U ≤ 1 / 1000 by linarith) hB0.le
      linarith
    have e : realVec g'.trans - G.2 = (realVec g'.trans - realVec c.trans) + (realVec c.trans - G.2) := by abel
    rw [e]
    have k2 := mul_le_mul_of_nonneg_left t (show 0 ≤ 35000 * U by positivity)
    have k3 := mul_nonneg hU.le hB0.le
    refine (eucNorm_add_le _ _).trans ((add_le_add k i).trans ?_)
    linarith only [k2, k3, hH]

/-- A chain of messages with one transform. -/
theorem relays_pose {g g' : Stored} {G : Pose} {δ B : ℝ} (hB : 2 ^ (-1000 : ℤ) ≤ B) (hs : StoresPose δ B g G) {n : ℕ} (h1 : 1 ≤ n)
    (hn : 100 * δ + 43000 * n * U ≤ 1 / 1000) (h : Times Relay n g g') : StoresPose (100 * δ + 43000 * n * U) B g' G := by
  have hU := U_pos
  have hB0 : 0 < B := lt_of_lt_of_le (by positivity) hB
  have hδ0 : 0 ≤ δ := turnsAlike_nonneg hs.rot
  have hnU : 0 ≤ (n : ℝ) * U := by positivity
  refine ⟨hs.rotation, ?_, hs.bound, (relays_trans hB hs n hn g' h).trans (mul_le_mul_of_nonneg_right (by linarith) hB0.le)⟩
  obtain ⟨k, rfl⟩ : ∃ k, n = k + 1 := ⟨n - 1, by omega⟩
  obtain ⟨R', r1, r2, r3⟩ := relays_rotation hs.rotation hs.rot (by linarith) k _ (relays_rot h)
  refine turnsAlike_mono (turnsAlike_trans r2 r3) ?_
  have : 0 ≤ (k : ℝ) * U := by positivity
  push_cast
  linarith

theorem relays_jet {j j' : Jet} {n : ℕ} (h : Times RelayJet n j j') : Times Relay n j.g j'.g ∧ j'.d = j.d ∧ j'.d2 = j.d2 := by
  induction n generalizing j' with
  | zero => cases h; exact ⟨rfl, rfl, rfl⟩
  | succ n ih =>
    obtain ⟨c, hc, h1, h2, h3⟩ := h
    obtain ⟨i1, i2, i3⟩ := ih hc
    exact ⟨⟨c.g, i1, h1⟩, h2.trans i2, h3.trans i3⟩

theorem relays_state {s s' : State} {n : ℕ} (h : Times RelayState n s s') : Times Relay n s.g s'.g ∧ s'.d = s.d ∧ s'.d2 = s.d2 := by
  induction n generalizing s' with
  | zero => cases h; exact ⟨rfl, rfl, rfl⟩
  | succ n ih =>
    obtain ⟨c, hc, h1, h2, h3⟩ := h
    obtain ⟨i1, i2, i3⟩ := ih hc
    exact ⟨⟨c.g, i1, h1⟩, h2.trans i2, h3.trans i3⟩

/-- A chain of messages with a list is a chain for each of its elements. -/
theorem relays_list {α : Type} {r : α → α → Prop} {n : ℕ} {as bs : List α} (h : Times (List.Forall₂ r) n as bs) : List.Forall₂ (Times r n) as bs := by
  induction n generalizing bs with
  | zero => cases h; exact List.forall₂_same.mpr fun _ _ => rfl
  | succ n ih =>
    obtain ⟨cs, hc, h⟩ := h
    have i := ih hc
    clear hc ih
    induction i generalizing bs with
    | nil => cases h; exact .nil
    | cons a _ k => cases h with | cons b h' => exact .cons ⟨_, a, b⟩ (k h')

theorem relays_some {α : Type} {r : α → α → Prop} (hr : ∀ a, ∃ b, r a b) (n : ℕ) (a : α) : ∃ b, Times r n a b := by
  induction n with
  | zero => exact ⟨a, rfl⟩
  | succ n ih =>
    obtain ⟨c, hc⟩ := ih
    obtain ⟨b, hb⟩ := hr c
    exact ⟨b, c, hc, hb⟩

theorem forall₂_some {α : Type} {r : α → α → Prop} (hr : ∀ a, ∃ b, r a b) (as : List α) : ∃ bs, List.Forall₂ r as bs := by
  choose f hf using hr
  exact ⟨as.map f, by rw [List.forall₂_map_right_iff]; exact List.forall₂_same.mpr fun a _ => hf a⟩

theorem relayRotation_some (m : Matrix (Fin 3) (Fin 3) ℚ) : ∃ m', RelayRotation m m' := by
  obtain ⟨w, hw⟩ := logSO3_some m
  obtain ⟨m', hm⟩ := expSO3_some w
  exact ⟨m', w, hw, hm⟩

theorem relay_some (g : Stored) : ∃ g', Relay g g' := by
  obtain ⟨w, v, h⟩ := logSE3_some g
  obtain ⟨g', hg⟩ := expSE3_some w v
  exact ⟨g', w, v, h, hg⟩

theorem relayJet_some (j : Jet) : ∃ j', RelayJet j j' := by
  obtain ⟨g, hg⟩ := relay_some j.g
  exact ⟨⟨g, j.d, j.d2⟩, hg, rfl, rfl⟩

theorem relayState_some (s : State) : ∃ s', RelayState s s' := by
  obtain ⟨g, hg⟩ := relay_some s.g
  exact ⟨⟨g, s.d, s.d2⟩, hg, rfl, rfl⟩

theorem rate_mono {δ δ' B T : ℝ} (h : δ ≤ δ') (hB : 0 ≤ B) {y : Tangent} {x : Twist} (hs : StoresRate δ B T y x) : StoresRate δ' B T y x :=
  ⟨hs.turn, hs.bound, hs.rot.trans h, hs.trans.trans (mul_le_mul_of_nonneg_right h hB)⟩

/-- The points of a curve that was relayed are those that were meant. -/
theorem relays_curve {δ B : ℝ} {n : ℕ} (hn : 1 ≤ n) (hb : 100 * δ + 43000 * n * U ≤ 1 / 1000) (hB : 2 ^ (-1000 : ℤ) ≤ B) {ts : List ℚ} {ps ps' : List Jet}
    {J : ℕ → Pose × Twist × Twist} {x : ℕ → Twist} (hs : StoresCurve δ B ts ps J x)
    (ht : ∀ i, i + 1 < ps.length → eucNorm (x i).1 ≤ Real.pi - (330 * (100 * δ + 43000 * n * U + 81 * U) + 4300 * U)) (h : Times RelayCurve n ps ps') :
    StoresCurve (100 * δ + 43000 * n * U) B ts ps' J x := by
  have hl := relays_list h
  have hlen := hl.length_eq
  have hU := U_pos
  have hB0 : 0 < B := lt_of_lt_of_le (by positivity) hB
  have hg : ∀ (i : ℕ) (h1 : i < ps.length) (h2 : i < ps'.length), Times RelayJet n ps[i] ps'[i] := fun i h1 h2 => hl.get h1 h2
  refine ⟨hlen.symm.trans hs.length, hs.double, hs.step, fun i hi => ?_, fun i hi => ?_, fun i hi k hk hki => ?_⟩
  · exact relays_pose hB (hs.pose i (by omega)) hn hb (relays_jet (hg i (by omega) hi)).1
  · have k := hs.leads i (by omega)
    exact ⟨k.leads, ht i (by omega), k.bound⟩
  · have hδ0 : 0 ≤ δ := turnsAlike_nonneg (hs.pose k (by omega)).rot
    have hnU : 0 ≤ (n : ℝ) * U := by positivity
    obtain ⟨-, e1, e2⟩ := relays_jet (hg k (by omega) hk)
    obtain ⟨r1, r2⟩ := hs.rates i hi k (by omega) hki
    rw [e1, e2]
    exact ⟨rate_mono (by linarith) hB0.le r1, rate_mono (by linarith) hB0.le r2⟩

/-- The exact motions between the states of a trajectory. -/
theorem body_pieces {δ B : ℝ} {ats : List ℤ} {ss : List State} {S : ℕ → Pose × Twist × Twist} {y : ℕ → Twist} (hs : StoresTrajectory δ B ats ss S y)
    {i : ℕ} (hi : i + 1 < ats.length) :
    (∀ s, IsRotation (piece (secondsTo ats i) (secondsTo ats (i + 1)) (reversed (S i)) (reversed (S (i + 1))) s).1.1) ∧
      IsBodyPiece (y i) (secondsTo ats i) (secondsTo ats (i + 1)) (S i) (S (i + 1))
        (fun s => reversed (piece (secondsTo ats i) (secondsTo ats (i + 1)) (reversed (S i)) (reversed (S (i + 1))) s)) := by
  have hU := U_pos
  have hl := hs.length
  have h0 : 0 ≤ δ := turnsAlike_nonneg (hs.pose i (by omega)).rot
  have k1 := (hs.pose i (by omega)).rotation
  have k2 := (hs.pose (i + 1) (by omega)).rotation
  refine body_piece k1 k2 (piece_isPiece (by exact_mod_cast hs.order i hi) ?_ (leads_reversed k1 k2 (hs.leads i (by omega))) ?_)
  · change IsRotation (SE3.inv (S i).1).1
    rw [inv_eq]
    exact isRotation_transpose k1
  · change eucNorm (-(y i).1) < _
    rw [eucNorm_neg]
    have : eucNorm (y i).1 ≤ Real.pi - (661 * δ + 33400 * U) := hs.turn i (by omega)
    linarith

/-- The answer of a trajectory that was relayed. -/
theorem relays_trajectory {δ B η : ℝ} {n : ℕ} (hn : 1 ≤ n) (hη : η = 201 * δ + 43800 * n * U) (hb : η ≤ 8e-11) (hB : 2 ^ (-800 : ℤ) ≤ B) {ats : List ℤ}
    {ss : List State} {S : ℕ → Pose × Twist × Twist} {y : ℕ → Twist} (hs : StoresTrajectory δ B ats ss S y)
    (ht : ∀ i, i + 1 < ss.length → eucNorm (y i).1 ≤ Real.pi - (66100 * δ + 14500000 * n * U)) {d : ℤ} {out : State} (hd : InI64 d)
    (h : PointAfterRelays n ats ss d out) :
    ∃ (i : ℕ) (τ T : ℝ), i + 1 < ats.length ∧
        T = (secondsTo ats (i + 1) : ℝ) - secondsTo ats i ∧ (secondsTo ats i : ℝ) ≤ asSeconds d ∧ (asSeconds d : ℝ) ≤ secondsTo ats (i + 1) ∧
        secondsTo ats i ≤ τ ∧ τ ≤ secondsTo ats (i + 1) ∧ |τ - asSeconds d| ≤ 2 ^ (-50 : ℤ) * T ∧
        StateWithin (1215 * η) (9900 * η * B) (11010 * η / T) (19910 * η * B / T) (263200 * η / T ^ 2) (550200 * η * B / T ^ 2) out
          (reversed (piece (secondsTo ats i) (secondsTo ats (i + 1)) (reversed (S i)) (reversed (S (i + 1))) τ)) := by
  have hU := U_pos
  have hU1 := U_tiny.1
  have hB1 : (2 : ℝ) ^ (-1000 : ℤ) ≤ B := (zpow_le_zpow_right₀ (by norm_num) (by norm_num)).trans hB
  have hB0 : 0 < B := lt_of_lt_of_le (by positivity) hB
  have hl := hs.length
  have hnU : U ≤ n * U := le_mul_of_one_le_left hU.le (by exact_mod_cast hn)
  obtain ⟨a₀, js, js', q, ha, -, hj, hm, hp, hr⟩ := h
  have ha' : ats.getD 0 0 = a₀ := by
    cases ats with
    | nil => simp at ha
    | cons b l => simpa using ha
  have h0 : 0 ≤ δ := by
    refine turnsAlike_nonneg (hs.pose 0 ?_).rot
    cases ats with
    | nil => simp at ha
    | cons b l => simp [hl]
  subst ha'
  have hδ : δ ≤ 4e-11 := by norm_num at hb ⊢; linarith
  have hc := stores_curve hδ hB1 hs hj
  have hlen := hj.length_eq
  have hb' : 100 * (2.001 * δ + 7 * U) + 43000 * n * U ≤ 9e-11 := by norm_num at hb ⊢; linarith
  have hc' := relays_curve hn (by norm_num at hb' ⊢; linarith) hB1 hc (fun i hi => by
    change eucNorm (-(y i).1) ≤ _
    rw [eucNorm_neg]
    have := ht i (by omega)
    linarith) hm
  obtain ⟨i, hi, τ, h1, h2, h3, h4, h5, h6, h7⟩ := curve_answer hb' hB hc' (Double.asSeconds_multiple hd).1 hp
  have hi' : i + 1 < ats.length := by rwa [curveTimes_length] at hi
  rw [curveTimes_get] at h1 h2 h3 h4 h5 h6 h7
  rw [curveTimes_get] at h5 h6 h7
  obtain ⟨T, hT⟩ : ∃ T : ℝ, T = (secondsTo ats (i + 1) : ℝ) - secondsTo ats i := ⟨_, rfl⟩
  have hTpos : 0 < T := by
    have : (secondsTo ats i : ℝ) < secondsTo ats (i + 1) := by exact_mod_cast hs.order i hi'
    linarith
  rw [← hT] at h5 h6
  refine ⟨i, τ, T, hi', hT, h1, h2, h3, h4, h5, ?_⟩
  obtain ⟨ε, hε⟩ : ∃ ε, ε = 100 * (2.001 * δ + 7 * U) + 43000 * n * U + 91 * U := ⟨_, rfl⟩
  rw [← hε] at h6
  have le : ε ≤ η := by linarith
  have ge : 43000 * U ≤ ε := by linarith
  obtain ⟨δ', hδ'⟩ : ∃ δ', δ' = (ε - 98 * U) / 2.001 := ⟨_, rfl⟩
  have eδ : ε = 2.001 * δ' + 98 * U := by rw [hδ']; ring
  obtain ⟨p1, p2⟩ := answer_pose eδ (by linarith) (by norm_num at hb ⊢; linarith) hB1 ((body_pieces hs hi').1 τ) h6.rot h6.trans h7 hr.1
  have hη0 : 0 ≤ η := by linarith
  have f1 : 2430 * (δ' + 49 * U) ≤ 1215 * η := by norm_num at eδ ⊢; linarith
  have f2 : 19800 * (δ' + 49 * U) ≤ 9900 * η := by norm_num at eδ ⊢; linarith
  refine stateWithin_of_jet h6 hr (turnsAlike_mono p1 f1) (p2.trans (mul_le_mul_of_nonneg_right f2 hB0.le)) ?_ ?_ ?_ ?_
  · exact div_le_div_of_nonneg_right (by linarith) hTpos.le
  · exact div_le_div_of_nonneg_right (mul_le_mul_of_nonneg_right (by linarith) hB0.le) hTpos.le
  · exact div_le_div_of_nonneg_right (by linarith) (sq_nonneg T)
  · exact div_le_div_of_nonneg_right (mul_le_mul_of_nonneg_right (by linarith) hB0.le) (sq_nonneg T)

end Verif.MessageDouble
