import Verif.Spec.OneAxis
import Verif.Proofs.OneAxis
import Verif.Proofs.SO3Construct
import Verif.Proofs.HalfTurn
import Verif.Props.Trajectory
/-! # C82: motion along one axis is reproduced -/
namespace Verif.Props
open Matrix Verif.Framed Verif.Spec SO3

/-! ## Time curves -/

/-- The times of the controls. -/
def times {G A : Type} (c : TCurve G A) : List ℝ := c.controls.map (·.time)

/-- From one of these times to the next the motion turns by less than half a turn, or by exactly half a turn about an axis that leads up; `w` is the
rotation part of the axis. -/
def TurnsWithin (ts : List ℝ) (q : Polynomial ℝ) (w : V3) : Prop :=
  ∀ a b pre post, ts = pre ++ a :: b :: post → WithinReach ((q.eval b - q.eval a) • w)

theorem within_of_lt {v : V3} (h : eucNorm v < Real.pi) : WithinReach v := .inl (by rwa [SO3.sqrt_eucNorm])

theorem times_split {G A : Type} {c : TCurve G A} {a b : TControl G A} {pre post} (h : c.controls = pre ++ a :: b :: post) :
    times c = pre.map (·.time) ++ a.time :: b.time :: post.map (·.time) := by
  unfold times; rw [h]; simp

section
variable {G A V : Type} [AddCommGroup A] [Module ℝ A] {L : LieOps ℝ G A V} {valid : G → Prop}

/-- What a query evaluates, of a curve whose controls lie on one axis at any amounts `f`, with any rates `f1`, `f2` along it. -/
theorem axis_query_of (H : LieLaws L valid) {E : ℝ → G} {η : A} (P : OneParam L E η) (hE : ∀ s, valid (E s)) {g0 : G} (h0 : valid g0) (f f1 f2 : TControl G A → ℝ)
    (c : TCurve G A) (h : Built c) (hw : WholeFrames c)
    (hc : ∀ p ∈ c.controls, p.point.g.val = L.mul (E (f p)) g0 ∧ p.point.d = f1 p • η ∧
      p.point.d2 = f2 p • η)
    (t : ℝ) (p : TwoJetL G A) (hp : TCurve.pointAt L c t = .ok p) :
    ∃ a b pre post, c.controls = pre ++ a :: b :: post ∧ a.time ≤ t ∧ t ≤ b.time ∧ a.time < b.time ∧
      ∃ seg : TSegment G A, seg = ⟨⟨a.point.g, (b.time - a.time) • a.point.d, (b.time - a.time) ^ 2 • a.point.d2⟩,
          ⟨b.point.g, (b.time - a.time) • b.point.d, (b.time - a.time) ^ 2 • b.point.d2⟩⟩ ∧
        L.mul seg.dest.g.val (L.inv seg.orig.g.val) = E (f b - f a) ∧
        seg.orig.d = ((b.time - a.time) * f1 a) • η ∧ seg.dest.d = ((b.time - a.time) * f1 b) • η ∧
        seg.orig.d2 = ((b.time - a.time) ^ 2 * f2 a) • η ∧
        seg.dest.d2 = ((b.time - a.time) ^ 2 * f2 b) • η ∧
        p.g.val = L.mul (vpoint L seg ((t - a.time) / (b.time - a.time))).1 (L.mul (E (f a)) g0) ∧
        p.d = (b.time - a.time)⁻¹ • (vpoint L seg ((t - a.time) / (b.time - a.time))).2.1 ∧
        p.d2 = ((b.time - a.time) ^ 2)⁻¹ • (vpoint L seg ((t - a.time) / (b.time - a.time))).2.2 := by
  obtain ⟨a, b, pre, post, hctl, ha, hb, s, hs, hps⟩ := c41_segment L c h t p hp
  have hma : a ∈ c.controls := by rw [hctl]; simp
  have hmb : b ∈ c.controls := by rw [hctl]; simp
  have hinv := inv_of_built h
  have hlt : a.time < b.time := by
    have := hinv.times
    rw [hctl, List.pairwise_append] at this
    exact (List.pairwise_cons.mp this.2.1).1 b (by simp)
  obtain ⟨fa, ea, ea'⟩ := hc a hma
  obtain ⟨fb, eb, eb'⟩ := hc b hmb
  obtain ⟨f1, f2⟩ := hinv.frames b hmb a hma
  refine ⟨a, b, pre, post, hctl, ha, hb, hlt, _, rfl, ?_, ?_, ?_, ?_, ?_, ?_⟩
  · simp only
    rw [fa, fb, H.inv_mul_rev (hE _) h0, H.mul_assoc, ← H.mul_assoc g0, H.mul_inv h0, H.one_mul]
    have hi : L.inv (E (f a)) = E (-f a) := by
      symm
      apply H.inv_unique (hE _)
      rw [P.mul, add_neg_cancel, P.zero]
    rw [hi, P.mul, sub_eq_add_neg]
  · simp only [ea, smul_smul]
  · simp only [eb, smul_smul]
  · simp only [ea', smul_smul]
  · simp only [eb', smul_smul]
  · have hg : TSegment.Good (⟨⟨a.point.g, (b.time - a.time) • a.point.d, (b.time - a.time) ^ 2 • a.point.d2⟩,
          ⟨b.point.g, (b.time - a.time) • b.point.d, (b.time - a.time) ^ 2 • b.point.d2⟩⟩ : TSegment G A) := ⟨hw a hma, f1, f2⟩
    rw [TSegment.pointAt_eq L hg] at hs
    rw [Outcome.ok.injEq] at hs
    rw [hps, ← hs]
    exact ⟨by simp only [fa], rfl, rfl⟩

/-- What a query of a one-axis curve evaluates. -/
theorem axis_query (H : LieLaws L valid) {E : ℝ → G} {η : A} (P : OneParam L E η) (hE : ∀ s, valid (E s)) {g0 : G} (h0 : valid g0) (q : Polynomial ℝ)
    (c : TCurve G A) (h : Built c) (hw : WholeFrames c)
    (hc : ∀ p ∈ c.controls, p.point.g.val = L.mul (E (q.eval p.time)) g0 ∧ p.point.d = q.derivative.eval p.time • η ∧
      p.point.d2 = q.derivative.derivative.eval p.time • η)
    (t : ℝ) (p : TwoJetL G A) (hp : TCurve.pointAt L c t = .ok p) :
    ∃ a b pre post, c.controls = pre ++ a :: b :: post ∧ a.time ≤ t ∧ t ≤ b.time ∧ a.time < b.time ∧
      ∃ seg : TSegment G A, seg = ⟨⟨a.point.g, (b.time - a.time) • a.point.d, (b.time - a.time) ^ 2 • a.point.d2⟩,
          ⟨b.point.g, (b.time - a.time) • b.point.d, (b.time - a.time) ^ 2 • b.point.d2⟩⟩ ∧
        L.mul seg.dest.g.val (L.inv seg.orig.g.val) = E (q.eval b.time - q.eval a.time) ∧
        seg.orig.d = ((b.time - a.time) * q.derivative.eval a.time) • η ∧ seg.dest.d = ((b.time - a.time) * q.derivative.eval b.time) • η ∧
        seg.orig.d2 = ((b.time - a.time) ^ 2 * q.derivative.derivative.eval a.time) • η ∧
        seg.dest.d2 = ((b.time - a.time) ^ 2 * q.derivative.derivative.eval b.time) • η ∧
        p.g.val = L.mul (vpoint L seg ((t - a.time) / (b.time - a.time))).1 (L.mul (E (q.eval a.time)) g0) ∧
        p.d = (b.time - a.time)⁻¹ • (vpoint L seg ((t - a.time) / (b.time - a.time))).2.1 ∧
        p.d2 = ((b.time - a.time) ^ 2)⁻¹ • (vpoint L seg ((t - a.time) / (b.time - a.time))).2.2 :=
  axis_query_of H P hE h0 (fun p => q.eval p.time) (fun p => q.derivative.eval p.time) (fun p => q.derivative.derivative.eval p.time) c h hw hc t p hp

end

/-- The point of a one-axis curve, from the point of the segment. -/
theorem axis_finish {G A V : Type} [AddCommGroup A] [Module ℝ A] {L : LieOps ℝ G A V} {valid : G → Prop} (H : LieLaws L valid) {E : ℝ → G} {η : A}
    (P : OneParam L E η) {g0 : G} {q : Polynomial ℝ} (hq : q.natDegree ≤ 5) {a b t : ℝ} (hlt : a < b) {p : TwoJetL G A} {v : G × A × A}
    (hv : v = (E (quintic (q.eval b - q.eval a) ((b - a) * q.derivative.eval a) ((b - a) * q.derivative.eval b)
        ((b - a) ^ 2 * q.derivative.derivative.eval a) ((b - a) ^ 2 * q.derivative.derivative.eval b) ((t - a) / (b - a))).a,
      (quintic (q.eval b - q.eval a) ((b - a) * q.derivative.eval a) ((b - a) * q.derivative.eval b)
        ((b - a) ^ 2 * q.derivative.derivative.eval a) ((b - a) ^ 2 * q.derivative.derivative.eval b) ((t - a) / (b - a))).da • η,
      (quintic (q.eval b - q.eval a) ((b - a) * q.derivative.eval a) ((b - a) * q.derivative.eval b)
        ((b - a) ^ 2 * q.derivative.derivative.eval a) ((b - a) ^ 2 * q.derivative.derivative.eval b) ((t - a) / (b - a))).d2a • η))
    (h1 : p.g.val = L.mul v.1 (L.mul (E (q.eval a)) g0)) (h2 : p.d = (b - a)⁻¹ • v.2.1) (h3 : p.d2 = ((b - a) ^ 2)⁻¹ • v.2.2) :
    p.g.val = L.mul (E (q.eval t)) g0 ∧ p.d = q.derivative.eval t • η ∧ p.d2 = q.derivative.derivative.eval t • η := by
  have hne : b - a ≠ 0 := sub_ne_zero.mpr hlt.ne'
  have hQ := quintic_eq q hq a (b - a) ((t - a) / (b - a))
  rw [div_mul_cancel₀ _ hne, add_sub_cancel, add_sub_cancel] at hQ
  rw [hQ] at hv
  subst hv
  refine ⟨?_, ?_, ?_⟩
  · rw [h1, ← H.mul_assoc, P.mul]
    simp
  · rw [h2]
    simp only [smul_smul]
    congr 1
    field_simp
  · rw [h3]
    simp only [smul_smul]
    congr 1
    field_simp

/-- Curves sampled from any function of time, at increasing times, can be built. -/
theorem sampled {G A : Type} [AddCommGroup A] [Module ℝ A] (f : ℝ → G × A × A) (ts : List ℝ) (h : ts.Pairwise (· < ·)) :
    ∃ c : TCurve G A, Built c ∧ WholeFrames c ∧
      c.controls = ts.map fun t => ⟨t, ⟨(f t).1, exFrame 1, exFrame 2⟩, (f t).2.1, (f t).2.2⟩ := by
  induction ts using List.reverseRecOn with
  | nil => exact ⟨_, Built.empty, by intro p hp; simp [TCurve.empty] at hp, rfl⟩
  | append_singleton ts t ih =>
    rw [List.pairwise_append] at h
    obtain ⟨c, hb, hw, hc⟩ := ih h.1
    have hm : MayFollow c.controls (⟨t, ⟨(f t).1, exFrame 1, exFrame 2⟩, (f t).2.1, (f t).2.2⟩ : TControl G A) := by
      intro q hq
      rw [hc, List.mem_map] at hq
      obtain ⟨u, hu, rfl⟩ := hq
      exact ⟨h.2.2 u hu t (by simp), rfl, rfl⟩
    have hc' := (c40_append c hb _).2.2.1 hm
    refine ⟨_, Built.append hb ⟨t, ⟨(f t).1, exFrame 1, exFrame 2⟩, (f t).2.1, (f t).2.2⟩, ?_, ?_⟩
    · intro p hp
      rw [hc'] at hp
      rcases List.mem_append.mp hp with hp | hp
      · exact hw p hp
      · rw [List.mem_singleton] at hp
        subst hp
        exact (by decide : exFrame 1 = Frame.null ↔ exFrame 2 = Frame.null)
    · rw [hc', hc, List.map_append]
      rfl

/-- Less than half a turn between any two of the times, in particular between neighbours. -/
theorem turnsWithin_of {ts : List ℝ} {q : Polynomial ℝ} {w : V3} (h : ∀ a ∈ ts, ∀ b ∈ ts, |q.eval b - q.eval a| * eucNorm w < Real.pi) :
    TurnsWithin ts q w := by
  intro a b pre post e
  apply within_of_lt
  rw [eucNorm_smul]
  exact h a (by rw [e]; simp) b (by rw [e]; simp)

/-- The unit vector of the examples. -/
theorem upNorm : eucNorm ![0, 0, 1] = 1 := by rw [eucNorm, sqNorm_eq]; simp

/-- C82 for rotations.  If all controls of a time curve lie on one motion about the fixed axis `w`, by an angle that is any polynomial of time of degree
at most five, with the derivatives of that motion, and successive controls are less than half a turn apart (or exactly half a turn about an axis that
leads up), then at every time in range the curve
returns exactly the point of that motion, with its first and second derivative. -/
theorem c82_so3 (c : TCurve M3 V3) (h : Built c) (hw : WholeFrames c) (w : V3) (R0 : M3) (h0 : IsRotation R0) (q : Polynomial ℝ) (hq : q.natDegree ≤ 5)
    (hc : ∀ p ∈ c.controls, OnAxis (fun R : M3 => R) rotHat w R0 q p.time p.point.g.val p.point.d p.point.d2) (ht : TurnsWithin (times c) q w)
    (t : ℝ) (p : TwoJetL M3 V3) (hp : TCurve.pointAt SO3.ops c t = .ok p) :
    OnAxis (fun R : M3 => R) rotHat w R0 q t p.g.val p.d p.d2 := by
  have hE : ∀ s : ℝ, SO3.exp (s • w) = NormedSpace.exp (s • rotHat w) := fun s => by
    rw [SO3.exp_eq_matrix_exp, crossMatrix_smul]; rfl
  have P := SO3.oneParam w
  obtain ⟨a, b, pre, post, hctl, ha, hb, hlt, seg, -, k1, k2, k3, k4, k5, m1, m2, m3⟩ := axis_query so3Laws P (fun s => SO3.isRotation_exp _) h0 q c h hw
    (fun p hp => ⟨by have := (hc p hp).1; rw [← hE] at this; exact this, (hc p hp).2⟩) t p hp
  have hl : SO3.ops.log (SO3.ops.mul seg.dest.g.val (SO3.ops.inv seg.orig.g.val)) = (q.eval b.time - q.eval a.time) • w := by
    rw [k1]
    exact (SO3.log_exp_iff _).mpr (ht _ _ _ _ (times_split hctl))
  obtain ⟨r1, r2, r3⟩ := axis_finish so3Laws P hq hlt (vpoint_axis so3Laws P seg ((t - a.time) / (b.time - a.time)) _ _ _ _ _ hl k2 k3 k4 k5 rfl rfl rfl rfl rfl)
    m1 m2 m3
  exact ⟨by rw [r1, ← hE]; rfl, r2, r3⟩

/-- Turning about a fixed axis, ever faster: by `t^2 / 2` at time `t`, sampled at 0 s, 1 s and 2 s.  The curve is half way up the parabola at 1.5 s. -/
example : ∃ (c : TCurve M3 V3) (p : TwoJetL M3 V3), Built c ∧ times c = [0, 1, 2] ∧ TCurve.pointAt SO3.ops c (3 / 2) = .ok p ∧
    p.g.val = NormedSpace.exp ((9 / 8 : ℝ) • rotHat ![0, 0, 1]) * quarterTurn ∧ p.d = (3 / 2 : ℝ) • ![0, 0, 1] ∧ p.d2 = (1 : ℝ) • ![0, 0, 1] := by
  obtain ⟨q, hq⟩ : ∃ q : Polynomial ℝ, q = Polynomial.C (1 / 2) * Polynomial.X ^ 2 := ⟨_, rfl⟩
  have q0 : ∀ t : ℝ, q.eval t = t ^ 2 / 2 := fun t => by rw [hq]; simp; ring
  have q1 : ∀ t : ℝ, q.derivative.eval t = t := fun t => by rw [hq]; simp; ring
  have q2 : ∀ t : ℝ, q.derivative.derivative.eval t = 1 := fun t => by rw [hq]; simp; norm_num
  obtain ⟨c, hb, hwf, hc⟩ := sampled (G := M3) (A := V3) (fun t => (NormedSpace.exp (q.eval t • rotHat ![0, 0, 1]) * quarterTurn,
    q.derivative.eval t • ![0, 0, 1], q.derivative.derivative.eval t • ![0, 0, 1])) [0, 1, 2] (by simp)
  have ht : times c = [0, 1, 2] := by unfold times; rw [hc]; simp
  obtain ⟨p, hp⟩ : ∃ p, TCurve.pointAt SO3.ops c (3 / 2) = .ok p := by
    rw [(c41_domain SO3.ops c hb hwf (3 / 2)).1]
    refine ⟨by rw [hc]; simp, 0, 2, ?_, ?_, by norm_num, by norm_num⟩
    · unfold TCurve.startTime; rw [hc]; rfl
    · unfold TCurve.endTime; rw [hc]; rfl
  obtain ⟨r1, r2, r3⟩ := c82_so3 c hb hwf ![0, 0, 1] quarterTurn quarterTurn_isRotation q (le_trans (by rw [hq]; compute_degree) (by norm_num : 2 ≤ 5)) (fun p hp => by
      rw [hc, List.mem_map] at hp
      obtain ⟨t, -, rfl⟩ := hp
      exact ⟨rfl, rfl, rfl⟩) (by
      rw [ht]
      refine turnsWithin_of fun a ha b hb => ?_
      rw [upNorm, mul_one, q0, q0]
      have ha' : 0 ≤ a ∧ a ≤ 2 := by fin_cases ha <;> norm_num
      have hb' : 0 ≤ b ∧ b ≤ 2 := by fin_cases hb <;> norm_num
      exact lt_of_le_of_lt (show _ ≤ (2 : ℝ) from abs_le.mpr ⟨by nlinarith, by nlinarith⟩) (by linarith [Real.pi_gt_three])) (3 / 2) p hp
  refine ⟨c, p, hb, ht, hp, ?_, ?_, ?_⟩
  · refine r1.trans ?_
    rw [q0]; norm_num
  · rw [r2, q1]
  · rw [r3, q2]

/-- In an increasing list no member lies strictly between neighbours. -/
theorem neighbours {l pre post : List ℝ} {a b x : ℝ} (h : l.Pairwise (· < ·)) (e : l = pre ++ a :: b :: post) (hx : x ∈ l) : x ≤ a ∨ b ≤ x := by
  rw [e] at h hx
  obtain ⟨-, h2, h3⟩ := List.pairwise_append.mp h
  rw [List.pairwise_cons, List.pairwise_cons] at h2
  rw [List.mem_append, List.mem_cons, List.mem_cons] at hx
  rcases hx with hx | rfl | rfl | hx
  · exact .inl (h3 x hx a (by simp)).le
  · exact .inl le_rfl
  · exact .inr le_rfl
  · exact .inr (h2.2.1 x hx).le

theorem times_increase {G A : Type} [AddCommGroup A] [Module ℝ A] {c : TCurve G A} (h : Built c) : (times c).Pairwise (· < ·) := by
  unfold times
  rw [List.pairwise_map]
  exact (inv_of_built h).times

/-- C82 for rotations, both ways: a curve through controls on one motion about a fixed axis returns that motion at every time in range exactly if each
step from one control to the next is less than half a turn, or exactly half a turn with an axis whose largest component (the first of them if there
are several) is positive. -/
theorem c82_so3_iff (c : TCurve M3 V3) (h : Built c) (hw : WholeFrames c) (w : V3) (R0 : M3) (h0 : IsRotation R0) (q : Polynomial ℝ) (hq : q.natDegree ≤ 5)
    (hc : ∀ p ∈ c.controls, OnAxis (fun R : M3 => R) rotHat w R0 q p.time p.point.g.val p.point.d p.point.d2) :
    (∀ (t : ℝ) (p : TwoJetL M3 V3), TCurve.pointAt SO3.ops c t = .ok p → OnAxis (fun R : M3 => R) rotHat w R0 q t p.g.val p.d p.d2) ↔
      TurnsWithin (times c) q w := by
  refine ⟨fun hall a b pre post e => ?_, fun ht t p hp => c82_so3 c h hw w R0 h0 q hq hc ht t p hp⟩
  have hinc := times_increase h
  have hlt : a < b := by
    have := hinc
    rw [e, List.pairwise_append, List.pairwise_cons] at this
    exact this.2.1.1 b (by simp)
  have hma : a ∈ times c := by rw [e]; simp
  have hmb : b ∈ times c := by rw [e]; simp
  by_cases hw0 : w = 0
  · apply within_of_lt
    rw [hw0, smul_zero, eucNorm_zero]
    exact Real.pi_pos
  obtain ⟨t, ht⟩ : ∃ t : ℝ, t = (a + b) / 2 := ⟨_, rfl⟩
  obtain ⟨p, hp⟩ : ∃ p, TCurve.pointAt SO3.ops c t = .ok p := by
    have hlen : 2 ≤ c.controls.length := by
      have := congrArg List.length e
      unfold times at this
      rw [List.length_map, List.length_append, List.length_cons, List.length_cons] at this
      omega
    have hne : c.controls ≠ [] := by rintro h0; rw [h0] at hlen; simp at hlen
    rw [(c41_domain SO3.ops c h hw t).1]
    refine ⟨hlen, (c.controls.head hne).time, (c.controls.getLast hne).time, ?_, ?_, ?_, ?_⟩
    · unfold TCurve.startTime; rw [List.head?_eq_some_head hne]
    · unfold TCurve.endTime; rw [List.getLast?_eq_some_getLast hne]
    · obtain ⟨k, hk, rfl⟩ := List.mem_map.mp hma
      have hP := (inv_of_built h).times
      have : (c.controls.head hne).time ≤ k.time := by
        rw [← List.cons_head_tail hne] at hP hk
        rcases List.mem_cons.mp hk with rfl | hk
        · exact le_rfl
        · exact ((List.pairwise_cons.mp hP).1 k hk).le
      linarith
    · obtain ⟨k, hk, rfl⟩ := List.mem_map.mp hmb
      have hP := (inv_of_built h).times
      have : k.time ≤ (c.controls.getLast hne).time := by
        rw [← List.dropLast_append_getLast hne] at hP hk
        rcases List.mem_append.mp hk with hk | hk
        · exact ((List.pairwise_append.mp hP).2.2 k hk _ (by simp)).le
        · rw [List.mem_singleton.mp hk]
      linarith
  have hon := hall t p hp
  have hE : ∀ s : ℝ, SO3.exp (s • w) = NormedSpace.exp (s • rotHat w) := fun s => by
    rw [SO3.exp_eq_matrix_exp, crossMatrix_smul]; rfl
  have P := SO3.oneParam w
  obtain ⟨a', b', pre', post', hctl, ha, hb, -, seg, -, k1, k2, k3, k4, k5, -, m2, -⟩ := axis_query so3Laws P (fun s => SO3.isRotation_exp _) h0 q c h hw
    (fun p hp => ⟨by have := (hc p hp).1; rw [← hE] at this; exact this, (hc p hp).2⟩) t p hp
  have e' := times_split hctl
  have hma' : a'.time ∈ times c := by rw [e']; simp
  have hmb' : b'.time ∈ times c := by rw [e']; simp
  have ea : a'.time = a := by
    rcases neighbours hinc e hma' with g1 | g1 <;> rcases neighbours hinc e' hma with g2 | g2 <;> linarith
  have eb : b'.time = b := by
    rcases neighbours hinc e hmb' with g1 | g1 <;> rcases neighbours hinc e' hmb with g2 | g2 <;> linarith
  rw [ea, eb] at k1 k2 k3 k4 k5 m2
  rw [← SO3.log_exp_iff]
  obtain ⟨r, hr⟩ := SO3.log_exp_along ((q.eval b - q.eval a) • w)
  have hl : SO3.ops.log (SO3.ops.mul seg.dest.g.val (SO3.ops.inv seg.orig.g.val)) = (r * (q.eval b - q.eval a)) • w := by
    rw [k1, mul_smul]
    exact hr
  have hne : b - a ≠ 0 := sub_ne_zero.mpr hlt.ne'
  have hu : (t - a) / (b - a) = 1 / 2 := by rw [ht]; field_simp; ring
  rw [hu] at m2
  rw [vpoint_axis so3Laws P seg (1 / 2) _ _ _ _ _ hl k2 k3 k4 k5 rfl rfl rfl rfl rfl] at m2
  have hQ := quintic_eq q hq a (b - a) (1 / 2)
  rw [add_sub_cancel, show a + 1 / 2 * (b - a) = t by rw [ht]; ring] at hQ
  have hQ' := congrArg PolyCoeffs.da hQ
  simp only at hQ'
  have hv := hon.2.1
  rw [m2, smul_smul] at hv
  have hcoef : (b - a)⁻¹ * (quintic (r * (q.eval b - q.eval a)) ((b - a) * q.derivative.eval a) ((b - a) * q.derivative.eval b)
      ((b - a) ^ 2 * q.derivative.derivative.eval a) ((b - a) ^ 2 * q.derivative.derivative.eval b) (1 / 2)).da = q.derivative.eval t := by
    by_contra hcon
    rw [← sub_eq_zero, ← sub_smul] at hv
    rcases smul_eq_zero.mp hv with hz | hz
    · exact hcon (sub_eq_zero.mp hz)
    · exact hw0 hz
  have hsame : r * (q.eval b - q.eval a) = q.eval b - q.eval a := by
    have h1 : (quintic (r * (q.eval b - q.eval a)) ((b - a) * q.derivative.eval a) ((b - a) * q.derivative.eval b)
      ((b - a) ^ 2 * q.derivative.derivative.eval a) ((b - a) ^ 2 * q.derivative.derivative.eval b) (1 / 2)).da = (b - a) * q.derivative.eval t := by
      rw [← hcoef, mul_inv_cancel_left₀ hne]
    rw [← hQ'] at h1
    simp only [quintic] at h1
    have h2 : (Quintic.destFromOrig (1 / 2 : ℝ)).da = 15 / 8 := by
      simp only [Quintic.destFromOrig, Quintic.coeffs_da, Quintic.destOrigTable, Matrix.cons_val_zero, Matrix.cons_val_one, Matrix.cons_val]
      norm_num
    rw [h2] at h1
    linarith
  rw [hr, smul_smul, hsame]

/-- Half a turn exactly, about the third axis: upwards the vector is within reach, downwards it is not. -/
example : WithinReach ((Real.pi : ℝ) • ![0, 0, 1]) ∧ ¬ WithinReach ((Real.pi : ℝ) • ![0, 0, -1]) ∧ ¬ WithinReach ((3 * Real.pi / 2 : ℝ) • ![0, 0, 1]) := by
  have hpi := Real.pi_pos
  have e : ∀ r : ℝ, Real.sqrt ((r • ![0, 0, (1 : ℝ)]) 0 ^ 2 + (r • ![0, 0, (1 : ℝ)]) 1 ^ 2 + (r • ![0, 0, (1 : ℝ)]) 2 ^ 2) = |r| := by
    intro r
    rw [← Real.sqrt_sq_eq_abs]
    congr 1
    simp
  have e' : Real.sqrt (((Real.pi : ℝ) • ![0, 0, (-1 : ℝ)]) 0 ^ 2 + ((Real.pi : ℝ) • ![0, 0, (-1 : ℝ)]) 1 ^ 2 + ((Real.pi : ℝ) • ![0, 0, (-1 : ℝ)]) 2 ^ 2) = Real.pi := by
    refine Eq.trans ?_ (Real.sqrt_sq hpi.le)
    congr 1
    simp
  refine ⟨.inr ⟨by rw [e, abs_of_pos hpi], 2, by simpa using hpi, ?_, ?_⟩, ?_, ?_⟩
  · intro j; fin_cases j <;> simp [hpi.le, abs_of_pos hpi]
  · intro j hj; fin_cases j <;> simp_all
  · rintro (h | ⟨-, i, h1, h2, -⟩)
    · rw [e'] at h; exact lt_irrefl _ h
    · fin_cases i <;> simp at h1
      linarith
  · rintro (h | ⟨h, -⟩)
    · rw [e, abs_of_pos (by positivity)] at h; linarith
    · rw [e, abs_of_pos (by positivity)] at h; linarith

/-- The segment between two neighbouring controls, with derivatives with respect to the fraction of the time between them. -/
def between (a b : TControl Pose Twist) : TSegment Pose Twist :=
  ⟨⟨a.point.g, (b.time - a.time) • a.point.d, (b.time - a.time) ^ 2 • a.point.d2⟩,
    ⟨b.point.g, (b.time - a.time) • b.point.d, (b.time - a.time) ^ 2 • b.point.d2⟩⟩

/-- At time `t` no term of the segment formula is in the small-angle region (C28). -/
def ExactQuery (c : TCurve Pose Twist) (t : ℝ) : Prop :=
  ∀ a b pre post, c.controls = pre ++ a :: b :: post → a.time ≤ t → t ≤ b.time → ExactAt (between a b) ((t - a.time) / (b.time - a.time))

theorem onAxis_pose {x : Twist} {g0 : Pose} {s : ℝ} {g : Pose} :
    poseMatrix g = NormedSpace.exp (s • twistHat x) * poseMatrix g0 ↔ g = SE3.ops.mul (SE3.xexp (s • x)) g0 := by
  have e : NormedSpace.exp (s • twistHat x) * poseMatrix g0 = SE3.H (SE3.mul (SE3.xexp (s • x)) g0) := by
    rw [SE3.H_mul, SE3.H_xexp, SE3.T_smul]; rfl
  rw [e]
  exact ⟨fun h => SE3.H_injective h, fun h => by rw [h]; rfl⟩

theorem ExactTerm.xexp {k : PolyCoeffs} {c : ℝ} {x : Twist} (h : ExactTerm k (c • x.1)) :
    SE3.ops.exp ((k.a * c) • x) = SE3.xexp ((k.a * c) • x) := by
  apply SE3.xexp_eq
  rcases h.or with h | h | h
  · left
    rw [Prod.smul_fst, mul_smul, h, smul_zero]
  · left
    rw [Prod.smul_fst, h, zero_mul, zero_smul]
  · right
    rw [Prod.smul_fst, mul_smul]
    exact h.le

/-- C82 for rigid motions, at times when no term is in the small-angle region: the same for motion along one screw `x`.  What is missing is the
small-angle region; there the rotation is still exact, see the next theorem. -/
theorem c82_se3_partial (c : TCurve Pose Twist) (h : Built c) (hw : WholeFrames c) (x : Twist) (g0 : Pose) (h0 : IsRotation g0.1) (q : Polynomial ℝ)
    (hq : q.natDegree ≤ 5) (hc : ∀ p ∈ c.controls, OnAxis poseMatrix twistHat x g0 q p.time p.point.g.val p.point.d p.point.d2)
    (ht : TurnsWithin (times c) q x.1) (hg : ∀ a b pre post, times c = pre ++ a :: b :: post → GoodAngle ((q.eval b - q.eval a) • x.1))
    (t : ℝ) (he : ExactQuery c t) (p : TwoJetL Pose Twist) (hp : TCurve.pointAt SE3.ops c t = .ok p) :
    OnAxis poseMatrix twistHat x g0 q t p.g.val p.d p.d2 := by
  have P := SE3.oneParam x
  obtain ⟨a, b, pre, post, hctl, ha, hb, hlt, seg, hseg, k1, k2, k3, k4, k5, m1, m2, m3⟩ := axis_query se3Laws P (fun s => SE3.xexp_valid _) h0 q c h hw
    (fun p hp => ⟨onAxis_pose.mp (hc p hp).1, (hc p hp).2⟩) t p hp
  have hl : SE3.ops.log (SE3.ops.mul seg.dest.g.val (SE3.ops.inv seg.orig.g.val)) = (q.eval b.time - q.eval a.time) • x := by
    rw [k1]
    exact (SE3.log_near_of (x := (q.eval b.time - q.eval a.time) • x) ((SO3.log_exp_iff _).mpr (ht _ _ _ _ (times_split hctl)))).2.1 (goodAngle_iff (hg _ _ _ _ (times_split hctl)))
  obtain ⟨x0, x1, x2, x3, x4⟩ := he a b pre post hctl ha hb
  have hb' : between a b = seg := hseg.symm
  rw [hb'] at x0 x1 x2 x3 x4
  have hrel : relativeRotation seg.orig.g.val seg.dest.g.val = (q.eval b.time - q.eval a.time) • x.1 := congrArg Prod.fst hl
  rw [hrel] at x0
  rw [k2, Prod.smul_fst] at x1
  rw [k3, Prod.smul_fst] at x2
  rw [k4, Prod.smul_fst] at x3
  rw [k5, Prod.smul_fst] at x4
  obtain ⟨r1, r2, r3⟩ := axis_finish se3Laws P hq hlt (vpoint_axis se3Laws P seg ((t - a.time) / (b.time - a.time)) _ _ _ _ _ hl k2 k3 k4 k5
    x0.xexp x1.xexp x2.xexp x3.xexp x4.xexp) m1 m2 m3
  exact ⟨onAxis_pose.mpr r1, r2, r3⟩

/-- The size of the data on the segments that contain `t`: the amount moved, and the derivatives with respect to the fraction of the segment. -/
def DataAtMost (ts : List ℝ) (q : Polynomial ℝ) (t D : ℝ) : Prop :=
  ∀ a b pre post, ts = pre ++ a :: b :: post → a ≤ t → t ≤ b →
    |q.eval b - q.eval a| + (b - a) * (|q.derivative.eval a| + |q.derivative.eval b|)
      + (b - a) ^ 2 * (|q.derivative.derivative.eval a| + |q.derivative.derivative.eval b|) ≤ D

/-- C82 for rigid motions at every time: the rotation is exactly that of the screw motion, and the translation differs by at most 2e-15 of the size of
the data times the length of the screw's translation part. -/
theorem c82_se3_close_partial (c : TCurve Pose Twist) (h : Built c) (hw : WholeFrames c) (x : Twist) (g0 : Pose) (h0 : IsRotation g0.1)
    (q : Polynomial ℝ) (hq : q.natDegree ≤ 5)
    (hc : ∀ p ∈ c.controls, OnAxis poseMatrix twistHat x g0 q p.time p.point.g.val p.point.d p.point.d2) (ht : TurnsWithin (times c) q x.1)
    (t D : ℝ) (hD : DataAtMost (times c) q t D) (p : TwoJetL Pose Twist) (hp : TCurve.pointAt SE3.ops c t = .ok p) :
    ∃ g : Pose, poseMatrix g = NormedSpace.exp (q.eval t • twistHat x) * poseMatrix g0 ∧ p.g.val.1 = g.1 ∧
      eucNorm (p.g.val.2 - g.2) ≤ 2e-15 * (eucNorm x.2 * D) := by
  have P := SE3.oneParam x
  obtain ⟨a, b, pre, post, hctl, ha, hb, hlt, seg, hseg, k1, k2, k3, k4, k5, m1, -, -⟩ := axis_query se3Laws P (fun s => SE3.xexp_valid _) h0 q c h hw
    (fun p hp => ⟨onAxis_pose.mp (hc p hp).1, (hc p hp).2⟩) t p hp
  have hpos : 0 < b.time - a.time := sub_pos.mpr hlt
  obtain ⟨n1, n2⟩ := SE3.vpoint_near seg x ((t - a.time) / (b.time - a.time)) _ _ _ _ _ (div_nonneg (by linarith) hpos.le)
    ((div_le_one hpos).mpr (by linarith)) ((SO3.log_exp_iff _).mpr (ht _ _ _ _ (times_split hctl))) k1 k2 k3 k4 k5
  have hQ := quintic_eq q hq a.time (b.time - a.time) ((t - a.time) / (b.time - a.time))
  rw [div_mul_cancel₀ _ hpos.ne', add_sub_cancel, add_sub_cancel] at hQ
  rw [hQ] at n1 n2
  refine ⟨SE3.ops.mul (SE3.xexp (q.eval t • x)) g0, onAxis_pose.mpr rfl, ?_⟩
  have hm : SE3.ops.mul (SE3.xexp (q.eval t • x)) g0 = SE3.ops.mul (SE3.xexp ((q.eval t - q.eval a.time) • x)) (SE3.ops.mul (SE3.xexp (q.eval a.time • x)) g0) := by
    rw [← se3Laws.mul_assoc]
    congr 1
    have := P.mul (q.eval t - q.eval a.time) (q.eval a.time)
    rw [sub_add_cancel] at this
    exact this.symm
  rw [m1, hm]
  generalize SE3.ops.mul (SE3.xexp (q.eval a.time • x)) g0 = ga at *
  generalize (vpoint SE3.ops seg ((t - a.time) / (b.time - a.time))).1 = v at *
  constructor
  · change v.1 * ga.1 = _ * ga.1
    rw [n1]
  · have e : (SE3.ops.mul v ga).2 - (SE3.ops.mul (SE3.xexp ((q.eval t - q.eval a.time) • x)) ga).2 =
        v.2 - (SE3.xexp ((q.eval t - q.eval a.time) • x)).2 := by
      change (v.1 *ᵥ ga.2 + v.2) - (_ *ᵥ ga.2 + _) = _
      rw [n1]
      abel
    rw [e]
    refine n2.trans (mul_le_mul_of_nonneg_left (mul_le_mul_of_nonneg_left ?_ (eucNorm_nonneg _)) (by norm_num))
    refine le_trans (le_of_eq ?_) (hD _ _ _ _ (times_split hctl) ha hb)
    rw [abs_mul, abs_mul, abs_mul, abs_mul, abs_of_pos hpos, abs_of_pos (pow_pos hpos 2)]
    ring

/-- C82 for motion along a straight line: nothing is in the small-angle region, so everything is exact at every time. -/
theorem c82_straight (c : TCurve Pose Twist) (h : Built c) (hw : WholeFrames c) (v : V3) (g0 : Pose) (h0 : IsRotation g0.1)
    (q : Polynomial ℝ) (hq : q.natDegree ≤ 5)
    (hc : ∀ p ∈ c.controls, p.point.g.val = (g0.1, g0.2 + q.eval p.time • v) ∧ p.point.d = (0, q.derivative.eval p.time • v) ∧
      p.point.d2 = (0, q.derivative.derivative.eval p.time • v))
    (t : ℝ) (p : TwoJetL Pose Twist) (hp : TCurve.pointAt SE3.ops c t = .ok p) :
    p.g.val = (g0.1, g0.2 + q.eval t • v) ∧ p.d = (0, q.derivative.eval t • v) ∧ p.d2 = (0, q.derivative.derivative.eval t • v) := by
  have hx : ∀ s : ℝ, SE3.ops.mul (SE3.xexp (s • ((0, v) : Twist))) g0 = (g0.1, g0.2 + s • v) := by
    intro s
    have : SE3.xexp (s • ((0, v) : Twist)) = (1, s • v) := by
      refine Prod.ext ?_ ?_
      · change SO3.exp (s • (0 : V3)) = 1
        rw [smul_zero, SO3.exp_zero]
      · simp [SE3.xexp, crossMatrix_zero]
    rw [this]
    refine Prod.ext ?_ ?_
    · exact Matrix.one_mul _
    · change (1 : M3) *ᵥ g0.2 + s • v = _
      rw [Matrix.one_mulVec]
  have hs : ∀ r : ℝ, r • ((0, v) : Twist) = (0, r • v) := fun r => by rw [Prod.smul_mk, smul_zero]
  have hr : ∀ p ∈ c.controls, p.point.g.val.1 = g0.1 := fun p hp => by rw [(hc p hp).1]
  have ex : ExactQuery c t := by
    intro a b pre post hctl _ _
    have ma : a ∈ c.controls := by rw [hctl]; simp
    have mb : b ∈ c.controls := by rw [hctl]; simp
    refine ⟨.inl ?_, .inl ?_, .inl ?_, .inl ?_, .inl ?_⟩
    · change SO3.log (b.point.g.val.1 * a.point.g.val.1.transpose) = 0
      rw [hr a ma, hr b mb, IsRotation_orth' h0, ← SO3.exp_zero]
      exact SO3.log_exp (by rw [eucNorm_zero]; exact Real.pi_pos)
    · change ((b.time - a.time) • a.point.d).1 = 0
      rw [(hc a ma).2.1]; simp
    · change ((b.time - a.time) • b.point.d).1 = 0
      rw [(hc b mb).2.1]; simp
    · change ((b.time - a.time) ^ 2 • a.point.d2).1 = 0
      rw [(hc a ma).2.2]; simp
    · change ((b.time - a.time) ^ 2 • b.point.d2).1 = 0
      rw [(hc b mb).2.2]; simp
  obtain ⟨r1, r2, r3⟩ := c82_se3_partial c h hw (0, v) g0 h0 q hq
    (fun p hp => ⟨onAxis_pose.mpr (by rw [(hc p hp).1, hx]), by rw [(hc p hp).2.1, hs], by rw [(hc p hp).2.2, hs]⟩)
    (fun a b _ _ _ => within_of_lt (by rw [smul_zero, eucNorm_zero]; exact Real.pi_pos)) (fun a b _ _ _ => .inl (smul_zero _)) t ex p hp
  exact ⟨by rw [onAxis_pose.mp r1, hx], by rw [r2, hs], by rw [r3, hs]⟩

/-- A screw motion, turning by one radian a second while rising by two, meets the hypotheses half-way between its controls. -/
example : ∃ (c : TCurve Pose Twist) (q : Polynomial ℝ), Built c ∧ WholeFrames c ∧ q.natDegree ≤ 5 ∧
    (∀ p ∈ c.controls, OnAxis poseMatrix twistHat (![0, 0, 1], ![1, 0, 2]) (quarterTurn, ![1, 2, 3]) q p.time p.point.g.val p.point.d p.point.d2) ∧
    TurnsWithin (times c) q ![0, 0, 1] ∧ (∀ a b pre post, times c = pre ++ a :: b :: post → GoodAngle ((q.eval b - q.eval a) • ![0, 0, 1])) ∧
    ExactQuery c (1 / 2) ∧ (∃ p, TCurve.pointAt SE3.ops c (1 / 2) = .ok p) ∧ DataAtMost (times c) q (1 / 2) 3 := by
  obtain ⟨x, hx⟩ : ∃ x : Twist, x = (![0, 0, 1], ![1, 0, 2]) := ⟨_, rfl⟩
  have hx1 : x.1 = ![0, 0, 1] := by rw [hx]
  rw [← hx, ← hx1]
  have hn : eucNorm x.1 = 1 := by rw [hx1, upNorm]
  obtain ⟨c, hb, hwf, hc⟩ := sampled (G := Pose) (A := Twist) (fun t => (SE3.ops.mul (SE3.xexp ((Polynomial.X : Polynomial ℝ).eval t • x)) (quarterTurn, ![1, 2, 3]), x, 0)) [0, 1] (by simp)
  have ht : times c = [0, 1] := by unfold times; rw [hc]; simp
  have two : ∀ (y z a b : ℝ) (pre post : List ℝ), [y, z] = pre ++ a :: b :: post → a = y ∧ b = z := by
    intro y z a b pre post e
    rcases pre with _ | ⟨u, pre⟩
    · simp at e
      exact ⟨e.1.symm, e.2.1.symm⟩
    · have := congrArg List.length e
      simp at this
      omega
  refine ⟨c, Polynomial.X, hb, hwf, by rw [Polynomial.natDegree_X]; norm_num, ?_, ?_, ?_, ?_, ?_, ?_⟩
  · intro p hp
    rw [hc, List.mem_map] at hp
    obtain ⟨t, -, rfl⟩ := hp
    exact ⟨onAxis_pose.mpr rfl, by simp, by simp⟩
  · intro a b pre post e
    rw [ht] at e
    obtain ⟨rfl, rfl⟩ := two _ _ _ _ _ _ e
    apply within_of_lt
    rw [eucNorm_smul, hn]
    simp
    linarith [Real.pi_gt_three]
  · intro a b pre post e
    rw [ht] at e
    obtain ⟨rfl, rfl⟩ := two _ _ _ _ _ _ e
    right
    rw [eucNorm_smul, hn]
    simp
    norm_num
  · intro a b pre post e _ _
    have hl := congrArg List.length e
    rw [hc] at e
    rcases pre with _ | ⟨u, pre⟩
    swap
    · rw [hc] at hl
      simp at hl
      omega
    simp only [List.map_cons, List.map_nil, List.nil_append, List.cons.injEq] at e
    obtain ⟨ea, eb, -⟩ := e
    have p1 := (SE3.oneParam x).mul 1 (-0)
    have hrel : relativeRotation (between a b).orig.g.val (between a b).dest.g.val = x.1 := by
      rw [← ea, ← eb]
      simp only [between]
      change SO3.log ((SO3.exp _ * quarterTurn) * (SO3.exp _ * quarterTurn).transpose) = _
      have e0 : SO3.exp (((Polynomial.X : Polynomial ℝ).eval 0 • x).1) = 1 := by simp [SO3.exp_zero]
      have e1 : ((Polynomial.X : Polynomial ℝ).eval 1 • x).1 = x.1 := by simp
      rw [e0, e1, Matrix.one_mul, Matrix.mul_assoc, IsRotation_orth' quarterTurn_isRotation, Matrix.mul_one]
      exact SO3.log_exp (by rw [hn]; linarith [Real.pi_gt_three])
    have hbig : ∀ r : ℝ, 0.002 < |r| → 0.002 < eucNorm (r • x.1) := fun r h => by rwa [eucNorm_smul, hn, mul_one]
    refine ⟨.inr (.inr ?_), .inr (.inr ?_), .inr (.inr ?_), .inl ?_, .inl ?_⟩
    · rw [hrel]
      apply hbig
      rw [← ea, ← eb]
      simp [Quintic.destFromOrig, Quintic.coeffs_a, Quintic.destOrigTable]
      norm_num
    · have : (between a b).orig.d.1 = x.1 := by rw [← ea, ← eb]; simp [between]
      rw [this]
      apply hbig
      rw [← ea, ← eb]
      simp [Quintic.dOrig, Quintic.coeffs_a, Quintic.dOrigTable]
      norm_num
    · have : (between a b).dest.d.1 = x.1 := by rw [← ea, ← eb]; simp [between]
      rw [this]
      apply hbig
      rw [← ea, ← eb]
      simp [Quintic.dDest, Quintic.coeffs_a, Quintic.dDestTable]
      norm_num
    · rw [← ea, ← eb]; simp [between]
    · rw [← ea, ← eb]; simp [between]
  · rw [(c41_domain SE3.ops c hb hwf (1 / 2)).1]
    refine ⟨by rw [hc]; simp, 0, 1, ?_, ?_, by norm_num, by norm_num⟩
    · unfold TCurve.startTime; rw [hc]; rfl
    · unfold TCurve.endTime; rw [hc]; rfl
  · intro a b pre post e _ _
    rw [ht] at e
    obtain ⟨rfl, rfl⟩ := two _ _ _ _ _ _ e
    simp
    norm_num

/-- A car braking on a straight road, from 4 m/s to a stop in 2 s, is 3 m along after 1 s and moving at 2 m/s. -/
example : ∃ (c : TCurve Pose Twist) (p : TwoJetL Pose Twist), Built c ∧ times c = [0, 2] ∧ TCurve.pointAt SE3.ops c 1 = .ok p ∧
    p.g.val = (quarterTurn, ![1, 2, 3] + (3 : ℝ) • ![0, 1, 0]) ∧ p.d = (0, (2 : ℝ) • ![0, 1, 0]) ∧ p.d2 = (0, (-2 : ℝ) • ![0, 1, 0]) := by
  obtain ⟨q, hq⟩ : ∃ q : Polynomial ℝ, q = 4 * Polynomial.X - Polynomial.X ^ 2 := ⟨_, rfl⟩
  have q0 : ∀ t : ℝ, q.eval t = 4 * t - t ^ 2 := fun t => by rw [hq]; simp
  have q1 : ∀ t : ℝ, q.derivative.eval t = 4 - 2 * t := fun t => by rw [hq]; simp; left; norm_num
  have q2 : ∀ t : ℝ, q.derivative.derivative.eval t = -2 := fun t => by rw [hq]; simp; norm_num
  obtain ⟨c, hb, hwf, hc⟩ := sampled (G := Pose) (A := Twist) (fun t => ((quarterTurn, ![1, 2, 3] + q.eval t • ![0, 1, 0]),
    (0, q.derivative.eval t • ![0, 1, 0]), (0, q.derivative.derivative.eval t • ![0, 1, 0]))) [0, 2] (by simp)
  obtain ⟨p, hp⟩ : ∃ p, TCurve.pointAt SE3.ops c 1 = .ok p := by
    rw [(c41_domain SE3.ops c hb hwf 1).1]
    refine ⟨by rw [hc]; simp, 0, 2, ?_, ?_, by norm_num, by norm_num⟩
    · unfold TCurve.startTime; rw [hc]; rfl
    · unfold TCurve.endTime; rw [hc]; rfl
  obtain ⟨r1, r2, r3⟩ := c82_straight c hb hwf ![0, 1, 0] (quarterTurn, ![1, 2, 3]) quarterTurn_isRotation q (le_trans (by rw [hq]; compute_degree) (by norm_num : 2 ≤ 5)) (fun p hp => by
      rw [hc, List.mem_map] at hp
      obtain ⟨t, -, rfl⟩ := hp
      exact ⟨rfl, rfl, rfl⟩) 1 p hp
  refine ⟨c, p, hb, by unfold times; rw [hc]; simp, hp, ?_, ?_, ?_⟩
  · rw [r1, q0]; norm_num
  · rw [r2, q1]; norm_num
  · rw [r3, q2]

/-! ## Trajectories -/

/-- The times of trajectory controls in seconds from the first one, as `as_seconds` gives them. -/
noncomputable def secondsFrom (start : Int) (acc : List TrajControl) : List ℝ := acc.map fun p => (Binary64.asSeconds (p.atTime - start) : ℝ)

theorem onBodyAxis_pose {x : Twist} {g0 : Pose} {s : ℝ} {g : Pose} :
    poseMatrix g = poseMatrix g0 * NormedSpace.exp (s • twistHat x) ↔ g = SE3.ops.mul g0 (SE3.xexp (s • x)) := by
  have e : poseMatrix g0 * NormedSpace.exp (s • twistHat x) = SE3.H (SE3.mul g0 (SE3.xexp (s • x))) := by
    rw [SE3.H_mul, SE3.H_xexp, SE3.T_smul]; rfl
  rw [e]
  exact ⟨fun h => SE3.H_injective h, fun h => by rw [h]; rfl⟩

/-- C82 for trajectories.  If the accepted controls of a trajectory lie on one screw motion of the body, `g0 exp(q(t) x)` with `x` fixed in the body,
`q` any polynomial of degree at most five (constant speed has degree one), less than half a turn between successive controls, then at every timestamp
in range `point_at` returns a state whose orientation is exactly, and whose position up to the stated distance, that of the screw motion. -/
theorem c82_trajectory_partial (T : Trajectory) (first : TrajControl) (rest : List TrajControl) (h : Reached T (first :: rest)) (x : Twist) (g0 : Pose)
    (h0 : IsRotation g0.1) (q : Polynomial ℝ) (hq : q.natDegree ≤ 5)
    (hc : ∀ p ∈ first :: rest, OnBodyAxis poseMatrix twistHat x g0 q (Binary64.asSeconds (p.atTime - first.atTime)) p.state.refFromBody.val
      p.state.twoJet.d p.state.twoJet.d2)
    (ht : TurnsWithin (secondsFrom first.atTime (first :: rest)) q (-x.1)) (t : Int) (D : ℝ)
    (hD : DataAtMost (secondsFrom first.atTime (first :: rest)) q (Binary64.asSeconds (t - first.atTime)) D) (s : RBState)
    (hs : Trajectory.pointAt T t = .ok s) :
    ∃ g : Pose, poseMatrix g = poseMatrix g0 * NormedSpace.exp (q.eval (Binary64.asSeconds (t - first.atTime) : ℝ) • twistHat x) ∧
      s.refFromBody.val.1 = g.1 ∧ eucNorm (s.refFromBody.val.2 - g.2) ≤ 2e-15 * (eucNorm x.2 * D) := by
  have hI := inv_of_reached h
  have hst := c50_start_time T first rest h
  have htimes : times T.curve = secondsFrom first.atTime (first :: rest) := by
    unfold times secondsFrom
    rw [hI.controls, List.map_map, hst]
    rfl
  have P := SE3.oneParam x
  have hinvE : ∀ r : ℝ, SE3.ops.inv (SE3.xexp (r • x)) = SE3.xexp ((-r) • x) := by
    intro r
    symm
    apply se3Laws.inv_unique (SE3.xexp_valid _)
    have := P.mul r (-r)
    rw [add_neg_cancel, P.zero] at this
    exact this
  have hinvP : ∀ r : ℝ, SE3.ops.inv (SE3.ops.mul g0 (SE3.xexp (r • x))) = SE3.ops.mul (SE3.xexp ((-r) • x)) (SE3.ops.inv g0) := by
    intro r
    rw [se3Laws.inv_mul_rev (valid := PoseValid) h0 (SE3.xexp_valid _), hinvE]
  unfold Trajectory.pointAt at hs
  obtain ⟨d, hd, hs1⟩ := bind_ok hs
  obtain ⟨j, hj, hs2⟩ := bind_ok hs1
  obtain ⟨r, hr, hs3⟩ := bind_ok hs2
  have hd' : d = t - first.atTime := by
    unfold i64 at hd
    split_ifs at hd
    rw [← hst]
    exact (Outcome.ok.inj hd).symm
  subst hd'
  have hneg : TurnsWithin (times T.curve) (-q) x.1 := by
    rw [htimes]
    intro a b pre post e
    have := ht a b pre post e
    rwa [Polynomial.eval_neg, Polynomial.eval_neg, ← neg_sub', neg_smul, ← smul_neg]
  have hDneg : DataAtMost (times T.curve) (-q) (Binary64.asSeconds (t - first.atTime) : ℝ) D := by
    rw [htimes]
    intro a b pre post e e1 e2
    have := hD a b pre post e e1 e2
    simp only [Polynomial.eval_neg, Polynomial.derivative_neg, abs_neg]
    rwa [← neg_sub', abs_neg]
  obtain ⟨g, g1, g2, g3⟩ := c82_se3_close_partial T.curve hI.built (whole_curve hI) x (SE3.ops.inv g0) (se3Laws.valid_inv (valid := PoseValid) h0) (-q)
    (by rwa [Polynomial.natDegree_neg]) (fun p hp => by
      rw [hI.controls, List.mem_map] at hp
      obtain ⟨p, hp, rfl⟩ := hp
      obtain ⟨c1, c2, c3⟩ := hc p hp
      rw [hst]
      refine ⟨onAxis_pose.mpr ?_, ?_, ?_⟩
      · simp only [Trajectory.toControl, Polynomial.eval_neg]
        rw [onBodyAxis_pose.mp c1, hinvP]
      · simp only [Trajectory.toControl, Polynomial.eval_neg, Polynomial.derivative_neg, neg_smul]
        rw [c2]
      · simp only [Trajectory.toControl, Polynomial.eval_neg, Polynomial.derivative_neg, neg_smul]
        rw [c3]) hneg _ D hDneg j hj
  unfold TwoJetL.right at hr
  obtain ⟨i, hi, hr⟩ := bind_ok hr
  rw [Framed.inverse, mk'_eq_ok_iff] at hi
  have hval : s.refFromBody.val = SE3.ops.inv j.g.val := by
    rw [← Outcome.ok.inj hs3]
    change r.g.val = _
    rw [← Outcome.ok.inj hr, hi.2]
  refine ⟨SE3.ops.inv g, onBodyAxis_pose.mpr ?_, ?_, ?_⟩
  · have e := onAxis_pose.mp g1
    rw [Polynomial.eval_neg] at e
    rw [e, se3Laws.inv_mul_rev (valid := PoseValid) (SE3.xexp_valid _) (se3Laws.valid_inv (valid := PoseValid) h0),
      se3Laws.inv_inv (valid := PoseValid) h0, hinvE, neg_neg]
  · rw [hval]
    change j.g.val.1.transpose = g.1.transpose
    rw [g2]
  · have hg : IsRotation g.1 := by
      have e := onAxis_pose.mp g1
      rw [e]
      exact se3Laws.valid_mul (valid := PoseValid) (SE3.xexp_valid _) (se3Laws.valid_inv (valid := PoseValid) h0)
    have e : (SE3.ops.inv j.g.val).2 - (SE3.ops.inv g).2 = g.1.transpose *ᵥ (-(j.g.val.2 - g.2)) := by
      change j.g.val.1.transpose *ᵥ (-j.g.val.2) - g.1.transpose *ᵥ (-g.2) = _
      rw [g2, ← Matrix.mulVec_sub]
      congr 1
      abel
    rw [hval, e, eucNorm_mulVec (isRotation_transpose hg), eucNorm_neg]
    exact g3

/-- C82 for trajectories on a circle: if the body turns about the point `c` fixed in it, with angular velocity along `w`, then at every timestamp the
trajectory keeps its distance from that point, up to 2e-15 of the size of the data times the speed for one unit of `q`. -/
theorem c82_circle_partial (T : Trajectory) (first : TrajControl) (rest : List TrajControl) (h : Reached T (first :: rest)) (w c : V3) (g0 : Pose)
    (h0 : IsRotation g0.1) (q : Polynomial ℝ) (hq : q.natDegree ≤ 5)
    (hc : ∀ p ∈ first :: rest, OnBodyAxis poseMatrix twistHat (w, c ⨯₃ w) g0 q (Binary64.asSeconds (p.atTime - first.atTime)) p.state.refFromBody.val
      p.state.twoJet.d p.state.twoJet.d2)
    (ht : TurnsWithin (secondsFrom first.atTime (first :: rest)) q (-w)) (D : ℝ)
    (hD : ∀ t, DataAtMost (secondsFrom first.atTime (first :: rest)) q t D)
    (t : Int) (s : RBState) (hs : Trajectory.pointAt T t = .ok s) :
    |eucNorm (s.refFromBody.val.2 - (g0.1 *ᵥ c + g0.2)) - eucNorm c| ≤ 2e-15 * (eucNorm (c ⨯₃ w) * D) := by
  obtain ⟨g, g1, -, g3⟩ := c82_trajectory_partial T first rest h (w, c ⨯₃ w) g0 h0 q hq hc ht t D (hD _) s hs
  have hgc : eucNorm (g.2 - (g0.1 *ᵥ c + g0.2)) = eucNorm c := by
    rw [onBodyAxis_pose.mp g1, SE3.xexp_about]
    generalize hR : SO3.exp ((_ : ℝ) • w) = R
    have hR' : IsRotation R := by rw [← hR]; exact SO3.isRotation_exp _
    have e : (SE3.ops.mul g0 (R, c - R *ᵥ c)).2 - (g0.1 *ᵥ c + g0.2) = -(g0.1 *ᵥ (R *ᵥ c)) := by
      change (g0.1 *ᵥ (c - R *ᵥ c) + g0.2) - _ = _
      rw [Matrix.mulVec_sub]
      abel
    rw [e, eucNorm_neg, eucNorm_mulVec h0, eucNorm_mulVec hR']
  generalize g0.1 *ᵥ c + g0.2 = centre at *
  rw [← hgc]
  refine le_trans ?_ g3
  have a1 := eucNorm_add_le (s.refFromBody.val.2 - g.2) (g.2 - centre)
  have a2 := eucNorm_add_le (g.2 - s.refFromBody.val.2) (s.refFromBody.val.2 - centre)
  rw [sub_add_sub_cancel] at a1 a2
  rw [← eucNorm_neg, neg_sub] at a2
  rw [abs_le]
  have a3 : eucNorm (g.2 - s.refFromBody.val.2) = eucNorm (s.refFromBody.val.2 - g.2) := by rw [← eucNorm_neg, neg_sub]
  rw [← eucNorm_neg, neg_sub] at a2
  constructor <;> linarith

theorem seconds_whole (n : Int) (h : |n| ≤ 1000) : Binary64.asSeconds (n * 1000000000) = n := by
  rw [asSeconds_small (by rw [abs_mul]; norm_num; linarith)]
  have : ((n * 1000000000 : ℤ) : ℚ) / 1000000000 = n := by push_cast; ring
  rw [this]
  exact Binary64.fl_representable ⟨n, 0, by linarith, by simp⟩

/-- The shipped example in small: a body circling the origin at distance one, one radian a second, with controls every second.  It stays within 1.2e-14
of the circle at every timestamp. -/
example : ∃ (T : Trajectory) (acc : List TrajControl), Reached T acc ∧ acc.map (·.atTime) = [0, 1000000000, 2000000000] ∧
    ∀ t s, Trajectory.pointAt T t = .ok s → |eucNorm s.refFromBody.val.2 - 1| ≤ 1.2e-14 := by
  obtain ⟨w, hw⟩ : ∃ w : V3, w = ![0, 0, 1] := ⟨_, rfl⟩
  obtain ⟨c, hc⟩ : ∃ c : V3, c = ![0, 1, 0] := ⟨_, rfl⟩
  obtain ⟨g0, hg0⟩ : ∃ g0 : Pose, g0 = (1, -c) := ⟨_, rfl⟩
  have hcw : c ⨯₃ w = ![1, 0, 0] := by rw [hc, hw, cross_apply]; simp
  have n1 : eucNorm (c ⨯₃ w) = 1 := by rw [hcw, eucNorm, sqNorm_eq]; simp
  have n2 : eucNorm c = 1 := by rw [hc, eucNorm, sqNorm_eq]; simp
  have n3 : eucNorm w = 1 := by rw [hw, upNorm]
  obtain ⟨T, hT⟩ := exReached (fun t => ⟨⟨⟨SE3.ops.mul g0 (SE3.xexp ((Binary64.asSeconds t : ℝ) • ((w, c ⨯₃ w) : Twist))), exFrame 1, exFrame 2⟩,
    (w, c ⨯₃ w), 0⟩⟩) (fun t => ⟨(by decide : exFrame 1 = Frame.null ↔ exFrame 2 = Frame.null), rfl, rfl⟩) 0 (by decide)
    [1000000000, 2000000000] (by decide) (by decide) (by decide)
  refine ⟨T, _, hT, rfl, ?_⟩
  have hsec : ∀ r ∈ secondsFrom 0 (([0, 1000000000, 2000000000] : List Int).map fun t => (⟨t, ⟨⟨⟨SE3.ops.mul g0
      (SE3.xexp ((Binary64.asSeconds t : ℝ) • ((w, c ⨯₃ w) : Twist))), exFrame 1, exFrame 2⟩, (w, c ⨯₃ w), 0⟩⟩⟩ : TrajControl)), 0 ≤ r ∧ r ≤ 2 := by
    intro r hr
    unfold secondsFrom at hr
    simp only [List.map_cons, List.map_nil, List.mem_cons, List.not_mem_nil, or_false, sub_zero] at hr
    have s0 := seconds_whole 0 (by norm_num)
    have s1 := seconds_whole 1 (by norm_num)
    have s2 := seconds_whole 2 (by norm_num)
    norm_num at s0 s1 s2
    rw [s1, s2, zero_seconds] at hr
    rcases hr with rfl | rfl | rfl <;> norm_num
  intro t s hs
  have := c82_circle_partial T _ _ hT w c g0 (by rw [hg0]; exact SO3.isRotation_one) Polynomial.X (by rw [Polynomial.natDegree_X]; norm_num) (by
      intro p hp
      rw [← List.map_cons (f := fun t : Int => (⟨t, ⟨⟨⟨SE3.ops.mul g0 (SE3.xexp ((Binary64.asSeconds t : ℝ) • ((w, c ⨯₃ w) : Twist))), exFrame 1, exFrame 2⟩,
        (w, c ⨯₃ w), 0⟩⟩⟩ : TrajControl)), List.mem_map] at hp
      obtain ⟨t, -, rfl⟩ := hp
      refine ⟨onBodyAxis_pose.mpr ?_, ?_, ?_⟩
      · simp [RBState.refFromBody]
      · simp [RBState.twoJet]
      · simp [RBState.twoJet]) (by
      refine turnsWithin_of fun a ha b hb => ?_
      have ha' := hsec a ha
      have hb' := hsec b hb
      rw [eucNorm_neg, n3, mul_one, Polynomial.eval_X, Polynomial.eval_X]
      exact lt_of_le_of_lt (show _ ≤ (2 : ℝ) from abs_le.mpr ⟨by linarith, by linarith⟩) (by linarith [Real.pi_gt_three])) 6 (by
      intro t a b pre post e _ _
      have ha' := hsec a (e ▸ by simp)
      have hb' := hsec b (e ▸ by simp)
      have : |b - a| ≤ 2 := abs_le.mpr ⟨by linarith, by linarith⟩
      simp
      linarith) t s hs
  rw [n1, n2, hg0] at this
  simp only [Matrix.one_mulVec, add_neg_cancel, sub_zero] at this
  refine this.trans (by norm_num)

/-! ## More than half a turn -/

/-- C82 is false for larger turns: a curve through two controls of a constant rotation, three quarters of a turn apart, is half a turn off half-way. -/
theorem c82_wide_turn_fails : ∃ (c : TCurve M3 V3) (w : V3) (q : Polynomial ℝ) (p : TwoJetL M3 V3), Built c ∧ WholeFrames c ∧ q.natDegree ≤ 1 ∧
    (∀ p ∈ c.controls, OnAxis (fun R : M3 => R) rotHat w 1 q p.time p.point.g.val p.point.d p.point.d2) ∧
    TCurve.pointAt SO3.ops c (1 / 2) = .ok p ∧ ¬ OnAxis (fun R : M3 => R) rotHat w 1 q (1 / 2) p.g.val p.d p.d2 := by
  obtain ⟨w, hw⟩ : ∃ w : V3, w = ![0, 0, 1] := ⟨_, rfl⟩
  have hn : sqNorm w = 1 := by rw [hw, sqNorm_eq]; simp
  obtain ⟨q, hq⟩ : ∃ q : Polynomial ℝ, q = Polynomial.C (3 * Real.pi / 2) * Polynomial.X := ⟨_, rfl⟩
  have q0 : ∀ t : ℝ, q.eval t = 3 * Real.pi / 2 * t := fun t => by rw [hq]; simp
  have q1 : ∀ t : ℝ, q.derivative.eval t = 3 * Real.pi / 2 := fun t => by rw [hq]; simp
  have q2 : ∀ t : ℝ, q.derivative.derivative.eval t = 0 := fun t => by rw [hq]; simp
  have hE : ∀ s : ℝ, SO3.exp (s • w) = NormedSpace.exp (s • rotHat w) := fun s => by
    rw [SO3.exp_eq_matrix_exp, crossMatrix_smul]; rfl
  have P := SO3.oneParam w
  have m : ∀ s t : ℝ, SO3.exp (s • w) * SO3.exp (t • w) = SO3.exp ((s + t) • w) := P.mul
  have full : SO3.exp ((2 * Real.pi) • w) = 1 := by
    rw [← SO3.angleAxis_exp _ hn]
    exact SO3.angleAxisMatrix_of_cos Real.cos_two_pi _
  have half : SO3.exp (Real.pi • w) ≠ 1 := by
    rw [← SO3.angleAxis_exp _ hn]
    intro e
    have := congrFun (congrFun e 0) 0
    rw [hw] at this
    simp [angleAxisMatrix] at this
    norm_num at this
  obtain ⟨c, hb, hwf, hc⟩ := sampled (G := M3) (A := V3) (fun t => (SO3.exp (q.eval t • w), q.derivative.eval t • w, q.derivative.derivative.eval t • w))
    [0, 1] (by simp)
  have hax : ∀ p ∈ c.controls, OnAxis (fun R : M3 => R) rotHat w 1 q p.time p.point.g.val p.point.d p.point.d2 := by
    intro p hp
    rw [hc, List.mem_map] at hp
    obtain ⟨t, -, rfl⟩ := hp
    refine ⟨?_, rfl, rfl⟩
    simp only
    rw [hE, Matrix.mul_one]
  have hok : ∃ p, TCurve.pointAt SO3.ops c (1 / 2) = .ok p := by
    rw [(c41_domain SO3.ops c hb hwf (1 / 2)).1]
    refine ⟨by rw [hc]; simp, 0, 1, ?_, ?_, by norm_num, by norm_num⟩
    · unfold TCurve.startTime; rw [hc]; rfl
    · unfold TCurve.endTime; rw [hc]; rfl
  obtain ⟨p, hp⟩ := hok
  refine ⟨c, w, q, p, hb, hwf, by rw [hq]; compute_degree, hax, hp, ?_⟩
  intro hon
  obtain ⟨a, b, pre, post, hctl, ha, hb', hlt, seg, hseg, k1, k2, k3, k4, k5, m1, -, -⟩ := axis_query so3Laws P (fun s => SO3.isRotation_exp _)
    (g0 := (1 : M3)) so3Laws.valid_one q c hb hwf (fun p hp => ⟨by have := (hax p hp).1; rw [← hE] at this; exact this, (hax p hp).2⟩) (1 / 2) p hp
  have hab : a.time = 0 ∧ b.time = 1 := by
    have := times_split hctl
    unfold times at this
    rw [hc] at this
    simp only [List.map_cons, List.map_nil] at this
    rcases pre with _ | ⟨y, pre⟩
    · simp at this
      exact ⟨this.1.symm, this.2.1.symm⟩
    · have := congrArg List.length this
      simp at this
      omega
  obtain ⟨ea, eb⟩ := hab
  rw [ea] at k1 k2 k3 k4 k5 m1
  rw [eb] at k1 k2 k3 k4 k5 m1
  rw [q0, q0] at k1
  have hl : SO3.ops.log (SO3.ops.mul seg.dest.g.val (SO3.ops.inv seg.orig.g.val)) = (-(Real.pi / 2)) • w := by
    rw [k1]
    have : SO3.exp ((3 * Real.pi / 2 * 1 - 3 * Real.pi / 2 * 0) • w) = SO3.exp ((-(Real.pi / 2)) • w) := by
      have e := m (-(Real.pi / 2)) (2 * Real.pi)
      rw [full, Matrix.mul_one] at e
      rw [e]
      congr 2
      ring
    rw [this]
    apply SO3.log_exp
    rw [eucNorm_smul, abs_neg, abs_of_pos (by positivity), eucNorm, hn, Real.sqrt_one]
    linarith [Real.pi_pos]
  rw [q1] at k2 k3
  rw [q2] at k4 k5
  have hv := vpoint_axis so3Laws P seg ((1 / 2 - 0) / (1 - 0)) _ _ _ _ _ hl k2 k3 k4 k5 rfl rfl rfl rfl rfl
  have hquint : (quintic (-(Real.pi / 2)) ((1 - 0) * (3 * Real.pi / 2)) ((1 - 0) * (3 * Real.pi / 2)) ((1 - 0) ^ 2 * 0) ((1 - 0) ^ 2 * 0)
      ((1 / 2 - 0) / (1 - 0))).a = -(Real.pi / 4) := by
    simp only [quintic, Quintic.destFromOrig, Quintic.dOrig, Quintic.dDest, Quintic.d2Orig, Quintic.d2Dest,
      Quintic.coeffs_a, Quintic.destOrigTable, Quintic.dOrigTable, Quintic.dDestTable,
      Quintic.d2OrigTable, Quintic.d2DestTable, Matrix.cons_val_zero, Matrix.cons_val_one, Matrix.cons_val]
    norm_num
    ring
  rw [hv, hquint] at m1
  have e1 := hon.1
  rw [← hE, q0, Matrix.mul_one] at e1
  have e2 : p.g.val = SO3.exp ((-(Real.pi / 4)) • w) := by
    rw [m1, q0, mul_zero (3 * Real.pi / 2), zero_smul]
    change _ * (SO3.exp 0 * 1) = _
    rw [SO3.exp_zero, Matrix.mul_one, Matrix.mul_one]
  apply half
  have e3 := m (3 * Real.pi / 2 * (1 / 2)) (Real.pi / 4)
  have e4 := m (-(Real.pi / 4)) (Real.pi / 4)
  simp only at e1
  rw [← e1, e2, e4, neg_add_cancel, zero_smul, SO3.exp_zero] at e3
  rw [e3]
  congr 2
  ring

end Verif.Props
