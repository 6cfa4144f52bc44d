import Verif.Proofs.TestCurves
import Verif.Props.TestElements
/-! # C125: random two-jets and curves for tests -/
namespace Verif.Props
open Verif.TestCurves Verif.TestElements Verif.Spec SO3

theorem random3_eq (r : ℕ → ℝ) (n : ℕ) : random3 r n = nextThree r n := by
  funext i
  fin_cases i <;> rfl

theorem random6_eq (r : ℕ → ℝ) (n : ℕ) : random6 r n = nextSix r n := by rw [random6, nextSix, random3_eq, random3_eq]

/-- C125.  One random two-jet: the frames are the fixed ones, the pose is the exponential of the next numbers, and the derivatives are the numbers
after these, in one order or the other; the helper goes on behind them all. -/
theorem c125_two_jet (late : Bool) (into src : Frame) (hi : into ≠ Frame.null) (hs : src ≠ Frame.null) (r : ℕ → ℝ) (n : ℕ) :
    makeTestTwoJet so3 late into src ⟨r, n⟩ =
      (.ok ⟨⟨SO3.ops.exp (nextThree r n), into, src⟩, nextThree r (n + if late then 6 else 3), nextThree r (n + if late then 3 else 6)⟩, ⟨r, n + 9⟩) ∧
    makeTestTwoJet se3 late into src ⟨r, n⟩ =
      (.ok ⟨⟨SE3.ops.exp (nextSix r n), into, src⟩, nextSix r (n + if late then 12 else 6), nextSix r (n + if late then 6 else 12)⟩, ⟨r, n + 18⟩) := by
  constructor
  · rw [two_jet so3 late hi hs]
    simp only [first, second, so3, random3_eq]
  · rw [two_jet se3 late hi hs]
    simp only [first, second, se3, random6_eq]

/-- C125.  A random curve of rotations can be had exactly if the times go up: then it has exactly these times, the frames asked for, and at each time
the point made from the next nine numbers.  Otherwise the exception of the curve is thrown. -/
theorem c125_rotation_curve (late : Bool) (F : Frames) (hF : F.Named) (r : ℕ → ℝ) (n : ℕ) (times : List ℝ) (framed : Bool) :
    (Increasing times → ∃ c, makeTCurve so3 late F ⟨r, n⟩ times framed = (.ok c, ⟨r, n + 9 * times.length⟩) ∧ Built c ∧
      c.controls.map (·.time) = times ∧ ∀ (i : ℕ) (hi : i < c.controls.length),
        c.controls[i].point = ⟨⟨SO3.ops.exp (nextThree r (n + 9 * i)), if framed then F.point else Frame.null, if framed then F.ref else Frame.null⟩,
          nextThree r (n + 9 * i + if late then 6 else 3), nextThree r (n + 9 * i + if late then 3 else 6)⟩) ∧
    (¬ Increasing times → (makeTCurve so3 late F ⟨r, n⟩ times framed).1 = .throw "Control points must have strictly increasing time") := by
  constructor
  · intro hp
    obtain ⟨c, h1, h2, h3, -⟩ := run_ok so3 late hF framed r times TCurve.empty n Built.empty (by simp [Fits, TCurve.empty]) hp (by simp [TCurve.empty])
    have h2 : c.controls = controls so3 late F framed r n times := by rw [h2]; rfl
    have len := controls_length so3 late F framed r n times
    have get : ∀ (i : ℕ) (hi : i < c.controls.length) (ht : i < times.length), c.controls[i] = TestCurves.control so3 late F framed r (n + 9 * i) times[i] := by
      intro i hi ht
      have := controls_get so3 late F framed r n times i ht
      rw [← h2, List.getElem?_eq_getElem hi] at this
      exact Option.some.inj this
    refine ⟨c, h1, h3, ?_, ?_⟩
    · apply List.ext_getElem
      · rw [List.length_map, h2, len]
      · intro i h h'
        rw [List.getElem_map, get i (by simpa using h) h']
        rfl
    · intro i hi
      rw [get i hi (by rw [← len, ← h2]; exact hi)]
      simp only [TestCurves.control, first, second, so3, random3_eq]
  · intro hp
    obtain ⟨pre, t, post, rfl, h1, h2⟩ := split hp
    rw [makeTCurve, run_fail so3 late hF framed r n pre post t h1 h2]

/-- C125.  The same for poses, with eighteen numbers. -/
theorem c125_pose_curve (late : Bool) (F : Frames) (hF : F.Named) (r : ℕ → ℝ) (n : ℕ) (times : List ℝ) (framed : Bool) :
    (Increasing times → ∃ c, makeTCurve se3 late F ⟨r, n⟩ times framed = (.ok c, ⟨r, n + 18 * times.length⟩) ∧ Built c ∧
      c.controls.map (·.time) = times ∧ ∀ (i : ℕ) (hi : i < c.controls.length),
        c.controls[i].point = ⟨⟨SE3.ops.exp (nextSix r (n + 18 * i)), if framed then F.point else Frame.null, if framed then F.ref else Frame.null⟩,
          nextSix r (n + 18 * i + if late then 12 else 6), nextSix r (n + 18 * i + if late then 6 else 12)⟩) ∧
    (¬ Increasing times → (makeTCurve se3 late F ⟨r, n⟩ times framed).1 = .throw "Control points must have strictly increasing time") := by
  constructor
  · intro hp
    obtain ⟨c, h1, h2, h3, -⟩ := run_ok se3 late hF framed r times TCurve.empty n Built.empty (by simp [Fits, TCurve.empty]) hp (by simp [TCurve.empty])
    have h2 : c.controls = controls se3 late F framed r n times := by rw [h2]; rfl
    have len := controls_length se3 late F framed r n times
    have get : ∀ (i : ℕ) (hi : i < c.controls.length) (ht : i < times.length), c.controls[i] = TestCurves.control se3 late F framed r (n + 18 * i) times[i] := by
      intro i hi ht
      have := controls_get se3 late F framed r n times i ht
      rw [← h2, List.getElem?_eq_getElem hi] at this
      exact Option.some.inj this
    refine ⟨c, h1, h3, ?_, ?_⟩
    · apply List.ext_getElem
      · rw [List.length_map, h2, len]
      · intro i h h'
        rw [List.getElem_map, get i (by simpa using h) h']
        rfl
    · intro i hi
      rw [get i hi (by rw [← len, ← h2]; exact hi)]
      simp only [TestCurves.control, first, second, se3, random6_eq]
  · intro hp
    obtain ⟨pre, t, post, rfl, h1, h2⟩ := split hp
    rw [makeTCurve, run_fail se3 late hF framed r n pre post t h1 h2]

/-- Frames and times that meet the conditions, and times that do not go up. -/
example : (∃ F : Frames, F.Named) ∧ Increasing [0, 0.11, 0.67] ∧ ¬ Increasing [0, 1, 1] := by
  refine ⟨?_, ?_, ?_⟩
  · exact ⟨⟨exFrame 1, exFrame 2, exFrame 3, exFrame 4⟩, by decide, by decide, by decide, by decide⟩
  · norm_num [Increasing]
  · norm_num [Increasing]

/-- C125.  At the first time that does not go up the helper has drawn the numbers of that point too, so what it makes next differs from what it would
have made had it not been asked. -/
theorem c125_refused (late : Bool) (F : Frames) (hF : F.Named) (r : ℕ → ℝ) (n : ℕ) (framed : Bool) (pre post : List ℝ) (t : ℝ)
    (hp : Increasing pre) (ht : ∃ s ∈ pre, t ≤ s) :
    (makeTCurve so3 late F ⟨r, n⟩ (pre ++ t :: post) framed).2 = ⟨r, n + 9 * (pre.length + 1)⟩ ∧
    (makeTCurve se3 late F ⟨r, n⟩ (pre ++ t :: post) framed).2 = ⟨r, n + 18 * (pre.length + 1)⟩ := by
  constructor
  · rw [makeTCurve, run_fail so3 late hF framed r n pre post t hp ht]; rfl
  · rw [makeTCurve, run_fail se3 late hF framed r n pre post t hp ht]; rfl

example : Increasing [0, 1] ∧ ∃ s ∈ [(0 : ℝ), 1], (1 : ℝ) ≤ s := ⟨by norm_num [Increasing], 1, by simp, le_refl _⟩

/-- C125.  The numbers that a random curve of rotations was made from, as `log` gives them back, are exactly the next nine for each time, each used
once. -/
theorem c125_numbers (late : Bool) (F : Frames) (hF : F.Named) (r : ℕ → ℝ) (hr : ∀ k, |r k| ≤ 1) (n : ℕ) (times : List ℝ) (framed : Bool)
    (c : TCurve M3 V3) (h : Helper) (hc : makeTCurve so3 late F ⟨r, n⟩ times framed = (.ok c, h)) :
    (c.controls.flatMap numbersOf).Perm ((List.range' n (9 * times.length)).map r) := by
  have hp : Increasing times := by
    by_contra hn
    have := (c125_rotation_curve late F hF r n times framed).2 hn
    rw [hc] at this
    cases this
  obtain ⟨c', h1, h2, -, -⟩ := run_ok so3 late hF framed r times TCurve.empty n Built.empty (by simp [Fits, TCurve.empty]) hp (by simp [TCurve.empty])
  rw [makeTCurve, h1] at hc
  obtain rfl : c' = c := by injection hc with hc; injection hc
  have h5 : c'.controls = controls so3 late F framed r n times := by rw [h2]; rfl
  rw [h5]
  clear h1 h2 h5 hc hp
  induction times generalizing n with
  | nil => simp [controls]
  | cons t ts ih =>
    rw [controls, List.flatMap_cons, show 9 * (t :: ts).length = 9 + 9 * ts.length by simp; ring, ← List.range'_append_1, List.map_append]
    refine List.Perm.append ?_ (ih (n + 9))
    have e : SO3.ops.log (SO3.ops.exp (random3 r n)) = random3 r n := c29_log_exp _ (random3_norm hr n)
    have e' : numbersOf (TestCurves.control so3 late F framed r n t) =
        [r n, r (n + 1), r (n + 2)] ++ (if late then [r (n + 6), r (n + 7), r (n + 8)] ++ [r (n + 3), r (n + 4), r (n + 5)]
          else [r (n + 3), r (n + 4), r (n + 5)] ++ [r (n + 6), r (n + 7), r (n + 8)]) := by
      rw [numbersOf]
      simp only [TestCurves.control, so3, e, first, second]
      cases late <;> rfl
    have e'' : (List.range' n 9).map r = [r n, r (n + 1), r (n + 2)] ++ ([r (n + 3), r (n + 4), r (n + 5)] ++ [r (n + 6), r (n + 7), r (n + 8)]) := rfl
    rw [e', e'']
    refine List.Perm.append_left _ ?_
    cases late
    · exact List.Perm.refl _
    · exact List.perm_append_comm

/-- C125.  Asked for two curves one after the other, the helper gives the two parts of the curve it would have given for all the times at once. -/
theorem c125_successive (late : Bool) (F : Frames) (hF : F.Named) (r : ℕ → ℝ) (n : ℕ) (ts₁ ts₂ : List ℝ) (framed : Bool) (hp : Increasing (ts₁ ++ ts₂)) :
    ∃ c₁ c₂ c h₁ h₂, makeTCurve se3 late F ⟨r, n⟩ ts₁ framed = (.ok c₁, h₁) ∧ makeTCurve se3 late F h₁ ts₂ framed = (.ok c₂, h₂) ∧
      makeTCurve se3 late F ⟨r, n⟩ (ts₁ ++ ts₂) framed = (.ok c, h₂) ∧ c.controls = c₁.controls ++ c₂.controls := by
  have hq := List.pairwise_append.mp hp
  have none : Fits F framed (TCurve.empty : TCurve Pose Twist) := by simp [Fits, TCurve.empty]
  obtain ⟨c₁, a1, a2, a3, a4⟩ := run_ok se3 late hF framed r ts₁ TCurve.empty n Built.empty none hq.1 (by simp [TCurve.empty])
  obtain ⟨c₂, b1, b2, -, -⟩ := run_ok se3 late hF framed r ts₂ TCurve.empty (n + 3 * se3.dof * ts₁.length) Built.empty none hq.2.1 (by simp [TCurve.empty])
  have a2 : c₁.controls = controls se3 late F framed r n ts₁ := by rw [a2]; rfl
  have b2 : c₂.controls = controls se3 late F framed r (n + 3 * se3.dof * ts₁.length) ts₂ := by rw [b2]; rfl
  obtain ⟨c, d1, d2, -, -⟩ := run_ok se3 late hF framed r ts₂ c₁ (n + 3 * se3.dof * ts₁.length) a3 a4 hq.2.1 (by
    intro q hq' t ht
    rw [a2] at hq'
    obtain ⟨i, hi, rfl⟩ := List.getElem_of_mem hq'
    have hi' : i < ts₁.length := by rw [controls_length] at hi; exact hi
    have := controls_get se3 late F framed r n ts₁ i hi'
    rw [List.getElem?_eq_getElem hi] at this
    rw [Option.some.inj this]
    exact hq.2.2 _ (List.getElem_mem _) t ht)
  refine ⟨c₁, c₂, c, _, _, a1, b1, ?_, by rw [d2, b2]⟩
  rw [makeTCurve, run_append se3 late hF framed r ts₁ ts₂ _ _ _ _ a1, d1]

example : Increasing ([0, 1] ++ [2, 3]) := by norm_num [Increasing]

/-- C125.  A random curve of two or more times can be asked at every time from the first to the last, and at no other; that of rotations goes through
its points and has continuous derivatives. -/
theorem c125_usable (late : Bool) (F : Frames) (hF : F.Named) (h h' : Helper) (times : List ℝ) (framed : Bool) (t₀ t₁ : ℝ) (inner : List ℝ)
    (ht : times = t₀ :: inner ++ [t₁]) :
    (∀ c, makeTCurve so3 late F h times framed = (.ok c, h') → InterpolatesC2 SO3.ops c ∧
      ∀ t, (∃ p, TCurve.pointAt SO3.ops c t = .ok p) ↔ t₀ ≤ t ∧ t ≤ t₁) ∧
    (∀ c, makeTCurve se3 late F h times framed = (.ok c, h') → ∀ t, (∃ p, TCurve.pointAt SE3.ops c t = .ok p) ↔ t₀ ≤ t ∧ t ≤ t₁) := by
  obtain ⟨r, n⟩ := h
  have bounds : ∀ {G A : Type} (c : TCurve G A), c.controls.map (·.time) = times →
      2 ≤ c.controls.length ∧ TCurve.startTime c = .ok t₀ ∧ TCurve.endTime c = .ok t₁ := by
    intro G A c hc
    have hl : c.controls.length = inner.length + 2 := by
      have := congrArg List.length hc
      rw [ht] at this
      simpa using this
    refine ⟨by omega, ?_, ?_⟩
    · have : (c.controls.map (·.time)).head? = some t₀ := by rw [hc, ht]; rfl
      rw [List.head?_map] at this
      rw [TCurve.startTime]
      cases hh : c.controls.head? with
      | none => rw [hh] at this; cases this
      | some p => rw [hh] at this; simp only [Option.map_some, Option.some.injEq] at this; simp only [this]
    · have : (c.controls.map (·.time)).getLast? = some t₁ := by rw [hc, ht, List.getLast?_append]; rfl
      rw [List.getLast?_map] at this
      rw [TCurve.endTime]
      cases hh : c.controls.getLast? with
      | none => rw [hh] at this; cases this
      | some p => rw [hh] at this; simp only [Option.map_some, Option.some.injEq] at this; simp only [this]
  have whole : ∀ b : Bool, ((if b then F.point else Frame.null) = Frame.null ↔ (if b then F.ref else Frame.null) = Frame.null) := by
    intro b
    cases b
    · simp
    · simp [hF.point, hF.ref]
  constructor
  · intro c hc
    obtain ⟨ok, bad⟩ := c125_rotation_curve late F hF r n times framed
    have hp : Increasing times := by
      by_contra hn
      have := bad hn
      rw [hc] at this
      cases this
    obtain ⟨c', h1, h2, h3, h4⟩ := ok hp
    rw [h1] at hc
    obtain rfl : c' = c := by injection hc with hc; injection hc
    obtain ⟨l2, s, e⟩ := bounds c' h3
    have hw : WholeFrames c' := by
      intro p hq
      obtain ⟨i, hi, rfl⟩ := List.getElem_of_mem hq
      rw [h4 i hi]
      exact whole framed
    refine ⟨c39_so3 c' h2 hw l2 ?_, fun t => ?_⟩
    · intro p hq
      obtain ⟨i, hi, rfl⟩ := List.getElem_of_mem hq
      rw [h4 i hi]
      exact SO3.isRotation_exp _
    · rw [(c41_domain SO3.ops c' h2 hw t).1, s, e]
      simp [l2]
  · intro c hc
    obtain ⟨ok, bad⟩ := c125_pose_curve late F hF r n times framed
    have hp : Increasing times := by
      by_contra hn
      have := bad hn
      rw [hc] at this
      cases this
    obtain ⟨c', h1, h2, h3, h4⟩ := ok hp
    rw [h1] at hc
    obtain rfl : c' = c := by injection hc with hc; injection hc
    obtain ⟨l2, s, e⟩ := bounds c' h3
    have hw : WholeFrames c' := by
      intro p hq
      obtain ⟨i, hi, rfl⟩ := List.getElem_of_mem hq
      rw [h4 i hi]
      exact whole framed
    intro t
    rw [(c41_domain SE3.ops c' h2 hw t).1, s, e]
    simp [l2]

example : ([0, 1, 2] : List ℝ) = 0 :: [1] ++ [2] := rfl

/-- C125 fails across compilers: the language leaves open which of the two derivatives is drawn first, and if the numbers drawn differ, the two orders
give different curves from the same seed. -/
theorem c125_order (F : Frames) (hF : F.Named) (r : ℕ → ℝ) (hr : Function.Injective r) (n : ℕ) (times : List ℝ) (h0 : times ≠ []) (framed : Bool)
    (c c' : TCurve M3 V3) (h h' : Helper) (hc : makeTCurve so3 false F ⟨r, n⟩ times framed = (.ok c, h))
    (hc' : makeTCurve so3 true F ⟨r, n⟩ times framed = (.ok c', h')) : c ≠ c' ∧ h = h' := by
  have hp : Increasing times := by
    by_contra hn
    have := (c125_rotation_curve false F hF r n times framed).2 hn
    rw [hc] at this
    cases this
  obtain ⟨d, a1, -, a3, a4⟩ := (c125_rotation_curve false F hF r n times framed).1 hp
  obtain ⟨d', b1, -, b3, b4⟩ := (c125_rotation_curve true F hF r n times framed).1 hp
  rw [hc] at a1
  rw [hc'] at b1
  obtain ⟨e1, rfl⟩ := Prod.mk.inj a1
  obtain ⟨e2, rfl⟩ := Prod.mk.inj b1
  obtain rfl : c = d := by injection e1
  obtain rfl : c' = d' := by injection e2
  refine ⟨?_, rfl⟩
  rintro rfl
  have hl : 0 < c.controls.length := by
    have := congrArg List.length a3
    rw [List.length_map] at this
    rw [this]
    exact List.length_pos_iff.mpr h0
  have := a4 0 hl
  rw [b4 0 hl] at this
  have := congrFun (congrArg TwoJetL.d this) 0
  simp only [nextThree] at this
  have := hr this
  simp at this

/-- Numbers that meet the conditions. -/
example : ∃ r : ℕ → ℝ, Function.Injective r ∧ ∀ k, |r k| ≤ 1 := by
  refine ⟨fun k => 1 / ((k : ℝ) + 1), ?_, ?_⟩
  · intro a b h
    simp only [one_div, inv_inj, add_left_inj, Nat.cast_inj] at h
    exact h
  · intro k
    rw [abs_of_nonneg (by positivity), div_le_one (by positivity)]
    have : (0 : ℝ) ≤ k := Nat.cast_nonneg k
    linarith

end Verif.Props
