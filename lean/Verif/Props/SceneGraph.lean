import Verif.Proofs.SceneGraph
import Verif.Props.Transform
/-! # C124: scenes of framed transforms -/
namespace Verif.Props
open Spec SceneGraph Framed Matrix

/-- C124.  However transforms with frames are inverted, multiplied and bracketed, the result is there exactly if neighbouring frames fit, and then leads from the
last frame to the first; otherwise the program is stopped by an exception. -/
theorem c124_expression (e : Expr) (h : ∀ l ∈ e.links, l.into ≠ Frame.null ∧ l.src ≠ Frame.null) :
    (∀ i s, ends e = some (i, s) → ∃ g, e.eval = .ok ⟨g, i, s⟩) ∧ (ends e = none → e.eval.IsThrow) :=
  ⟨fun i s hi => ((eval_cases e h).1 i s hi).2, (eval_cases e h).2⟩

/-- C124.  The frames of a scene have places in the space of its root, such that every link says where its frames are to each other; they are determined by the
links. -/
theorem c124_places (root : Frame) (ls : List (Framed Pose)) (h : Scene root ls) :
    ∃ place : Frame → V3 → V3, (∀ f, Rigid (place f)) ∧ place root = id ∧ (∀ l ∈ ls, Agrees place l) ∧
      ∀ other : Frame → V3 → V3, other root = id → (∀ l ∈ ls, Agrees other l) → ∀ f, Known root ls f → other f = place f := by
  obtain ⟨P, hP, hr, ha⟩ := scene_places h
  have h0 : SE3.act (P root) = id := by funext p; rw [hr]; exact act_one p
  exact ⟨fun f => SE3.act (P f), fun f => ⟨(P f).1, (P f).2, hP f, fun p i => rfl⟩, h0, ha,
    fun other ho hao f hf => places_unique h other (fun f => SE3.act (P f)) (ho.trans h0.symm) hao ha f hf⟩

/-- C124.  Every way to compute the transform between two frames of a scene gives the same, and that agrees with the places of the frames; all the way round it is
the identity. -/
theorem c124_any_path (root : Frame) (ls : List (Framed Pose)) (h : Scene root ls) :
    (∀ g g' : Framed Pose, Derived ls g → Derived ls g' → g.into = g'.into → g.src = g'.src → g = g') ∧
    (∀ g : Framed Pose, Derived ls g → g.into = g.src → g.val = (1, 0)) ∧
    (∀ place : Frame → V3 → V3, place root = id → (∀ l ∈ ls, Agrees place l) → ∀ g : Framed Pose, Derived ls g → Agrees place g) := by
  obtain ⟨P, hP, hr, ha⟩ := scene_places h
  have hl := scene_links h
  have key : ∀ g, Derived ls g → Agrees (fun f => SE3.act (P f)) g := fun g ⟨e, he, hg⟩ =>
    (eval_agrees P e (fun l m => hl l (he l m)) (fun l m => ha l (he l m)) g hg).2
  have inj : ∀ f {x y : V3}, SE3.act (P f) x = SE3.act (P f) y → x = y := fun f x y e => by
    rw [← inv_act (hP f) x, e, inv_act (hP f)]
  refine ⟨fun g g' hg hg' hi hs => ?_, fun g hg hi => ?_, fun place hp hap g hg => ?_⟩
  · have hv : g.val = g'.val := act_ext fun p => inj g.into (by
      have h1 := key g hg p
      have h2 := key g' hg' p
      rw [← act_eq] at h1 h2
      rw [← hi, ← hs] at h2
      exact h1.trans h2.symm)
    obtain ⟨v, i, s⟩ := g
    obtain ⟨v', i', s'⟩ := g'
    simp only at hi hs hv
    subst hi hs hv
    rfl
  · refine act_ext fun p => inj g.into ?_
    have h1 := key g hg p
    rw [← act_eq, ← hi] at h1
    rw [act_one]
    exact h1
  · obtain ⟨e, he, hge⟩ := hg
    have hk := key g ⟨e, he, hge⟩
    have un := places_unique h place (fun f => SE3.act (P f)) (by rw [hp, hr]; funext p; exact (act_one p).symm) hap ha
    have he' := eval_ends (fun l m => ⟨(hl l (he l m)).1, (hl l (he l m)).2.1⟩) hge
    obtain ⟨k1, k2⟩ := ends_known root he he'
    intro p
    rw [un _ k1, un _ k2]
    exact hk p

/-- C124.  Between any two frames of a scene the transform can be computed. -/
theorem c124_joined (root : Frame) (ls : List (Framed Pose)) (h : Scene root ls) (f g : Frame) (hf : Known root ls f) (hg : Known root ls g) (hne : f ≠ g) :
    ∃ v, Derived ls ⟨v, f, g⟩ := by
  obtain ⟨e, he, he'⟩ := scene_joined h f g hf hg hne
  obtain ⟨v, hv⟩ := (c124_expression e fun l hl => ⟨(scene_links h l (he l hl)).1, (scene_links h l (he l hl)).2.1⟩).1 f g he'
  exact ⟨v, e, he, hv⟩

/-- C124.  One more transform between two frames that a scene knows leaves all ways between frames equal exactly if it is what could have been computed. -/
theorem c124_extra (root : Frame) (ls : List (Framed Pose)) (h : Scene root ls) (l : Framed Pose) (hi : Known root ls l.into) (hs : Known root ls l.src)
    (hne : l.into ≠ l.src) :
    (∀ g g' : Framed Pose, Derived (l :: ls) g → Derived (l :: ls) g' → g.into = g'.into → g.src = g'.src → g = g') ↔ Derived ls l := by
  constructor
  · intro all
    obtain ⟨v, e, he, hv⟩ := c124_joined root ls h l.into l.src hi hs hne
    have : l = ⟨v, l.into, l.src⟩ := all l ⟨v, l.into, l.src⟩ ⟨.link l, by simp [Expr.links], rfl⟩ ⟨e, fun m hm => List.mem_cons_of_mem _ (he m hm), hv⟩ rfl rfl
    exact ⟨e, he, hv.trans (by rw [← this])⟩
  · intro hl g g' hg hg' h1 h2
    have sub : ∀ g, Derived (l :: ls) g → Derived ls g := fun g hg => derived_trans (fun m hm => by
      rcases List.mem_cons.mp hm with rfl | hm
      · exact hl
      · exact ⟨.link m, by simpa [Expr.links] using hm, rfl⟩) hg
    exact (c124_any_path root ls h).1 g g' (sub g hg) (sub g' hg') h1 h2

/-- C124 on the shipped example of composition: the sensor is where it should be, and the deliberate bug throws. -/
theorem c124_composition_example (world robot sensor : Frame) (h1 : world ≠ Frame.null) (h2 : robot ≠ Frame.null) (h3 : sensor ≠ Frame.null)
    (hne : robot ≠ sensor) :
    (∃ g, worldFromSensor world robot sensor = .ok ⟨g, world, sensor⟩ ∧ ∀ p, SE3.act g p = ![1 - p 1, 0.1 + p 0, 1.1 + p 2]) ∧
    (badWorldFromSensor world robot sensor).IsThrow := by
  have e1 : worldFromRobot world robot = .ok ⟨(SO3.angleAxisMatrix (Real.pi / 2) ![0, 0, 1], ![1, 0, 1]), world, robot⟩ := mk'_ok (by simp [h1, h2])
  have e2 : robotFromSensor robot sensor = .ok ⟨(SO3.one, ![0.1, 0, 0.1]), robot, sensor⟩ := mk'_ok (by simp [h2, h3])
  refine ⟨⟨_, by rw [worldFromSensor, e1, e2]; exact mul_framed SE3.ops h1 h2 h3 rfl, fun p => ?_⟩, ?_⟩
  · change SE3.act (SE3.mul _ _) p = _
    rw [act_mul]
    funext i
    fin_cases i <;> simp [SE3.act, SO3.act, SO3.one, SO3.angleAxisMatrix, vecHead, vecTail] <;> ring
  · have e3 : Framed.inverse SE3.ops (⟨(SO3.one, ![0.1, 0, 0.1]), robot, sensor⟩ : Framed Pose) = .ok ⟨SE3.ops.inv (SO3.one, ![0.1, 0, 0.1]), sensor, robot⟩ :=
      mk'_ok (by simp [h2, h3])
    refine ⟨"Inner frames must match for valid composition", ?_⟩
    rw [badWorldFromSensor, e1, e2, Outcome.ok_bind, Outcome.ok_bind, e3, Outcome.ok_bind]
    exact mul_mismatch SE3.ops h1 h3 hne

/-- C124 on the shipped scene: it is one, and whatever leads from the sensor to the scene puts the sensor where it should be. -/
theorem c124_view_example (scene robot sensor : Frame) (h1 : scene ≠ Frame.null) (h2 : robot ≠ Frame.null) (h3 : sensor ≠ Frame.null)
    (d1 : scene ≠ robot) (d2 : scene ≠ sensor) (d3 : robot ≠ sensor) :
    ∃ ls, viewScene scene robot sensor = .ok ls ∧ Scene scene ls.reverse ∧
      (∀ g, Derived ls.reverse g → g.into = scene → g.src = sensor → ∀ p, SE3.act g.val p = ![0.75 - p 0, 0.25 - p 1, 1.25 + p 2]) := by
  set a : Framed Pose := ⟨(1, ![1, 0, 1]), scene, robot⟩ with ha
  set b : Framed Pose := ⟨(SO3.angleAxisMatrix Real.pi ![0, 0, 1], ![-0.25, 0.25, 0.25]), robot, sensor⟩ with hb
  have e1 : fromRotationFramed (fun r => (r, ![1, 0, 1])) (identityUnframed SO3.ops) scene robot = .ok a := mk'_ok (by simp [h1, h2])
  have e2 : fromRotationFramed (fun r => (r, ![-0.25, 0.25, 0.25])) (SO3.ofAngleAxis Real.pi ![0, 0, 1]) robot sensor = .ok b :=
    mk'_ok (by simp [h2, h3])
  have hs : Scene scene [b, a] := by
    refine .child b (.child a .nil ⟨h1, h2, SO3.isRotation_one⟩ (Or.inl rfl) ?_) ⟨h2, h3, SO3.isRotation_angleAxis _ (by simp [SO3.sqNorm, dotProduct, Fin.sum_univ_three])⟩ ?_ ?_
    · rintro (h | ⟨l, hl, -⟩)
      · exact d1 h.symm
      · cases hl
    · exact Or.inr ⟨a, by simp, Or.inr rfl⟩
    · rintro (h | ⟨l, hl, h⟩)
      · exact d2 h.symm
      · rw [List.mem_singleton] at hl
        subst hl
        rcases h with h | h
        · exact d2 h.symm
        · exact d3 h.symm
  refine ⟨[a, b], by rw [viewScene, e1, Outcome.ok_bind, e2]; rfl, hs, fun g hg hi hsr p => ?_⟩
  have hm : Derived [b, a] ⟨SE3.mul a.val b.val, scene, sensor⟩ :=
    ⟨.mul (.link a) (.link b), by simp [Expr.links], by
      rw [Expr.eval, Expr.eval, Expr.eval]
      exact mul_framed SE3.ops h1 h2 h3 rfl⟩
  have := (c124_any_path scene [b, a] hs).1 g _ hg hm hi hsr
  rw [this, act_mul]
  funext i
  fin_cases i <;> simp [ha, hb, SE3.act, SO3.act, SO3.angleAxisMatrix, dotProduct, Fin.sum_univ_three] <;> ring

/-- A scene with a branch, and one link against the direction. -/
example : Scene (exFrame 1) [⟨(quarterTurn, ![0, 0, 1]), exFrame 4, exFrame 2⟩, ⟨(quarterTurn, ![1, 2, 3]), exFrame 1, exFrame 3⟩, ⟨(1, ![1, 0, 0]), exFrame 1, exFrame 2⟩] := by
  refine .parent _ (.child _ (.child _ .nil ⟨by decide, by decide, SO3.isRotation_one⟩ (Or.inl rfl) ?_) ⟨by decide, by decide, quarterTurn_isRotation⟩ (Or.inl rfl) ?_)
    ⟨by decide, by decide, quarterTurn_isRotation⟩ (Or.inr ⟨⟨(1, ![1, 0, 0]), exFrame 1, exFrame 2⟩, by simp, Or.inr rfl⟩) ?_
  · simp [Known]; decide
  · simp [Known]; decide
  · simp [Known]; decide

/-- An expression whose frames do not fit, although they fit in another order. -/
example : ends (.mul (.link ⟨(1, 0), exFrame 1, exFrame 2⟩) (.inverse (.link ⟨(1, 0), exFrame 2, exFrame 3⟩))) = none := by
  simp [ends]; decide

end Verif.Props
