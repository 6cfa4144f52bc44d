import Verif.Proofs.UnpackInto
import Verif.Props.Proto
/-! # C129: what a variable holds after unpacking into it -/
namespace Verif.Props
open Proto UnpackInto Spec.UnpackInto Spec

section
variable {G A V : Type}

/-- C129.  Unpacking a transform, a two-jet or a distance curve into a variable leaves it as it was if the message is refused, so that after any messages it holds the
value of the last good one. -/
theorem c129_strong (L : LieOps ℝ G A V) (arc : G → ℝ) (F : Layout A) :
    (Strong (group L F) (unpackGroup L F) ∧ ∀ start ms, LastGood (unpackGroup L F) start ms (history (group L F) start ms)) ∧
    (Strong (twoJetL L F) (unpackTwoJetL L F) ∧ ∀ start ms, LastGood (unpackTwoJetL L F) start ms (history (twoJetL L F) start ms)) ∧
    (Strong (twoJetR L F) (unpackTwoJetR L F) ∧ ∀ start ms, LastGood (unpackTwoJetR L F) start ms (history (twoJetR L F) start ms)) ∧
    (Strong (dCurve L arc F) (unpackDCurve L arc F) ∧ ∀ start ms, LastGood (unpackDCurve L arc F) start ms (history (dCurve L arc F) start ms)) := by
  have h1 : Strong (group L F) (unpackGroup L F) := assign_strong _
  have h2 : Strong (twoJetL L F) (unpackTwoJetL L F) := assign_strong _
  have h3 : Strong (twoJetR L F) (unpackTwoJetR L F) := assign_strong _
  have h4 : Strong (dCurve L arc F) (unpackDCurve L arc F) := assign_strong _
  exact ⟨⟨h1, strong_history h1⟩, ⟨h2, strong_history h2⟩, ⟨h3, strong_history h3⟩, ⟨h4, strong_history h4⟩⟩

variable [AddCommGroup A] [Module ℝ A]

/-- C129.  Unpacking a time curve gives the curve of the message whatever the variable held.  If the message is refused, the variable holds the curve of
the control points before the first refused one: what it held before is lost. -/
theorem c129_t_curve (L : LieOps ℝ G A V) (F : Layout A) (dest : TCurve G A) (m : TCurveMsg) :
    (∀ c, unpackTCurve L F m = .ok c → tCurve L F dest m = (c, .ok ())) ∧ SameEnd (tCurve L F dest m).2 (unpackTCurve L F m) ∧
    ((∀ c, unpackTCurve L F m ≠ .ok c) → ∃ k < m.points.length, unpackTCurve L F ⟨m.points.take k⟩ = .ok (tCurve L F dest m).1 ∧
      ∀ c, unpackTCurve L F ⟨m.points.take (k + 1)⟩ ≠ .ok c) := by
  have e : ∀ ps, (∀ c', unpackTCurve L F ⟨ps⟩ = .ok c' ↔ tLoop L F TCurve.empty ps = (c', .ok ())) ∧
      (∀ x, unpackTCurve L F ⟨ps⟩ = .throw x ↔ (tLoop L F TCurve.empty ps).2 = .throw x) ∧
      (∀ w, unpackTCurve L F ⟨ps⟩ = .ub w ↔ (tLoop L F TCurve.empty ps).2 = .ub w) := fun ps => tLoop_end L F ps TCurve.empty
  obtain ⟨e1, e2, e3⟩ := e m.points
  have hd : tCurve L F dest m = tLoop L F TCurve.empty m.points := rfl
  have hok : (tLoop L F TCurve.empty m.points).2 = .ok () ↔ ∃ v, unpackTCurve L F m = .ok v :=
    ⟨fun h => ⟨(tLoop L F TCurve.empty m.points).1, (e1 _).mpr (Prod.ext rfl h)⟩, fun ⟨v, hv⟩ => by rw [(e1 v).mp hv]⟩
  rw [hd]
  refine ⟨fun c h => (e1 c).mp h, ⟨hok, fun x => (e2 x).symm, fun w => (e3 w).symm⟩, fun h => ?_⟩
  have hn : (tLoop L F TCurve.empty m.points).2 ≠ .ok () := fun h' => by
    obtain ⟨v, hv⟩ := hok.mp h'
    exact h v hv
  obtain ⟨k, hk, h1, h2⟩ := tLoop_fails L F m.points TCurve.empty hn
  refine ⟨k, hk, ((e _).1 _).mpr h1, fun c hc => hn ?_⟩
  rw [← h2, ((e _).1 c).mp hc]

/-- C129.  So a variable that time curves are unpacked into depends on the last message only. -/
theorem c129_t_curve_history (L : LieOps ℝ G A V) (F : Layout A) (start start' : TCurve G A) (ms ms' : List TCurveMsg) (m : TCurveMsg) :
    history (tCurve L F) start (ms ++ [m]) = history (tCurve L F) start' (ms' ++ [m]) ∧
    ∀ c, unpackTCurve L F m = .ok c → history (tCurve L F) start (ms ++ [m]) = c := by
  rw [history_append, history_append]
  exact ⟨rfl, fun c h => by rw [(c129_t_curve L F _ m).1 c h]⟩

/-- C129.  The loss is real: if a good message gets its last point twice, it is refused, but the variable changes to the curve of the good message. -/
theorem c129_t_curve_half (L : LieOps ℝ G A V) (F : Layout A) (ps : List ControlMsg) (p : ControlMsg) (c : TCurve G A)
    (h : unpackTCurve L F ⟨ps ++ [p]⟩ = .ok c) (dest : TCurve G A) :
    (unpackTCurve L F ⟨ps ++ [p, p]⟩).IsThrow ∧ (tCurve L F dest ⟨ps ++ [p, p]⟩).1 = c := by
  have h1 : tLoop L F TCurve.empty (ps ++ [p]) = (c, .ok ()) := ((tLoop_end L F _ _).1 c).mp h
  obtain ⟨j, hj, hl⟩ := tLoop_last L F p ps _ _ h1
  have h2 : tLoop L F TCurve.empty (ps ++ [p, p]) = (c, .throw "Control points must have strictly increasing time") := by
    have := tLoop_append L F c [p] _ _ h1
    rw [List.append_assoc] at this
    rw [show ps ++ [p, p] = ps ++ ([p] ++ [p]) from rfl, this, tLoop, hj]
    simp only
    rw [TCurve.append_cons hl, if_pos (lt_irrefl _)]
  refine ⟨⟨_, ((tLoop_end L F _ TCurve.empty).2.1 "Control points must have strictly increasing time").mpr (by rw [h2])⟩, ?_⟩
  change (tLoop L F TCurve.empty (ps ++ [p, p])).1 = c
  rw [h2]

/-- C129.  The functions that return a value unpack into a local variable; what that held at first makes no difference, and they fail as the message is refused. -/
theorem c129_value (L : LieOps ℝ G A V) (arc : G → ℝ) (F : Layout A) :
    (∀ d m, fresh (group L F) d m = unpackGroup L F m) ∧ (∀ d m, fresh (twoJetL L F) d m = unpackTwoJetL L F m) ∧
    (∀ d m, fresh (twoJetR L F) d m = unpackTwoJetR L F m) ∧ (∀ d m, fresh (dCurve L arc F) d m = unpackDCurve L arc F m) ∧
    (∀ d m, fresh (tCurve L F) d m = unpackTCurve L F m) := by
  obtain ⟨⟨h1, -⟩, ⟨h2, -⟩, ⟨h3, -⟩, ⟨h4, -⟩⟩ := c129_strong L arc F
  refine ⟨strong_fresh h1, strong_fresh h2, strong_fresh h3, strong_fresh h4, fun d m => ?_⟩
  obtain ⟨e1, ⟨-, e2, e3⟩, -⟩ := c129_t_curve L F d m
  rw [fresh]
  cases hv : unpackTCurve L F m with
  | ok v => rw [e1 v hv]
  | throw e =>
    have := (e2 e).mpr hv
    cases hi : tCurve L F d m with
    | mk a o => rw [hi] at this; simp only at this; rw [this]
  | ub w =>
    have := (e3 w).mpr hv
    cases hi : tCurve L F d m with
    | mk a o => rw [hi] at this; simp only at this; rw [this]

end

/-- A good message with a point, so that `c129_t_curve_half` applies; with that point twice it is refused. -/
example : ∃ (p : ControlMsg) (c : TCurve M3 V3), unpackTCurve SO3.ops so3Layout ⟨[] ++ [p]⟩ = .ok c ∧ c.controls.length = 1 := by
  obtain ⟨m, -, h2⟩ := twoJetL_roundtrip SO3.ops so3Layout_faithful (j := ⟨⟨quarterTurn, exFrame 1, exFrame 2⟩, ![1, 2, 3], ![4, 5, 6]⟩) (by simp only; decide)
  refine ⟨⟨3, some m⟩, { TCurve.empty with controls := [⟨3, viaLogL SO3.ops ⟨⟨quarterTurn, exFrame 1, exFrame 2⟩, ![1, 2, 3], ![4, 5, 6]⟩⟩] }, ?_, rfl⟩
  rw [List.nil_append, unpackTCurve, unpackControls, Option.getD_some, h2, Outcome.ok_bind, TCurve.append_nil rfl]
  rfl

/-- A message that is refused: a transform without its numbers. -/
example : ∀ v, unpackGroup SO3.ops so3Layout {} ≠ .ok v := by
  intro v h
  simp [unpackGroup, unpackVec, unpackMatrix, so3Layout] at h

end Verif.Props
