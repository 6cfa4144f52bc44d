import Verif.Spec.TestCurves
import Verif.Props.TCurve
/-! # Lemmas on random test curves -/
namespace Verif.TestCurves
open TestElements Verif.Props
variable {G A V : Type}

/-- The first derivative of the jet that begins with the number `n`. -/
def first (K : Kind G A V) (late : Bool) (r : ℕ → ℝ) (n : ℕ) : A := K.vector r (n + if late then 2 * K.dof else K.dof)

/-- The second derivative of the jet that begins with the number `n`. -/
def second (K : Kind G A V) (late : Bool) (r : ℕ → ℝ) (n : ℕ) : A := K.vector r (n + if late then K.dof else 2 * K.dof)

theorem two_jet (K : Kind G A V) (late : Bool) {into src : Frame} (hi : into ≠ Frame.null) (hs : src ≠ Frame.null) (r : ℕ → ℝ) (n : ℕ) :
    makeTestTwoJet K late into src ⟨r, n⟩ =
      (.ok ⟨⟨K.ops.exp (K.vector r n), into, src⟩, first K late r n, second K late r n⟩, ⟨r, n + 3 * K.dof⟩) := by
  have e : Framed.exp K.ops (K.vector r n) into src = .ok ⟨K.ops.exp (K.vector r n), into, src⟩ := by
    rw [Framed.exp, Framed.mk', if_pos ((Frame.isNull_eq_iff _ _).mpr ⟨fun h => absurd h hi, fun h => absurd h hs⟩)]
  have e3 : n + K.dof + K.dof + K.dof = n + 3 * K.dof := by ring
  have e2 : n + K.dof + K.dof = n + 2 * K.dof := by ring
  simp only [makeTestTwoJet, testVector, e, e2, first, second]
  rw [← e2, e3, e2]
  cases late <;> rfl

/-- The control point that begins with the number `n`. -/
def control (K : Kind G A V) (late : Bool) (F : Frames) (framed : Bool) (r : ℕ → ℝ) (n : ℕ) (t : ℝ) : TControl G A :=
  ⟨t, ⟨⟨K.ops.exp (K.vector r n), if framed then F.point else Frame.null, if framed then F.ref else Frame.null⟩, first K late r n, second K late r n⟩⟩

/-- The control points that begin with the number `n`. -/
def controls (K : Kind G A V) (late : Bool) (F : Frames) (framed : Bool) (r : ℕ → ℝ) (n : ℕ) : List ℝ → List (TControl G A)
  | [] => []
  | t :: times => control K late F framed r n t :: controls K late F framed r (n + 3 * K.dof) times

theorem controls_length (K : Kind G A V) (late : Bool) (F : Frames) (framed : Bool) (r : ℕ → ℝ) (n : ℕ) (times : List ℝ) :
    (controls K late F framed r n times).length = times.length := by
  induction times generalizing n with
  | nil => rfl
  | cons t ts ih => simp [controls, ih]

theorem controls_get (K : Kind G A V) (late : Bool) (F : Frames) (framed : Bool) (r : ℕ → ℝ) (n : ℕ) (times : List ℝ) (i : ℕ) (hi : i < times.length) :
    (controls K late F framed r n times)[i]? = some (control K late F framed r (n + 3 * K.dof * i) times[i]) := by
  induction times generalizing n i with
  | nil => simp at hi
  | cons t ts ih =>
    cases i with
    | zero => rfl
    | succ i =>
      simp only [controls, List.getElem?_cons_succ, List.getElem_cons_succ]
      rw [ih (n + 3 * K.dof) i (by simpa using hi), show n + 3 * K.dof + 3 * K.dof * i = n + 3 * K.dof * (i + 1) by ring]

variable [AddCommGroup A] [Module ℝ A]

theorem step (K : Kind G A V) (late : Bool) {F : Frames} (hF : F.Named) (framed : Bool) (r : ℕ → ℝ) (n : ℕ) (c : TCurve G A) (t : ℝ) (ts : List ℝ) :
    makeTCurveFrom K late F framed c ⟨r, n⟩ (t :: ts) =
      match TCurve.append c (control K late F framed r n t) with
      | (c, .ok ()) => makeTCurveFrom K late F framed c ⟨r, n + 3 * K.dof⟩ ts
      | (_, .throw m) => (.throw m, ⟨r, n + 3 * K.dof⟩)
      | (_, .ub w) => (.ub w, ⟨r, n + 3 * K.dof⟩) := by
  have hp := hF.point
  have hr := hF.ref
  rw [← Frame.isNull_false_iff] at hp hr
  rw [makeTCurveFrom, two_jet K late hF.into hF.src]
  cases framed
  · rfl
  · simp only [Framed.setFrames, hp, hr, control]
    rfl

/-- Every control of the curve is as the helper makes it. -/
def Fits (F : Frames) (framed : Bool) (c : TCurve G A) : Prop :=
  ∀ q ∈ c.controls, q.point.g.into = (if framed then F.point else Frame.null) ∧ q.point.g.src = (if framed then F.ref else Frame.null)

theorem run_ok (K : Kind G A V) (late : Bool) {F : Frames} (hF : F.Named) (framed : Bool) (r : ℕ → ℝ) (times : List ℝ) :
    ∀ (c : TCurve G A) (n : ℕ), Built c → Fits F framed c → times.Pairwise (· < ·) → (∀ q ∈ c.controls, ∀ t ∈ times, q.time < t) →
      ∃ c', makeTCurveFrom K late F framed c ⟨r, n⟩ times = (.ok c', ⟨r, n + 3 * K.dof * times.length⟩) ∧
        c'.controls = c.controls ++ controls K late F framed r n times ∧ Built c' ∧ Fits F framed c' := by
  induction times with
  | nil => intro c n hc hf _ _; exact ⟨c, rfl, by simp [controls], hc, hf⟩
  | cons t ts ih =>
    intro c n hc hf hp hb
    obtain ⟨a1, -, a3, -⟩ := c40_append c hc (control K late F framed r n t)
    have hm : MayFollow c.controls (control K late F framed r n t) := fun q hq => ⟨hb q hq t (by simp), (hf q hq).1, (hf q hq).2⟩
    have hb' := Built.append hc (control K late F framed r n t)
    have e3 := a3 hm
    have e1 := a1.mpr hm
    rw [step K late hF]
    generalize TCurve.append c (control K late F framed r n t) = x at hb' e3 e1
    obtain ⟨c1, o⟩ := x
    simp only at hb' e3 e1
    subst e1
    rw [List.pairwise_cons] at hp
    have mem : ∀ q ∈ c1.controls, q ∈ c.controls ∨ q = control K late F framed r n t := by
      intro q hq
      rw [e3] at hq
      simpa using hq
    obtain ⟨c', h1, h2, h3, h4⟩ := ih c1 (n + 3 * K.dof) hb'
      (fun q hq => by
        rcases mem q hq with h | rfl
        · exact hf q h
        · exact ⟨rfl, rfl⟩) hp.2
      (fun q hq s hs => by
        rcases mem q hq with h | rfl
        · exact hb q h s (by simp [hs])
        · exact hp.1 s hs)
    refine ⟨c', ?_, ?_, h3, h4⟩
    · simp only [h1, List.length_cons]
      rw [show n + 3 * K.dof + 3 * K.dof * ts.length = n + 3 * K.dof * (ts.length + 1) by ring]
    · rw [h2, e3, controls, List.append_assoc]; rfl

theorem run_append (K : Kind G A V) (late : Bool) {F : Frames} (hF : F.Named) (framed : Bool) (r : ℕ → ℝ) (pre post : List ℝ) :
    ∀ (c : TCurve G A) (n : ℕ) (c' : TCurve G A) (m : ℕ), makeTCurveFrom K late F framed c ⟨r, n⟩ pre = (.ok c', ⟨r, m⟩) →
      makeTCurveFrom K late F framed c ⟨r, n⟩ (pre ++ post) = makeTCurveFrom K late F framed c' ⟨r, m⟩ post := by
  induction pre with
  | nil => intro c n c' m h; simp only [makeTCurveFrom, Prod.mk.injEq, Outcome.ok.injEq, Helper.mk.injEq] at h; obtain ⟨rfl, -, rfl⟩ := h; rfl
  | cons t ts ih =>
    intro c n c' m h
    rw [step K late hF] at h
    rw [List.cons_append, step K late hF]
    generalize TCurve.append c (control K late F framed r n t) = x at h
    obtain ⟨c1, o⟩ := x
    cases o with
    | ok u => exact ih _ _ _ _ h
    | throw m => simp at h
    | ub w => simp at h

theorem run_fail (K : Kind G A V) (late : Bool) {F : Frames} (hF : F.Named) (framed : Bool) (r : ℕ → ℝ) (n : ℕ) (pre post : List ℝ) (t : ℝ)
    (hp : pre.Pairwise (· < ·)) (ht : ∃ s ∈ pre, t ≤ s) :
    makeTCurveFrom K late F framed (TCurve.empty : TCurve G A) ⟨r, n⟩ (pre ++ t :: post) =
      (.throw "Control points must have strictly increasing time", ⟨r, n + 3 * K.dof * (pre.length + 1)⟩) := by
  obtain ⟨c, h1, h2, h3, h4⟩ := run_ok K late hF framed r pre (TCurve.empty : TCurve G A) n Built.empty (by simp [Fits, TCurve.empty]) hp (by simp [TCurve.empty])
  rw [run_append K late hF framed r pre (t :: post) _ _ _ _ h1, step K late hF]
  have h2 : c.controls = controls K late F framed r n pre := by rw [h2]; rfl
  obtain ⟨s, hs, hts⟩ := ht
  obtain ⟨i, hi, rfl⟩ := List.getElem_of_mem hs
  have hne : c.controls ≠ [] := by
    intro h
    have := controls_length K late F framed r n pre
    rw [← h2, h] at this
    simp only [List.length_nil] at this
    omega
  obtain ⟨b, hl⟩ : ∃ b, c.controls.getLast? = some b := ⟨_, List.getLast?_eq_some_getLast hne⟩
  have hbt : pre[i] ≤ b.time := by
    have len := controls_length K late F framed r n pre
    have hb : b = control K late F framed r (n + 3 * K.dof * (pre.length - 1)) pre[pre.length - 1] := by
      rw [List.getLast?_eq_getElem?, h2, len, controls_get _ _ _ _ _ _ _ _ (by omega)] at hl
      exact (Option.some.inj hl).symm
    rw [hb]
    rcases Nat.lt_or_eq_of_le (show i ≤ pre.length - 1 by omega) with h | h
    · exact (List.pairwise_iff_getElem.mp hp i (pre.length - 1) hi (by omega) h).le
    · subst h; exact le_refl _
  rw [TCurve.append_cons hl, if_pos (by simp only [control]; linarith)]
  simp only
  rw [show n + 3 * K.dof * pre.length + 3 * K.dof = n + 3 * K.dof * (pre.length + 1) by ring]

theorem split {times : List ℝ} (h : ¬ times.Pairwise (· < ·)) :
    ∃ pre t post, times = pre ++ t :: post ∧ pre.Pairwise (· < ·) ∧ ∃ s ∈ pre, t ≤ s := by
  induction times using List.reverseRecOn with
  | nil => exact absurd List.Pairwise.nil h
  | append_singleton ts t ih =>
    by_cases hp : ts.Pairwise (· < ·)
    · refine ⟨ts, t, [], rfl, hp, ?_⟩
      by_contra hn
      push Not at hn
      exact h (List.pairwise_append.mpr ⟨hp, by simp, fun a ha b hb => by
        rw [List.mem_singleton.mp hb]; exact hn a ha⟩)
    · obtain ⟨pre, s, post, e, h1, h2⟩ := ih hp
      exact ⟨pre, s, post ++ [t], by rw [e]; simp, h1, h2⟩

end Verif.TestCurves
