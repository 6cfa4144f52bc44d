import Verif.Proofs.TestElements
import Verif.Props.ExpLog
/-! # C100: the inputs of the library's own tests -/
namespace Verif.Props
open Verif.TestElements Verif.Spec SO3

/-- C100.  Whatever the pseudo-random numbers, seven or more test rotations can be had, fewer throw; all the vectors they are made from are shorter
than pi, so that `log` gives these back, and one is within 0.01 of pi. -/
theorem c100_rotations (r : ℕ → ℝ) (hr : ∀ n, |r n| ≤ 1) (count : ℕ) :
    (count < 7 → (makeTestVectors3 r count).IsThrow ∧ (makeTestRotations r count).IsThrow) ∧
    (7 ≤ count → ∃ vs gs, makeTestVectors3 r count = .ok vs ∧ makeTestRotations r count = .ok gs ∧ vs.length = count ∧
      gs = vs.map SO3.ops.exp ∧ vs = gs.map SO3.ops.log ∧ (∀ g ∈ gs, IsRotation g) ∧ ∃ v ∈ vs, Real.pi - 0.01 < eucNorm v ∧ eucNorm v < Real.pi) := by
  constructor
  · intro h
    have e : makeTestVectors3 r count = .throw "The minimum number of test elements you can request is seven. Please increase the count." := by
      rw [makeTestVectors3, Outcome.reassert_false (by omega), Outcome.throw_bind]
    exact ⟨⟨_, e⟩, ⟨_, by rw [makeTestRotations, e, Outcome.throw_bind]⟩⟩
  · intro h
    obtain ⟨vs, e⟩ : ∃ vs, makeTestVectors3 r count = .ok vs := ⟨_, by rw [makeTestVectors3, Outcome.reassert_true h, Outcome.ok_bind]⟩
    obtain ⟨-, hl, hm, hn⟩ := vectors3 hr e
    refine ⟨vs, vs.map SO3.exp, e, by rw [makeTestRotations, e, Outcome.ok_bind], hl, rfl, ?_, ?_, ⟨_, hm, large_norm.2, large_norm.1⟩⟩
    · rw [List.map_map]
      conv_lhs => rw [← List.map_id vs]
      exact List.map_congr_left fun v hv => (c29_log_exp v (hn v hv)).symm
    · intro g hg
      obtain ⟨v, -, rfl⟩ := List.mem_map.mp hg
      exact SO3.isRotation_exp v

/-- Pseudo-random numbers that meet the condition. -/
example : ∀ n : ℕ, |(fun n : ℕ => if n % 2 = 0 then (1 / 2 : ℝ) else -1) n| ≤ 1 := by
  intro n
  dsimp only
  split <;> norm_num

/-- C100.  The same for poses: all turn by less than pi, so `log` gives back the rotation of each, and all of it unless the turn is more than none and
less than 0.002. -/
theorem c100_poses_partial (r : ℕ → ℝ) (hr : ∀ n, |r n| ≤ 1) (count : ℕ) :
    (count < 7 → (makeTestVectors6 r count).IsThrow ∧ (makeTestPoses r count).IsThrow) ∧
    (7 ≤ count → ∃ xs gs, makeTestVectors6 r count = .ok xs ∧ makeTestPoses r count = .ok gs ∧ xs.length = count ∧ gs = xs.map SE3.ops.exp ∧
      ∀ x ∈ xs, (SE3.ops.log (SE3.ops.exp x)).1 = x.1 ∧ (x.1 = 0 ∨ 0.002 ≤ eucNorm x.1 → SE3.ops.log (SE3.ops.exp x) = x)) := by
  constructor
  · intro h
    have e : makeTestVectors6 r count = .throw "The minimum number of test elements you can request is seven. Please increase the count." := by
      rw [makeTestVectors6, Outcome.reassert_false (by omega), Outcome.throw_bind]
    exact ⟨⟨_, e⟩, ⟨_, by rw [makeTestPoses, e, Outcome.throw_bind]⟩⟩
  · intro h
    obtain ⟨xs, e⟩ : ∃ xs, makeTestVectors6 r count = .ok xs := ⟨_, by rw [makeTestVectors6, Outcome.reassert_true h, Outcome.ok_bind]⟩
    obtain ⟨-, hl, -, hn⟩ := vectors6 hr e
    exact ⟨xs, xs.map SE3.exp, e, by rw [makeTestPoses, e, Outcome.ok_bind], hl, rfl, fun x hx =>
      ⟨c29_log_exp x.1 (hn x hx), c30_log_exp_partial x (hn x hx)⟩⟩

/-- C100 fails for plain vectors: although one of size 1e6 is meant to be among them, none is as long as pi, because vectors of rotations have the same
type and are made instead. -/
theorem c100_no_large_vector (r : ℕ → ℝ) (hr : ∀ n, |r n| ≤ 1) (count : ℕ) (vs : List V3) (h : makeTestVectors3 r count = .ok vs) :
    ∀ v ∈ vs, eucNorm v < Real.pi := (vectors3 hr h).2.2.2

/-- C100 fails for two-jets: velocity and acceleration of every one are equal, and the pose is their exponential, because all three are made with the
same seed. -/
theorem c100_two_jets_equal (into src : Frame) (r : ℕ → ℝ) (count : ℕ) (js : List (TwoJetL Pose Twist)) (h : makeTestTwoJets into src r count = .ok js) :
    js.length = count ∧ ∀ j ∈ js, j.d = j.d2 ∧ j.g.val = SE3.ops.exp j.d := by
  by_cases hc : count ≥ 7
  · obtain ⟨xs, e⟩ : ∃ xs, makeTestVectors6 r count = .ok xs := ⟨_, by rw [makeTestVectors6, Outcome.reassert_true hc, Outcome.ok_bind]⟩
    have hl : xs.length = count := by
      rw [makeTestVectors6, Outcome.reassert_true hc, Outcome.ok_bind] at e
      injection e with e
      rw [← e]
      simp
      omega
    rw [makeTestTwoJets, Outcome.reassert_true hc, Outcome.ok_bind, makeTestPoses, e, Outcome.ok_bind, Outcome.ok_bind, Outcome.ok_bind,
      Outcome.ok_bind] at h
    injection h with h
    rw [← h]
    refine ⟨by simp [hl], fun j hj => ?_⟩
    obtain ⟨p, hp, rfl⟩ := List.mem_map.mp hj
    obtain ⟨i, hi, hpi⟩ := List.mem_iff_getElem.mp hp
    simp only [List.getElem_zip, List.getElem_map] at hpi
    rw [← hpi]
    exact ⟨rfl, rfl⟩
  · rw [makeTestTwoJets, Outcome.reassert_false hc, Outcome.throw_bind] at h
    cases h

/-- Seven two-jets can be had, and ten vectors. -/
example (into src : Frame) (r : ℕ → ℝ) : (makeTestTwoJets into src r 7).IsOk ∧ (makeTestVectors3 r 10).IsOk := by
  obtain ⟨xs, e⟩ : ∃ xs, makeTestVectors6 r 7 = .ok xs := ⟨_, by rw [makeTestVectors6, Outcome.reassert_true (by omega), Outcome.ok_bind]⟩
  refine ⟨⟨_, by rw [makeTestTwoJets, Outcome.reassert_true (by omega), Outcome.ok_bind, makeTestPoses, e, Outcome.ok_bind, Outcome.ok_bind,
    Outcome.ok_bind, Outcome.ok_bind]⟩, ⟨_, by rw [makeTestVectors3, Outcome.reassert_true (by omega), Outcome.ok_bind]⟩⟩

/-- C100.  So no test on these two-jets tells a program from the same program with velocity and acceleration exchanged. -/
theorem c100_blind (into src : Frame) (r : ℕ → ℝ) (count : ℕ) (js : List (TwoJetL Pose Twist)) (h : makeTestTwoJets into src r count = .ok js)
    {α : Type} (test : TwoJetL Pose Twist → α) : ∀ j ∈ js, test ⟨j.g, j.d2, j.d⟩ = test j := by
  intro j hj
  have := ((c100_two_jets_equal into src r count js h).2 j hj).1
  rw [← this]
  congr 1
  ext1 <;> simp [this]

/-- C100.  If the numbers drawn all differ, so do the random elements: no number is used twice. -/
theorem c100_distinct (r : ℕ → ℝ) (hr : Function.Injective r) (count : ℕ) :
    (∀ vs, makeTestVectors3 r count = .ok vs → (vs.drop 5).Nodup ∧ ∀ u ∈ vs.drop 5, ∀ v ∈ vs.drop 5, ∀ i j, u i = v j → u = v ∧ i = j) ∧
    (∀ xs, makeTestVectors6 r count = .ok xs → (xs.drop 5).Nodup ∧
      ∀ x ∈ xs.drop 5, ∀ y ∈ xs.drop 5, ∀ i j, (x.1 i = y.1 j → x = y ∧ i = j) ∧ (x.2 i = y.2 j → x = y ∧ i = j) ∧ x.1 i ≠ y.2 j) := by
  have key : ∀ n (i : Fin 3), random3 r n i = r (n + i) := by intro n i; fin_cases i <;> rfl
  constructor
  · intro vs h
    by_cases hc : count ≥ 7
    · rw [makeTestVectors3, Outcome.reassert_true hc, Outcome.ok_bind, Outcome.ok.injEq] at h
      subst h
      have e : ∀ (a b : ℕ) (i j : Fin 3), random3 r (3 + 3 * a) i = random3 r (3 + 3 * b) j → a = b ∧ i = j := by
        intro a b i j h
        rw [key, key] at h
        have := hr h
        have := i.isLt
        have := j.isLt
        exact ⟨by omega, by ext; omega⟩
      rw [List.drop_left' (by simp)]
      refine ⟨List.nodup_range.map fun a b hab => (e a b 0 0 (congrFun hab 0)).1, ?_⟩
      intro u hu v hv i j huv
      obtain ⟨a, -, rfl⟩ := List.mem_map.mp hu
      obtain ⟨b, -, rfl⟩ := List.mem_map.mp hv
      obtain ⟨rfl, rfl⟩ := e a b i j huv
      exact ⟨rfl, rfl⟩
    · rw [makeTestVectors3, Outcome.reassert_false hc, Outcome.throw_bind] at h
      cases h
  · intro xs h
    by_cases hc : count ≥ 7
    · rw [makeTestVectors6, Outcome.reassert_true hc, Outcome.ok_bind, Outcome.ok.injEq] at h
      subst h
      have e : ∀ (a b c d : ℕ), c < 6 → d < 6 → r (9 + 6 * a + c) = r (9 + 6 * b + d) → a = b ∧ c = d := by
        intro a b c d hc hd h
        have := hr h
        exact ⟨by omega, by omega⟩
      rw [List.drop_left' (by simp)]
      refine ⟨List.nodup_range.map fun a b hab => (e a b 0 0 (by norm_num) (by norm_num) (congrFun (congrArg Prod.fst hab) 0)).1, ?_⟩
      intro u hu v hv i j
      obtain ⟨a, -, rfl⟩ := List.mem_map.mp hu
      obtain ⟨b, -, rfl⟩ := List.mem_map.mp hv
      have hi := i.isLt
      have hj := j.isLt
      simp only [random6, key]
      refine ⟨fun h => ?_, fun h => ?_, fun h => ?_⟩
      · obtain ⟨rfl, h2⟩ := e a b i j (by omega) (by omega) h
        exact ⟨rfl, Fin.ext h2⟩
      · rw [add_assoc _ 3, add_assoc _ 3] at h
        obtain ⟨rfl, h2⟩ := e a b (3 + i) (3 + j) (by omega) (by omega) h
        exact ⟨rfl, Fin.ext (by omega)⟩
      · rw [add_assoc _ 3] at h
        obtain ⟨-, h2⟩ := e a b i (3 + j) (by omega) (by omega) h
        omega
    · rw [makeTestVectors6, Outcome.reassert_false hc, Outcome.throw_bind] at h
      cases h

/-- Numbers that differ: the last two of seven vectors are not the same. -/
example : ∃ vs, makeTestVectors3 (fun n => 1 / (n + 1)) 7 = .ok vs ∧ (vs.drop 5).Nodup ∧ vs.length = 7 := by
  refine ⟨_, by rw [makeTestVectors3, Outcome.reassert_true (by decide), Outcome.ok_bind], ?_, by simp⟩
  refine ((c100_distinct (fun n => 1 / (n + 1)) ?_ 7).1 _ (by rw [makeTestVectors3, Outcome.reassert_true (by decide), Outcome.ok_bind])).1
  intro a b h
  have h1 : (a : ℝ) + 1 ≠ 0 := by positivity
  have h2 : (b : ℝ) + 1 ≠ 0 := by positivity
  simp only [one_div, inv_inj, add_left_inj] at h
  exact_mod_cast h

end Verif.Props
