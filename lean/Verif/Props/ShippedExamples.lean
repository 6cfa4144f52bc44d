import Verif.Proofs.ShippedExamples
import Verif.Props.Match
import Verif.Props.Stats
import Verif.Props.SceneGraph
/-! # C128: the example programs do what they say -/
namespace Verif.Props
open Matrix Spec.ShippedExamples ShippedExamples

/-- C128 for the example of matching.  In whatever order the branches stand and however the variant is passed, the call compiles and tells for every alternative
what the variant holds. -/
theorem c128_match {V : Type} (bs : List (Match.Branch V String)) (h : bs.Perm (branches V)) (c : Match.Cat) :
    Match.compile alternatives c bs = .compiles ∧ (∀ t ∈ alternatives, ∀ v, Match.run bs c (some (t, v)) = .ok (expected t)) ∧
    (∀ t ∈ [Match.Ty.int, .char, .double, .bool], t ∈ alternatives) := by
  refine ⟨?_, fun t ht v => ?_, fun t ht => ht⟩
  · rw [(c94_order bs _ h alternatives c none).1]
    cases c <;> rfl
  · rw [(c94_order bs _ h alternatives c (some (t, v))).2]
    simp only [alternatives, List.mem_cons, List.not_mem_nil, or_false] at ht
    rcases ht with rfl | rfl | rfl | rfl <;> cases c <;> rfl

example (V : Type) : [defaultBranch V, charBranch V, intBranch V].Perm (branches V) := (List.perm_append_comm (l₁ := [defaultBranch V])).trans (List.Perm.refl _)

/-- C128: the program prints one line, and as it stands that a character is held, whichever one. -/
theorem c128_match_prints {V : Type} (v : V) :
    (∀ t ∈ alternatives, matchProgram (some (t, v)) = .ok (expected t ++ "\n")) ∧ matchProgram (some (.char, v)) = .ok "This variant contains a char!\n" := by
  refine ⟨fun t ht => ?_, rfl⟩
  rw [matchProgram, (c128_match _ (List.Perm.refl _) _).2.1 t ht]
  rfl

example : (matchProgram (some (.bool, ()))) = .ok "This variant contains a double or bool!\n" := rfl

/-- C128: the default is needed.  Without it the call is refused, because a `double` fits both other branches; but if there is no `double` among the alternatives it
is accepted and a `bool` is reported as an `int`. -/
theorem c128_match_default {V : Type} (bs : List (Match.Branch V String)) (h : bs.Perm [charBranch V, intBranch V]) (c : Match.Cat) :
    Match.compile alternatives c bs = .discarded ∧
    Match.compile [.int, .char, .bool] c bs = .compiles ∧ ∀ v, Match.run bs c (some (.bool, v)) = .ok "This variant contains an int!" := by
  refine ⟨?_, ?_, fun v => ?_⟩
  · rw [(c94_order bs _ h alternatives c none).1]
    cases c <;> rfl
  · rw [(c94_order bs _ h [.int, .char, .bool] c none).1]
    cases c <;> rfl
  · rw [(c94_order bs _ h [] c (some (.bool, v))).2]
    cases c <;> rfl

example (V : Type) : [intBranch V, charBranch V].Perm [charBranch V, intBranch V] := List.Perm.swap _ _ _

/-- C128 for the example of sampling.  Whatever eigenvectors a working solver picks, the program succeeds, and every sample is as far from (20, 2), measured with the
inverse of the covariance, as the standard normal sample it is made of is from zero; samples of mean zero and identity covariance become samples of exactly the
mean and covariance asked for. -/
theorem c128_gaussian (solver : Matrix (Fin 2) (Fin 2) ℝ → Stats.Solved 2) (hw : Spec.Stats.Works solver) (fmt : ℝ → List Char) :
    precision * !![4.8, -0.96; -0.96, 0.25] = 1 ∧
    ∀ iid, ∃ s out, gaussianProgram solver fmt iid = .ok (s, out) ∧
      (∀ i, Spec.Stats.quadratic precision (s i - ![20, 2]) = Spec.Stats.lengthSq (iid i)) ∧
      (Stats.mean iid = .ok 0 → Stats.mean s = .ok ![20, 2]) ∧
      (Stats.covariance iid = .ok 1 → Stats.covariance s = .ok !![4.8, -0.96; -0.96, 0.25]) := by
  constructor
  · ext i j
    fin_cases i <;> fin_cases j <;> simp [precision, Matrix.mul_apply, Fin.sum_univ_two] <;> norm_num
  obtain ⟨g, hg⟩ := c69_semidefinite_accepted (by decide) solver hw gaussianMean gaussianCovariance cov_symm cov_psd
  obtain ⟨⟨m, hm, hs⟩, hr⟩ := c69_reproduces solver hw gaussianMean gaussianCovariance cov_symm cov_psd g hg
  refine fun iid => ⟨g.samples iid, file fmt (g.samples iid), by rw [gaussianProgram, hg]; rfl, fun i => ?_, (hr 1000 iid).1, (hr 1000 iid).2⟩
  have e : g.samples iid i - ![20, 2] = m *ᵥ iid i := by
    rw [hs]
    exact add_sub_cancel_right _ _
  rw [e, distance m hm]

example : ∃ solver : Matrix (Fin 2) (Fin 2) ℝ → Stats.Solved 2, Spec.Stats.Works solver := Stats.works_exists 2

/-- C128: if numbers are written without commas and ends of lines, the file can be read back: it has 1000 lines, each with the two coordinates of a sample, in order. -/
theorem c128_file (solver : Matrix (Fin 2) (Fin 2) ℝ → Stats.Solved 2) (fmt : ℝ → List Char) (hf : Plain fmt) (iid s) (out)
    (h : gaussianProgram solver fmt iid = .ok (s, out)) :
    (records out).map fields = List.ofFn (fun i => (fmt (s i 0), fmt (s i 1))) ∧ (records out).length = 1000 := by
  have ho : out = file fmt s := by
    rw [gaussianProgram] at h
    cases hg : Stats.Gaussian.make solver gaussianMean gaussianCovariance <;> rw [hg] at h <;> cases h
    rfl
  have hr := file_read hf s
  rw [← ho] at hr
  refine ⟨hr, ?_⟩
  have := congrArg List.length hr
  rwa [List.length_map, List.length_ofFn] at this

example : Plain fun x => if x = 0 then ['0'] else ['1', '.', '5'] := by
  intro x
  by_cases h : x = 0 <;> simp [h]

/-- C128 for the first example of visualization: it shows a quarter turn about the vertical and the same with a translation of (1, 0, 1), under their names and without
frames; the second is the transform that the next example composes with frames. -/
theorem c128_rigid_transform : ∃ r g, rigidTransform = [.rotation "world_from_robot_rot" (Framed.unframed r), .pose "world_from_robot" (Framed.unframed g)] ∧
    (∀ p, SO3.act r p = ![-p 1, p 0, p 2]) ∧ (∀ p, SE3.act g p = ![1 - p 1, p 0, 1 + p 2]) ∧
    ∀ world robot : Frame, world ≠ Frame.null → robot ≠ Frame.null → SceneGraph.worldFromRobot world robot = .ok ⟨g, world, robot⟩ := by
  refine ⟨SO3.angleAxisMatrix (Real.pi / 2) ![0, 0, 1], (SO3.angleAxisMatrix (Real.pi / 2) ![0, 0, 1], ![1, 0, 1]), rfl, fun p => ?_, fun p => ?_,
    fun world robot h1 h2 => Framed.mk'_ok (by simp [h1, h2])⟩
  · funext i
    fin_cases i <;> simp [SO3.act, SO3.angleAxisMatrix, vecHead, vecTail]
  · funext i
    fin_cases i <;> simp [SE3.act, SO3.act, SO3.angleAxisMatrix, vecHead, vecTail] <;> ring

example : exFrame 1 ≠ Frame.null ∧ exFrame 2 ≠ Frame.null := ⟨by decide, by decide⟩

end Verif.Props
