import Verif.Model.Match
import Verif.Model.Stats
import Verif.Model.SceneGraph
/-! # The example programs without a model of their own

resim/examples/match.cc, resim/examples/gaussian.cc and resim/visualization/examples/example_00_rigid_transform.cc. -/
namespace Verif.ShippedExamples
open Matrix

/-- The alternatives of `my_variant`, resim/examples/match.cc:16. -/
def alternatives : List Match.Ty := [.int, .char, .double, .bool]

/-- The branch for `char`, resim/examples/match.cc:21.  All branches are lambdas that are not `mutable` and return `const char *` (numbered 0). -/
def charBranch (V : Type) : Match.Branch V String := ⟨.value .char, true, true, 0, fun _ => "This variant contains a char!"⟩

/-- The branch for `int`, resim/examples/match.cc:23. -/
def intBranch (V : Type) : Match.Branch V String := ⟨.value .int, true, true, 0, fun _ => "This variant contains an int!"⟩

/-- The branch for everything else, resim/examples/match.cc:25-27. -/
def defaultBranch (V : Type) : Match.Branch V String := ⟨.generic, true, true, 0, fun _ => "This variant contains a double or bool!"⟩

/-- The branches of the example in the order of resim/examples/match.cc:18-27. -/
def branches (V : Type) : List (Match.Branch V String) := [charBranch V, intBranch V, defaultBranch V]

/-- What resim/examples/match.cc:16-28 prints for the variant it is given; the program itself holds the character `'m'`.  `V` is the type of values. -/
def matchProgram {V : Type} (held : Option (Match.Ty × V)) : Outcome String := do
  let text ← Match.run (branches V) .lvalue held
  pure (text ++ "\n")

noncomputable section

/-- `mean`, resim/examples/gaussian.cc:23-24. -/
def gaussianMean : Fin 2 → ℝ := ![20, 2]

/-- `covariance`, resim/examples/gaussian.cc:26-27. -/
def gaussianCovariance : Matrix (Fin 2) (Fin 2) ℝ := !![4.8, -0.96; -0.96, 0.25]

/-- One line of the file, resim/examples/gaussian.cc:38; `fmt` is how `fmt::format` writes a number. -/
def line (fmt : ℝ → List Char) (x y : ℝ) : List Char := fmt x ++ [',', ' '] ++ fmt y ++ ['\n']

/-- The whole file, resim/examples/gaussian.cc:35-40. -/
def file (fmt : ℝ → List Char) {n : Nat} (samples : Matrix (Fin n) (Fin 2) ℝ) : List Char :=
  (List.finRange n).flatMap fun i => line fmt (samples i 0) (samples i 1)

/-- The program, resim/examples/gaussian.cc:17-42: the samples and the file.  `solver` is Eigen's solver and `iid` what the generator drew. -/
def gaussianProgram (solver : Matrix (Fin 2) (Fin 2) ℝ → Stats.Solved 2) (fmt : ℝ → List Char) (iid : Matrix (Fin 1000) (Fin 2) ℝ) :
    Outcome (Matrix (Fin 1000) (Fin 2) ℝ × List Char) := do
  let g ← Stats.Gaussian.make solver gaussianMean gaussianCovariance
  pure (g.samples iid, file fmt (g.samples iid))

/-- What a program shows with `VIEW`, resim/visualization/examples/example_00_rigid_transform.cc:36,50. -/
inductive Shown where
  | rotation (name : String) (r : Framed M3)
  | pose (name : String) (g : Framed Pose)

/-- The program, resim/visualization/examples/example_00_rigid_transform.cc:13-53, with the constructors of resim/transforms/so3.cc:30-32 and
resim/transforms/se3.cc:44-51: what it shows, in order.  That shown objects reach the server is the subject of C126. -/
def rigidTransform : List Shown :=
  let rot := SO3.ofAngleAxis (Real.pi / 2) ![0, 0, 1]
  [.rotation "world_from_robot_rot" rot, .pose "world_from_robot" (Framed.fromRotation (fun r => (r, ![1, 0, 1])) rot)]

end
end Verif.ShippedExamples
