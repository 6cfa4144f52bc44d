/-! # Drawing from Gaussian objects: resim/math/multivariate_gaussian.hh and multivariate_gaussian.cc

Which standard normal numbers the objects of a program use.  The engine `std::mt19937` and the distribution `std::normal_distribution` are arbitrary
deterministic machines with states (a distribution may keep a number for the next draw, as those of the common libraries do).  What is computed from the
numbers (multivariate_gaussian.cc:48-49) is an arbitrary function of the parameters and a row of numbers; it is in `Model/Stats` and `Model/GaussianDouble`.
Simplification: counts of rows and entries do not overflow, and memory does not run out. -/
namespace Verif.GaussianDraws

/-- Engine and distribution: `std::mt19937` with its seed, resim/math/multivariate_gaussian.hh:89-90, and `std::normal_distribution` with its state when
just made, resim/math/multivariate_gaussian.cc:54. -/
structure Source (α : Type) where
  Engine : Type
  Dist : Type
  seeded : Engine
  fresh : Dist
  draw : Engine → Dist → α × Engine × Dist

/-- `k` calls of `rand_norm`, resim/math/multivariate_gaussian.cc:55: the numbers, and engine and distribution afterwards. -/
def drawMany {α : Type} (s : Source α) : Nat → s.Engine → s.Dist → List α × s.Engine × s.Dist
  | 0, e, d => ([], e, d)
  | k + 1, e, d =>
    let (x, e1, d1) := s.draw e d
    let (xs, e2, d2) := drawMany s k e1 d1
    (x :: xs, e2, d2)

/-- `iid_samples`, resim/math/multivariate_gaussian.cc:52-57: the rows of the matrix that Eigen fills in the order in which it is stored, column by column.
The distribution is new in each call and is forgotten at its end; the engine is a member. -/
def iidSamples {α : Type} (s : Source α) (n dims : Nat) (e : s.Engine) : List (List α) × s.Engine :=
  let (xs, e', _) := drawMany s (n * dims) e s.fresh
  ((List.range n).map fun i => (List.range dims).filterMap fun j => xs[j * n + i]?, e')

/-- A `Gaussian`, resim/math/multivariate_gaussian.hh:74-90: parameters that do not change, and the engine. -/
structure Object {α : Type} (s : Source α) (P : Type) where
  params : P
  engine : s.Engine

/-- What a program does with `Gaussian` objects: make one from parameters (resim/math/multivariate_gaussian.cc:19-45), copy one (the implicit copy
constructor of resim/math/multivariate_gaussian.hh), draw samples (multivariate_gaussian.cc:47-50).  Objects are numbered in the order in which they come
into being. -/
inductive Action (P : Type) where
  | make (p : P)
  | copy (i : Nat)
  | samples (i n : Nat)

/-- One action: the objects afterwards and the samples, if any.  Parameters give the number of dimensions and the sample that a row of standard normal numbers
becomes.  An object that does not exist is not used (resim/math/multivariate_gaussian.cc:19-50). -/
def step {α P β : Type} (s : Source α) (dims : P → Nat) (image : P → List α → β) (w : List (Object s P)) : Action P → List (Object s P) × List β
  | .make p => (w ++ [⟨p, s.seeded⟩], [])
  | .copy i => match w[i]? with
    | some o => (w ++ [o], [])
    | none => (w, [])
  | .samples i n => match w[i]? with
    | some o =>
      let (z, e) := iidSamples s n (dims o.params) o.engine
      (w.set i ⟨o.params, e⟩, z.map (image o.params))
    | none => (w, [])

/-- A program: the objects at its end and the samples of each action (resim/math/multivariate_gaussian.cc:19-50). -/
def run {α P β : Type} (s : Source α) (dims : P → Nat) (image : P → List α → β) : List (Object s P) → List (Action P) → List (Object s P) × List (List β)
  | w, [] => (w, [])
  | w, a :: as =>
    let (w1, y) := step s dims image w a
    let (w2, ys) := run s dims image w1 as
    (w2, y :: ys)

end Verif.GaussianDraws
