import Mathlib.Data.Finset.Lattice.Fold
import Mathlib.Data.Matrix.Basic
import Mathlib.Data.Fintype.Prod
/-! # What is said about the Gaussian sampler -/
namespace Verif.Spec

/-- The difference between the largest and the smallest entry of a matrix. -/
def entryRange {d : ℕ} [NeZero d] (m : Matrix (Fin d) (Fin d) ℚ) : ℚ :=
  Finset.univ.sup' Finset.univ_nonempty (fun p : Fin d × Fin d => m p.1 p.2) - Finset.univ.inf' Finset.univ_nonempty (fun p : Fin d × Fin d => m p.1 p.2)

end Verif.Spec
