import Mathlib.Algebra.Order.Ring.Int
/-! # Truncated division -/
namespace Verif

/-- Quotient and remainder of truncated division by a positive number. -/
theorem tdiv_facts (d c : Int) (hc : 0 < c) :
    d.tdiv c * c + d.tmod c = d ∧ -c < d.tmod c ∧ d.tmod c < c ∧ (0 ≤ d → 0 ≤ d.tmod c) ∧ (d ≤ 0 → d.tmod c ≤ 0) := by
  have hneg : d.tmod c = -((-d).tmod c) := by
    have h2 := Int.neg_tmod (a := -d) (b := c)
    rwa [neg_neg] at h2
  have h3 := Int.tmod_lt_of_pos d hc
  have h4 := Int.tmod_lt_of_pos (-d) hc
  refine ⟨Int.tdiv_mul_add_tmod d c, by omega, h3, fun h => Int.tmod_nonneg c h, fun h => ?_⟩
  have := Int.tmod_nonneg c (a := -d) (by omega)
  omega

end Verif
