import Verif.Proofs.SampleIntervalDouble
/-! # C75: sampling an interval of doubles, in binary64 arithmetic -/
namespace Verif.Props
open Verif.Spec Verif.SampleIntervalDouble Verif.Binary64

/-- C75, full claim: for distinct finite bounds and a positive step the function is called with doubles that all lie between the bounds, in
order, from the one bound to the other, with no gap larger than the step. -/
def C75 : Prop :=
  ∀ s e dt : ℚ, IsDouble s → IsDouble e → IsDouble dt → s ≠ e → 0 < dt →
    ∃ xs : List ℚ, sampleInterval s e dt = .ok (xs.map some) ∧ xs.head? = some s ∧ xs.getLast? = some e ∧
      (∀ x ∈ xs, min s e ≤ x ∧ x ≤ max s e) ∧
      ((s < e ∧ xs.Pairwise (· ≤ ·)) ∨ (e < s ∧ xs.Pairwise (· ≥ ·))) ∧
      ∀ (i : Nat) (h : i + 1 < xs.length), |xs[i + 1] - xs[i]| ≤ dt

/-- C75, the number of samples: with `n` samples the length of the interval is at most `n - 1` steps and at least `n - 2` steps, up to a
relative error of 2^-51. -/
theorem c75_count_partial (s e dt : ℚ) (hs : IsDouble s) (he : IsDouble e) (n : Int) (hn : numSamples s e dt = .ok n) (h2 : 2 ≤ n) :
    |e - s| ≤ (n - 1) * dt * (1 + 2 ^ (-51 : ℤ)) ∧ (n - 2) * dt * (1 - 2 ^ (-51 : ℤ)) ≤ |e - s| := by
  obtain ⟨hdt, en, -⟩ := numSamples_ok hn
  have := count_bounds (c := n - 1) (two_zpow_pos (-53)) (by norm_num) (two_zpow_pos (-1075)) eta_small hdt (abs_nonneg (e - s)) (abs_round64_sub hs he)
    (round64_error (|round64 (e - s)| / dt)) (by rw [en]; ring) (by omega)
  have e1 : (4 : ℚ) * 2 ^ (-53 : ℤ) = 2 ^ (-51 : ℤ) := by norm_num
  rw [e1] at this
  push_cast at this
  refine ⟨this.1, ?_⟩
  have h := this.2
  rwa [sub_sub, one_add_one_eq_two] at h

/-- C75, the samples: if the bounds are at most 2^1022, the step is not so large that the quotient underflows, and the count fits in `int`, then
the call completes, the samples are finite, the first and the last are exactly the bounds, and sample `i` of `n` is its even position up to a
relative error (in terms of the larger bound) of 2^-50.  Missing for C75: order and membership (`c75_ordered_partial`), which can fail, as can the step. -/
theorem c75_samples_partial (s e dt : ℚ) (hs : IsDouble s) (he : IsDouble e) (hne : s ≠ e) (hs' : |s| ≤ 2 ^ 1022) (he' : |e| ≤ 2 ^ 1022) (hdt : 0 < dt)
    (hlo : 2 ^ (-1000 : ℤ) * dt ≤ |e - s|) (hhi : |e - s| ≤ 2 ^ 30 * dt) :
    ∃ (n : Int) (xs : List ℚ), numSamples s e dt = .ok n ∧ sampleInterval s e dt = .ok (xs.map some) ∧ 2 ≤ n ∧ (xs.length : Int) = n ∧
      xs.head? = some s ∧ xs.getLast? = some e ∧
      ∀ (i : Nat) (h : i < xs.length), |xs[i] - evenly s e n i| ≤ max |s| |e| * 2 ^ (-50 : ℤ) + 2 ^ (-1072 : ℤ) := by
  obtain ⟨n, hn, hn2⟩ := numSamples_completes hs he hs' he' hdt hlo hhi
  obtain ⟨-, -, hn3⟩ := numSamples_ok hn
  obtain ⟨k, rfl⟩ : ∃ k : ℕ, n = k + 1 := ⟨(n - 1).toNat, by omega⟩
  have hcl : ∀ i : ℕ, i ≤ k → ∃ r, sampleAt s e (k + 1) i = some r ∧ |r - evenly s e (k + 1 : ℕ) i| ≤ max |s| |e| * 2 ^ (-50 : ℤ) + 2 ^ (-1072 : ℤ) :=
    fun i hi => by exact_mod_cast sampleAt_close hs' he' hn2 hn3.le (i := i) (by omega)
  have hx : ∀ i : ℕ, i ≤ k → sampleAt s e (k + 1) i = some ((sampleAt s e (k + 1) i).getD 0) := fun i hi => by
    obtain ⟨r, hr, -⟩ := hcl i hi
    rw [hr]; rfl
  refine ⟨k + 1, (List.range (k + 1)).map fun i => (sampleAt s e (k + 1) i).getD 0, hn, ?_, hn2, by simp, ?_, ?_, ?_⟩
  · unfold sampleInterval
    rw [if_neg hne, hn, Outcome.ok_bind, Outcome.pure_eq, show ((k : Int) + 1).toNat = k + 1 by omega, List.map_map]
    exact congrArg Outcome.ok (List.map_congr_left fun i hi => hx i (by rw [List.mem_range] at hi; omega))
  · rw [List.head?_map, List.head?_range, if_neg (by omega), Option.map_some, sampleAt_first hs hn2]; rfl
  · rw [List.getLast?_map, List.getLast?_range, if_neg (by omega), Option.map_some, Nat.add_sub_cancel,
      sampleAt_last he (by omega) (by omega)]; rfl
  · intro i h
    rw [List.length_map, List.length_range] at h
    obtain ⟨r, hr, hc⟩ := hcl i (by omega)
    rw [List.getElem_map, List.getElem_range, hr]
    exact_mod_cast hc

/-- C75, order: if moreover the even spacing is more than twice the error of a sample, then the samples strictly increase (or, for a
reversed interval, strictly decrease) and hence all lie between the bounds. -/
theorem c75_ordered_partial (s e dt : ℚ) (hs : IsDouble s) (he : IsDouble e) (hne : s ≠ e) (hs' : |s| ≤ 2 ^ 1022) (he' : |e| ≤ 2 ^ 1022) (hdt : 0 < dt)
    (hlo : 2 ^ (-1000 : ℤ) * dt ≤ |e - s|) (hhi : |e - s| ≤ 2 ^ 30 * dt) (n : Int) (hn : numSamples s e dt = .ok n)
    (hstep : 2 * (max |s| |e| * 2 ^ (-50 : ℤ) + 2 ^ (-1072 : ℤ)) < |e - s| / (n - 1)) :
    ∃ xs : List ℚ, sampleInterval s e dt = .ok (xs.map some) ∧
      (s < e → xs.Pairwise (· < ·) ∧ ∀ x ∈ xs, s ≤ x ∧ x ≤ e) ∧ (e < s → xs.Pairwise (· > ·) ∧ ∀ x ∈ xs, e ≤ x ∧ x ≤ s) := by
  obtain ⟨n', xs, hn', hxs, h2, hlen, hhead, hlast, hcl⟩ := c75_samples_partial s e dt hs he hne hs' he' hdt hlo hhi
  obtain rfl : n = n' := Outcome.ok.inj (hn.symm.trans hn')
  refine ⟨xs, hxs, ?_, ?_⟩
  · intro hse
    have hp : xs.Pairwise (· < ·) := by
      rw [List.pairwise_iff_getElem]
      intro i j hi hj hij
      refine ordered_of_close (hcl i hi) (hcl j hj) hstep ?_
      rw [abs_of_pos (by linarith)]
      exact even_step s e h2 hij hse.le
    refine ⟨hp, fun x hx => ?_⟩
    obtain ⟨h1, h3⟩ := between_of_pairwise hp hhead hlast x hx
    exact ⟨h1.elim le_of_eq le_of_lt, h3.elim le_of_eq le_of_lt⟩
  · intro hse
    have hp : xs.Pairwise (· > ·) := by
      rw [List.pairwise_iff_getElem]
      intro i j hi hj hij
      refine ordered_of_close (hcl j hj) (hcl i hi) hstep ?_
      rw [abs_of_neg (by linarith)]
      have := even_step (-s) (-e) h2 hij (by linarith)
      unfold evenly at this ⊢
      linarith [this, show (i : ℚ) * (-e - -s) / (n - 1) = -(i * (e - s) / (n - 1)) by ring,
        show (j : ℚ) * (-e - -s) / (n - 1) = -(j * (e - s) / (n - 1)) by ring, show (-(e - s)) / ((n : ℚ) - 1) = (-e - -s) / (n - 1) by ring]
    refine ⟨hp, fun x hx => ?_⟩
    obtain ⟨h1, h3⟩ := between_of_pairwise hp hhead hlast x hx
    exact ⟨h3.elim (fun h => h.symm.le) le_of_lt, h1.elim (fun h => h.symm.le) le_of_lt⟩

/-- Ten seconds from 5 in steps of 1/10 (that is, of the double below it): the hypotheses of the theorems above hold, and there are 101 samples. -/
example : numSamples 5 15 (3602879701896397 / 2 ^ 55) = .ok 101 ∧ IsDouble 5 ∧ IsDouble 15 ∧
    2 * (max |(5 : ℚ)| |15| * 2 ^ (-50 : ℤ) + 2 ^ (-1072 : ℤ)) < |(15 : ℚ) - 5| / ((101 : Int) - 1) ∧
    2 ^ (-1000 : ℤ) * (3602879701896397 / 2 ^ 55 : ℚ) ≤ |(15 : ℚ) - 5| ∧ |(15 : ℚ) - 5| ≤ 2 ^ 30 * (3602879701896397 / 2 ^ 55 : ℚ) := by
  refine ⟨by decide +kernel, isDouble_mk 5 0 (by norm_num) (by norm_num) (by norm_num) (by norm_num),
    isDouble_mk 15 0 (by norm_num) (by norm_num) (by norm_num) (by norm_num), by decide +kernel, by decide +kernel, by decide +kernel⟩

/-- A sample can lie outside the interval: from -6 to -6 + 2^-50 in steps of 13 * 2^-56 the second sample is -6 - 2^-50. -/
theorem c75_outside : ∃ s e dt : ℚ, IsDouble s ∧ IsDouble e ∧ IsDouble dt ∧ s < e ∧ 0 < dt ∧
    ∃ xs x, sampleInterval s e dt = .ok xs ∧ some x ∈ xs ∧ x < s :=
  ⟨-6, -6 + 2 ^ (-50 : ℤ), 13 * 2 ^ (-56 : ℤ), isDouble_mk (-6) 0 (by norm_num) (by norm_num) (by norm_num) (by norm_num),
    isDouble_mk (-6 * 2 ^ 50 + 1) (-50) (by norm_num) (by norm_num) (by norm_num) (by norm_num), isDouble_mk 13 (-56) (by norm_num) (by norm_num) (by norm_num) (by norm_num), by norm_num, by norm_num,
    [some (-6), some (-6755399441055745 / 2 ^ 50), some (-6), some (-6), some (-6), some (-6 + 2 ^ (-50 : ℤ))], -6755399441055745 / 2 ^ 50,
    by decide +kernel, by simp, by norm_num⟩

/-- The samples can be out of order: from 39 to 39 + 2^-47 in steps of 5 * 2^-53 the tenth of the 14 samples is below the ninth. -/
theorem c75_unordered : ∃ s e dt : ℚ, IsDouble s ∧ IsDouble e ∧ IsDouble dt ∧ s < e ∧ 0 < dt ∧
    ∃ xs x y, sampleInterval s e dt = .ok xs ∧ xs[8]? = some (some x) ∧ xs[9]? = some (some y) ∧ y < x :=
  ⟨39, 39 + 2 ^ (-47 : ℤ), 5 * 2 ^ (-53 : ℤ), isDouble_mk 39 0 (by norm_num) (by norm_num) (by norm_num) (by norm_num),
    isDouble_mk (39 * 2 ^ 47 + 1) (-47) (by norm_num) (by norm_num) (by norm_num) (by norm_num), isDouble_mk 5 (-53) (by norm_num) (by norm_num) (by norm_num) (by norm_num), by norm_num, by norm_num,
    [some 39, some 39, some 39, some 39, some 39, some 39, some 39, some 39, some (39 + 2 ^ (-47 : ℤ)), some 39, some (39 + 2 ^ (-47 : ℤ)),
      some (39 + 2 ^ (-47 : ℤ)), some (39 + 2 ^ (-47 : ℤ)), some (39 + 2 ^ (-47 : ℤ))], 39 + 2 ^ (-47 : ℤ), 39,
    by decide +kernel, rfl, rfl, by norm_num⟩

/-- The step can exceed the one asked for: from 0 to 3 + 2^-50 in steps of 1 + 2^-52 the last step is 1 + 2^-51. -/
theorem c75_step_too_long : ∃ s e dt : ℚ, IsDouble s ∧ IsDouble e ∧ IsDouble dt ∧ s < e ∧ 0 < dt ∧
    ∃ xs x y, sampleInterval s e dt = .ok xs ∧ xs[2]? = some (some x) ∧ xs[3]? = some (some y) ∧ dt < y - x :=
  ⟨0, 3 + 2 ^ (-50 : ℤ), 1 + 2 ^ (-52 : ℤ), isDouble_mk 0 0 (by norm_num) (by norm_num) (by norm_num) (by norm_num),
    isDouble_mk (3 * 2 ^ 50 + 1) (-50) (by norm_num) (by norm_num) (by norm_num) (by norm_num), isDouble_mk (2 ^ 52 + 1) (-52) (by norm_num) (by norm_num) (by norm_num) (by norm_num), by norm_num, by norm_num,
    [some 0, some (4503599627370497 / 2 ^ 52), some (4503599627370497 / 2 ^ 51), some (3 + 2 ^ (-50 : ℤ))], 4503599627370497 / 2 ^ 51, 3 + 2 ^ (-50 : ℤ),
    by decide +kernel, rfl, rfl, by norm_num⟩

/-- If the quotient underflows, the function is called once, with a value that is not a number, although the bounds differ. -/
theorem c75_not_a_number : ∃ s e dt : ℚ, IsDouble s ∧ IsDouble e ∧ IsDouble dt ∧ s ≠ e ∧ 0 < dt ∧ sampleInterval s e dt = .ok [none] :=
  ⟨0, 2 ^ (-1000 : ℤ), 2 ^ (900 : ℤ), isDouble_mk 0 0 (by norm_num) (by norm_num) (by norm_num) (by norm_num),
    isDouble_mk 1 (-1000) (by norm_num) (by norm_num) (by norm_num) (by rw [Int.cast_one, one_mul]),
    isDouble_mk 1 900 (by norm_num) (by norm_num) (by norm_num) (by rw [Int.cast_one, one_mul]),
    (two_zpow_pos _).ne, two_zpow_pos _, by decide +kernel⟩

/-- Two finite bounds can be so far apart that the count is undefined behaviour whatever the step. -/
theorem c75_far_apart : ∃ s e : ℚ, IsDouble s ∧ IsDouble e ∧ ∀ dt, 0 < dt → sampleInterval s e dt = .ub "cast of infinity" := by
  refine ⟨-(2 ^ (1023 : ℤ)), 2 ^ (1023 : ℤ), isDouble_mk (-(2 ^ 52)) 971 (by norm_num) (by norm_num) (by norm_num) (by decide +kernel),
    isDouble_mk (2 ^ 52) 971 (by norm_num) (by norm_num) (by norm_num) (by decide +kernel), fun dt hdt => ?_⟩
  unfold sampleInterval numSamples
  rw [if_neg (by decide +kernel), Outcome.reassert_true hdt, Outcome.ok_bind,
    show finite ((2 : ℚ) ^ (1023 : ℤ) - -(2 ^ (1023 : ℤ))) = none by decide +kernel]
  rfl

/-- The full claim does not hold. -/
theorem c75_false : ¬ C75 := by
  intro h
  obtain ⟨s, e, dt, hs, he, hdt, hne, hpos, hnan⟩ := c75_not_a_number
  obtain ⟨xs, hxs, -⟩ := h s e dt hs he hdt hne hpos
  have := Outcome.ok.inj (hnan.symm.trans hxs)
  have h1 : (none : Option ℚ) ∈ xs.map some := this ▸ List.mem_singleton_self _
  simp at h1

end Verif.Props
