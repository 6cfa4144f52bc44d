import Verif.Proofs.CurveDouble
/-! # C97: queries of time curves in double arithmetic -/
namespace Verif.Props
open Verif.Double Verif.Spec Verif.SampleIntervalDouble

/-- C97.  A curve can be made from controls at the times `ps` (any doubles) exactly if each is less than the next as doubles compare. -/
theorem c97_accepts (ps : List Double) :
    ((TTimes.make ps).IsOk ↔ ∀ (i : Nat) (h : i + 1 < ps.length), lt ps[i] ps[i + 1] = true) ∧
    (¬ (TTimes.make ps).IsOk → TTimes.make ps = .throw "Control points must have strictly increasing time") := by
  have hc : (TTimes.make ps).IsOk ↔ List.IsChain (lt · · = true) ps :=
    ⟨fun ⟨c, h⟩ => ((TTimes.make_iff ps c).mp h).1, fun h => ⟨_, (TTimes.make_iff ps _).mpr ⟨h, rfl⟩⟩⟩
  refine ⟨hc.trans List.isChain_iff_getElem, fun h => TTimes.make_throw ps (fun h' => h (hc.mpr h'))⟩

/-- Infinite times are accepted, equal ones are not. -/
example : (TTimes.make [num 0, num 1, inf false]).IsOk ∧ ¬ (TTimes.make [num 0, num 1, num 1]).IsOk := by
  constructor
  · exact ⟨⟨[num 0, num 1, inf false], [(num 0, num 1), (num 1, inf false)]⟩, by decide +kernel⟩
  · rintro ⟨c, h⟩
    have : TTimes.make [num 0, num 1, num 1] = .throw "Control points must have strictly increasing time" := by decide +kernel
    rw [this] at h
    cases h

/-- C97.  For finite times this means increasing, and a list with a not-a-number in it is refused unless that is the only time. -/
theorem c97_accepts_finite (ts : List ℚ) (ps qs : List Double) :
    ((TTimes.make (ts.map num)).IsOk ↔ ts.Pairwise (· < ·)) ∧ ((TTimes.make (ps ++ nan :: qs)).IsOk ↔ ps = [] ∧ qs = []) := by
  constructor
  · rw [(c97_accepts _).1, ← List.isChain_iff_pairwise, List.isChain_iff_getElem]
    simp [lt]
  · rw [(c97_accepts _).1]
    constructor
    · intro h
      constructor
      · by_contra hp
        have hl : 0 < ps.length := List.length_pos_iff.mpr hp
        have := h (ps.length - 1) (by simp; omega)
        have h2 := (lt_ne_nan this).2
        refine h2 ?_
        rw [List.getElem_append_right (by omega)]
        simp [show ps.length - 1 + 1 - ps.length = 0 by omega]
      · by_contra hq
        have hl : 0 < qs.length := List.length_pos_iff.mpr hq
        have := h ps.length (by simp; omega)
        have h2 := (lt_ne_nan this).1
        refine h2 ?_
        rw [List.getElem_append_right (by omega)]
        simp
    · rintro ⟨rfl, rfl⟩ i hi
      simp at hi

/-- C97.  A query at a time other than not-a-number, infinite ones included, is answered exactly from the first control to the last; otherwise it
throws.  It never reads past the end of the segments. -/
theorem c97_answers (ps : List Double) (c : TTimes) (h : TTimes.make ps = .ok c) (h2 : 2 ≤ ps.length) (t : Double) (ht : t ≠ nan) :
    ((TTimes.query c t).IsOk ↔ le (ps[0]'(by omega)) t = true ∧ le t (ps[ps.length - 1]'(by omega)) = true) ∧
    (¬ (TTimes.query c t).IsOk → TTimes.query c t = .throw "Query time must be within the range of times in the control points.") := by
  obtain ⟨hc, -⟩ := (TTimes.make_iff ps c).mp h
  have hn := lt_ne_nan (TTimes.increasing hc (i := 0) (j := ps.length - 1) (by omega) (by omega))
  rw [TTimes.query_eq h h2 t, ← not_lt_iff ht hn.1, ← not_lt_iff hn.2 ht]
  by_cases hr : lt t (ps[0]'(by omega)) = false ∧ lt (ps[ps.length - 1]'(by omega)) t = false
  · rw [if_pos hr]
    have hi := TTimes.search_in_range h h2 t hr.2
    rw [List.getElem?_eq_getElem (by have := TTimes.pairs_length ps; omega)]
    simp [hr.1, hr.2]
  · rw [if_neg hr]
    exact ⟨by simpa using hr, fun _ => rfl⟩

/-- The time in the middle control is answered from the segment before it. -/
example : TTimes.make [num 0, num (1 / 2), num 3] = .ok ⟨[num 0, num (1 / 2), num 3], [(num 0, num (1 / 2)), (num (1 / 2), num 3)]⟩ ∧
    TTimes.query ⟨[num 0, num (1 / 2), num 3], [(num 0, num (1 / 2)), (num (1 / 2), num 3)]⟩ (num (1 / 2)) = .ok (0, num 2, num 1) := by decide +kernel

/-- C97.  A curve with fewer than two controls answers no query. -/
theorem c97_too_short (ps : List Double) (c : TTimes) (h : TTimes.make ps = .ok c) (h2 : ps.length < 2) (t : Double) :
    TTimes.query c t = .throw "Cannot query a curve with less than two control points" := by
  obtain ⟨-, rfl⟩ := (TTimes.make_iff ps c).mp h
  have : TTimes.pairs ps = [] := List.length_eq_zero_iff.mp (by rw [TTimes.pairs_length]; omega)
  unfold TTimes.query
  rw [Outcome.reassert_false (by simpa using this), Outcome.throw_bind]

/-- C97 fails as stated: not-a-number passes the range check of every curve, and its first segment is evaluated at not-a-number. -/
theorem c97_nan (ps : List Double) (c : TTimes) (h : TTimes.make ps = .ok c) (h2 : 2 ≤ ps.length) :
    ∃ inv, TTimes.query c nan = .ok (0, inv, nan) := by
  have l1 : ∀ a, lt a nan = false := fun a => by cases a <;> rfl
  have l2 : ∀ a, lt nan a = false := fun a => by cases a <;> rfl
  have m : ∀ a, mul a nan = nan := fun a => by cases a <;> rfl
  have lb : ∀ (l : List (Double × Double)) len, lowerBound (fun s : Double × Double => lt s.2 nan) l 0 len = 0 := by
    intro l len
    induction len using Nat.strong_induction_on with
    | _ len ih =>
      rw [lowerBound]
      split
      · rfl
      · dsimp only
        split
        · rfl
        · rw [if_neg (by rw [l1]; simp)]
          exact ih (len / 2) (by omega)
  rw [TTimes.query_eq h h2 nan, if_pos ⟨l2 _, l1 _⟩, lb, List.getElem?_eq_getElem (by rw [TTimes.pairs_length]; omega)]
  simp only [show ∀ a, sub nan a = nan from fun a => rfl, m]
  exact ⟨_, rfl⟩

/-- C97.  A query at a finite time in range finds the first segment that reaches to it; the normalised time handed to the segment is between 0 and
1, within 2^-50 of the exact one, 0 at the start of the segment and at most one unit (2^-53) below 1 at its end; the factor for the derivatives
has a relative error of at most 2^-50.  Steps between controls are those that neither overflow nor become subnormal. -/
theorem c97_fraction_partial (ts : List ℚ) (c : TTimes) (h : TTimes.make (ts.map num) = .ok c) (h2 : 2 ≤ ts.length) (hts : ∀ t ∈ ts, IsDouble t)
    (hstep : ∀ (i : Nat) (hi : i + 1 < ts.length), (2 : ℚ) ^ (-1021 : ℤ) ≤ ts[i + 1] - ts[i] ∧ ts[i + 1] - ts[i] ≤ 2 ^ (1021 : ℤ))
    (x : ℚ) (hx : IsDouble x) (h0 : ts[0] ≤ x) (h1 : x ≤ ts[ts.length - 1]) :
    ∃ (i : Nat) (v y : ℚ) (hi : i + 1 < ts.length), TTimes.query c (num x) = .ok (i, num v, num y) ∧
      ts[i] ≤ x ∧ x ≤ ts[i + 1] ∧ (0 < i → ts[i] < x) ∧ 0 ≤ y ∧ y ≤ 1 ∧ |y - (x - ts[i]) / (ts[i + 1] - ts[i])| ≤ 2 ^ (-50 : ℤ) ∧
      |v - 1 / (ts[i + 1] - ts[i])| ≤ 1 / (ts[i + 1] - ts[i]) * 2 ^ (-50 : ℤ) ∧ (x = ts[i] → y = 0) ∧ (x = ts[i + 1] → 1 - 2 ^ (-53 : ℤ) ≤ y) := by
  obtain ⟨i, v, y, hi, hq, hlo, hup, hlo', y0, y1, ye, ve, z0, z1, -, -, -⟩ := TTimes.query_fraction ts c h h2 hts hstep x hx h0 h1
  have u8 : 8 * u = (2 : ℚ) ^ (-50 : ℤ) := by unfold u; norm_num
  have hp : 0 < 1 / (ts[i + 1] - ts[i]) := by
    have := lo_pos.trans_le (hstep i hi).1
    positivity
  refine ⟨i, v, y, hi, hq, hlo, hup, hlo', y0, y1, by rwa [u8] at ye, ve.trans ?_, z0, z1⟩
  refine mul_le_mul_of_nonneg_left ?_ hp.le
  rw [← u8]
  linarith [u_pos]

/-- Times that meet the conditions. -/
example : ∃ c, TTimes.make ([0, 1 / 2, 3].map num) = .ok c ∧ (∀ t ∈ [(0 : ℚ), 1 / 2, 3], IsDouble t) ∧ IsDouble 1 ∧
    ∀ (i : Nat) (hi : i + 1 < [(0 : ℚ), 1 / 2, 3].length),
      (2 : ℚ) ^ (-1021 : ℤ) ≤ [(0 : ℚ), 1 / 2, 3][i + 1] - [(0 : ℚ), 1 / 2, 3][i] ∧
      [(0 : ℚ), 1 / 2, 3][i + 1] - [(0 : ℚ), 1 / 2, 3][i] ≤ 2 ^ (1021 : ℤ) := by
  refine ⟨⟨[num 0, num (1 / 2), num 3], [(num 0, num (1 / 2)), (num (1 / 2), num 3)]⟩, by decide +kernel, ?_, isDouble_one, ?_⟩
  · simp only [List.forall_mem_cons, List.not_mem_nil, false_imp_iff, implies_true, and_true]
    exact ⟨isDouble_zero, ⟨1, -1, by norm_num, by norm_num, by norm_num, by norm_num⟩, ⟨3, 0, by norm_num, by norm_num, by norm_num, by norm_num⟩⟩
  · have l1 : (2 : ℚ) ^ (-1021 : ℤ) ≤ 2 ^ (-1 : ℤ) := zpow_le_zpow_right₀ (by norm_num) (by norm_num)
    have l2 : (2 : ℚ) ^ (2 : ℤ) ≤ 2 ^ (1021 : ℤ) := zpow_le_zpow_right₀ (by norm_num) (by norm_num)
    generalize (2 : ℚ) ^ (-1021 : ℤ) = a at *
    generalize (2 : ℚ) ^ (1021 : ℤ) = b at *
    norm_num at l1 l2
    intro i hi
    match i, hi with
    | 0, _ => norm_num; constructor <;> linarith
    | 1, _ => norm_num; constructor <;> linarith

/-- C97.  A later query never goes to an earlier segment, and within one segment never gets an earlier normalised time. -/
theorem c97_order_partial (ts : List ℚ) (c : TTimes) (h : TTimes.make (ts.map num) = .ok c) (h2 : 2 ≤ ts.length) (hts : ∀ t ∈ ts, IsDouble t)
    (hstep : ∀ (i : Nat) (hi : i + 1 < ts.length), (2 : ℚ) ^ (-1021 : ℤ) ≤ ts[i + 1] - ts[i] ∧ ts[i + 1] - ts[i] ≤ 2 ^ (1021 : ℤ))
    (x x' : ℚ) (hx : IsDouble x) (hx' : IsDouble x') (h0 : ts[0] ≤ x) (hxx : x ≤ x') (h1 : x' ≤ ts[ts.length - 1])
    {i i' : Nat} {v v' y y' : ℚ} (hq : TTimes.query c (num x) = .ok (i, num v, num y)) (hq' : TTimes.query c (num x') = .ok (i', num v', num y')) :
    i ≤ i' ∧ (i = i' → y ≤ y') :=
  TTimes.query_order ts c h h2 hts hstep x x' hx hx' h0 hxx h1 hq hq'

/-- C97 fails at the end of a segment as stated: with controls 0 and 49 seconds, the normalised time at 49 is the double below 1. -/
theorem c97_end : ∃ c v y, TTimes.make [num 0, num 49] = .ok c ∧ TTimes.query c (num 49) = .ok (0, v, num y) ∧ y = 1 - 2 ^ (-53 : ℤ) := by
  exact ⟨⟨[num 0, num 49], [(num 0, num 49)]⟩, num (round64 (1 / 49)), 1 - 2 ^ (-53 : ℤ), by decide +kernel, by decide +kernel, rfl⟩

/-- C97 fails at extreme steps: with controls 0 and the least positive double, the first control itself cannot be evaluated; with controls so far
apart that their difference overflows, the last cannot. -/
theorem c97_extremes : (∃ c v, TTimes.make [num 0, num (2 ^ (-1074 : ℤ))] = .ok c ∧ TTimes.query c (num 0) = .ok (0, v, nan)) ∧
    (∃ c v, TTimes.make [num (-(2 ^ 1023)), num (2 ^ 1023)] = .ok c ∧ TTimes.query c (num (2 ^ 1023)) = .ok (0, v, nan)) := by
  refine ⟨⟨⟨[num 0, num (2 ^ (-1074 : ℤ))], [(num 0, num (2 ^ (-1074 : ℤ)))]⟩, inf false, by decide +kernel, by decide +kernel⟩,
    ⟨⟨[num (-(2 ^ 1023)), num (2 ^ 1023)], [(num (-(2 ^ 1023)), num (2 ^ 1023))]⟩, num 0, by decide +kernel, by decide +kernel⟩⟩

theorem search_at {ps : List Double} {c : TTimes} (h : TTimes.make ps = .ok c) {t : Double} {i : Nat} (hi : i + 1 < ps.length)
    (h1 : lt ps[i] t = true ∨ i = 0) (h2 : lt ps[i + 1] t = false) (h3 : lt t (ps[0]'(by omega)) = false)
    (h4 : lt (ps[ps.length - 1]'(by omega)) t = false) :
    TTimes.query c t = .ok (i, div (num 1) (sub ps[i + 1] ps[i]), mul (div (num 1) (sub ps[i + 1] ps[i])) (sub t ps[i])) := by
  obtain ⟨hc, -⟩ := (TTimes.make_iff ps c).mp h
  rw [TTimes.query_eq h (by omega) t, if_pos ⟨h3, h4⟩]
  have hl := TTimes.pairs_length ps
  obtain ⟨s1, s2, -⟩ := TTimes.search hc t
  have e : lowerBound (fun s => lt s.2 t) (TTimes.pairs ps) 0 (TTimes.pairs ps).length = i := by
    generalize lowerBound (fun s => lt s.2 t) (TTimes.pairs ps) 0 (TTimes.pairs ps).length = k at *
    rcases lt_trichotomy k i with hk | hk | hk
    · exfalso
      have a1 := s2 (by omega)
      rcases h1 with h1 | h1
      · rcases (show k + 1 ≤ i by omega).eq_or_lt with hk' | hk'
        · simp only [hk', h1] at a1
          cases a1
        · rw [lt_trans' (TTimes.increasing hc hk' (by omega)) h1] at a1
          cases a1
      · omega
    · exact hk
    · exfalso
      have := s1 i hk hi hi
      rw [h2] at this
      cases this
  rw [e, List.getElem?_eq_getElem (by omega), TTimes.pairs_get ps i hi]

/-- C97 at infinite times.  A last control at infinity is accepted: after the last finite control the curve stands still for as long as the elapsed
time is a double, and at infinity itself it is not-a-number.  A first control at minus infinity is accepted too, but then no time up to the second
control can be evaluated. -/
theorem c97_infinite (ts : List ℚ) (c : TTimes) (hne : ts ≠ []) :
    (TTimes.make (ts.map num ++ [inf false]) = .ok c → TTimes.query c (inf false) = .ok (ts.length - 1, num 0, nan) ∧
      ∀ x, ts.getLast hne < x → |round64 (x - ts.getLast hne)| < 2 ^ 1024 → TTimes.query c (num x) = .ok (ts.length - 1, num 0, num 0)) ∧
    (TTimes.make (inf true :: ts.map num) = .ok c → TTimes.query c (inf true) = .ok (0, num 0, nan) ∧
      ∀ x, x ≤ ts.head hne → TTimes.query c (num x) = .ok (0, num 0, nan)) := by
  have hl : 0 < ts.length := List.length_pos_iff.mpr hne
  have z : ofExact 0 = num 0 := by decide +kernel
  constructor
  · intro h
    have g1 : (ts.map num ++ [inf false])[ts.length - 1]'(by simp) = num (ts.getLast hne) := by
      rw [List.getElem_append_left (by simp; omega), List.getElem_map, List.getLast_eq_getElem]
    have g2 : (ts.map num ++ [inf false])[ts.length - 1 + 1]'(by simp; omega) = inf false := by
      rw [List.getElem_append_right (by simp; omega)]
      simp
    have g3 : (ts.map num ++ [inf false])[(ts.map num ++ [inf false]).length - 1]'(by simp) = inf false := by
      rw [List.getElem_append_right (by simp)]
      simp
    have g0 : ∃ q, (ts.map num ++ [inf false])[0]'(by simp) = num q := ⟨ts[0], by rw [List.getElem_append_left (by simp; omega), List.getElem_map]⟩
    obtain ⟨q, g0⟩ := g0
    constructor
    · rw [search_at h (i := ts.length - 1) (t := inf false) (by simp; omega) (by rw [g1]; exact .inl rfl) (by rw [g2]; rfl) (by rw [g0]; rfl) (by rw [g3]; rfl), g1, g2]
      rfl
    · intro x hx hb
      have hq : q ≤ ts.getLast hne := by
        obtain ⟨hc, -⟩ := (TTimes.make_iff _ c).mp h
        rcases Nat.eq_zero_or_pos (ts.length - 1) with h0 | h0
        · simp only [h0] at g1
          rw [g0] at g1
          exact (Double.num.inj g1).le
        · have := TTimes.increasing hc h0 (by simp)
          rw [g0, g1] at this
          exact (of_decide_eq_true this).le
      rw [search_at h (i := ts.length - 1) (t := num x) (by simp; omega) (by rw [g1]; exact .inl (decide_eq_true hx)) (by rw [g2]; rfl)
        (by rw [g0]; exact decide_eq_false (by linarith)) (by rw [g3]; rfl), g1, g2]
      change Outcome.ok (_, num 0, mul (num 0) (ofExact (x - ts.getLast hne))) = _
      rw [ofExact_num hb]
      change Outcome.ok (_, num 0, ofExact (0 * _)) = _
      rw [zero_mul, z]
  · intro h
    obtain ⟨a, as, rfl⟩ := List.exists_cons_of_ne_nil hne
    obtain ⟨hc, -⟩ := (TTimes.make_iff _ c).mp h
    have hlast : ∃ q, (inf true :: (a :: as).map num)[(inf true :: (a :: as).map num).length - 1]'(by simp) = num q ∧ a ≤ q := by
      have hm : (num a :: as.map num)[as.length]'(by simp) = num ((a :: as)[as.length]'(by simp)) := by
        have := List.getElem_map num (l := a :: as) (i := as.length) (h := by simp)
        simpa only [List.map_cons] using this
      refine ⟨(a :: as)[as.length], by simpa using hm, ?_⟩
      rcases Nat.eq_zero_or_pos as.length with h0 | h0
      · simp [h0]
      · have := TTimes.increasing hc (i := 1) (j := as.length + 1) (by omega) (by simp)
        simp only [List.map_cons, List.getElem_cons_succ, List.getElem_cons_zero] at this
        rw [hm] at this
        exact (of_decide_eq_true this).le
    obtain ⟨q, g3, hq⟩ := hlast
    constructor
    · rw [search_at h (i := 0) (t := inf true) (by simp) (.inr rfl) rfl rfl (by rw [g3]; rfl)]
      rfl
    · intro x hx
      simp only [List.head_cons] at hx
      rw [search_at h (i := 0) (t := num x) (by simp) (.inr rfl) (decide_eq_false (by linarith)) rfl (by rw [g3]; exact decide_eq_false (by linarith))]
      rfl

/-- Standing still at 2 seconds between controls at 1 second and at infinity. -/
example : ∃ c, TTimes.make [num 0, num 1, inf false] = .ok c ∧ TTimes.query c (num 2) = .ok (1, num 0, num 0) := by
  refine ⟨⟨[num 0, num 1, inf false], [(num 0, num 1), (num 1, inf false)]⟩, by decide +kernel, ?_⟩
  exact ((c97_infinite [0, 1] _ (by simp)).1 (by decide +kernel)).2 2 (by norm_num) (by decide +kernel)

/-- C97.  For trajectories nothing extreme happens: whatever 64-bit counts of nanoseconds the controls and the query are at, if the curve accepts
the controls (their times in seconds increase), a query in range gets a normalised time between 0 and 1, within 2^-50 of the exact one. -/
theorem c97_trajectory (ds : List ℤ) (c : TTimes) (h : TTimes.make (ds.map fun d => num (Binary64.asSeconds d)) = .ok c) (h2 : 2 ≤ ds.length)
    (hds : ∀ d ∈ ds, InI64 d) (t : ℤ) (ht : InI64 t) (h0 : Binary64.asSeconds ds[0] ≤ Binary64.asSeconds t)
    (h1 : Binary64.asSeconds t ≤ Binary64.asSeconds ds[ds.length - 1]) :
    ∃ (i : Nat) (v y : ℚ) (_ : i + 1 < ds.length), TTimes.query c (num (Binary64.asSeconds t)) = .ok (i, num v, num y) ∧
      Binary64.asSeconds ds[i] ≤ Binary64.asSeconds t ∧ (0 < i → Binary64.asSeconds ds[i] < Binary64.asSeconds t) ∧
      Binary64.asSeconds t ≤ Binary64.asSeconds ds[i + 1] ∧ 0 ≤ y ∧ y ≤ 1 ∧
      |y - (Binary64.asSeconds t - Binary64.asSeconds ds[i]) / (Binary64.asSeconds ds[i + 1] - Binary64.asSeconds ds[i])| ≤ 2 ^ (-50 : ℤ) := by
  have hm : (ds.map fun d => num (Binary64.asSeconds d)) = (ds.map Binary64.asSeconds).map num := by rw [List.map_map]; rfl
  rw [hm] at h
  have hp := (c97_accepts_finite (ds.map Binary64.asSeconds) [] []).1.mp ⟨c, h⟩
  rw [← List.isChain_iff_pairwise, List.isChain_iff_getElem] at hp
  obtain ⟨i, v, y, hi, hq, hlo, hup, hlo', y0, y1, ye, -⟩ := TTimes.query_fraction (ds.map Binary64.asSeconds) c h (by simpa using h2)
    (fun t ht => by
      obtain ⟨d, hd, rfl⟩ := List.mem_map.mp ht
      exact (asSeconds_multiple (hds d hd)).1)
    (fun i hi => by
      have hlt := hp i hi
      simp only [List.getElem_map] at hlt ⊢
      exact asSeconds_step (hds _ (List.getElem_mem _)) (hds _ (List.getElem_mem _)) hlt)
    (Binary64.asSeconds t) (asSeconds_multiple ht).1 (by simpa using h0) (by simpa using h1)
  simp only [List.getElem_map] at hlo hup hlo' ye
  refine ⟨i, v, y, by simpa using hi, hq, hlo, hlo', hup, y0, y1, by
    rwa [show 8 * u = (2 : ℚ) ^ (-50 : ℤ) by unfold u; norm_num] at ye⟩

/-- A trajectory with controls at 0, 15 ns and 1 s. -/
example : (TTimes.make ([0, 15, 1000000000].map fun d => num (Binary64.asSeconds d))).IsOk :=
  ⟨⟨[num 0, num (Binary64.asSeconds 15), num 1], [(num 0, num (Binary64.asSeconds 15)), (num (Binary64.asSeconds 15), num 1)]⟩, by decide +kernel⟩

/-! # C98: queries of distance curves in double arithmetic -/

/-- C98.  For lengths that are any doubles, a query is answered exactly if there are at least two poses and the distance is at least 0 and at most
the length of the curve; anything else, not-a-number included, throws. -/
theorem c98_answers (lens : List Double) (arc : Double) :
    ((DLengths.query (DLengths.make lens) arc).IsOk ↔
      lens ≠ [] ∧ le (num 0) arc = true ∧ le arc (DLengths.curveLength (DLengths.make lens)) = true) ∧
    (¬ (DLengths.query (DLengths.make lens) arc).IsOk → (DLengths.query (DLengths.make lens) arc).IsThrow) := by
  rw [DLengths.arcs_last, DLengths.query_eq]
  by_cases h : le (num 0) arc = true ∧ le arc ((DLengths.arcs lens)[lens.length]'(by simp [DLengths.arcs])) = true ∧ lens ≠ []
  · rw [if_pos h]
    obtain ⟨i, hi, f0, -, -⟩ := DLengths.find_in_range lens arc h.2.1 h.2.2
    rw [f0, List.getElem?_eq_getElem (by
      have := TTimes.pairs_length (DLengths.arcs lens); rw [DLengths.arcs_length] at this; omega)]
    exact ⟨⟨fun _ => ⟨h.2.2, h.1, h.2.1⟩, fun _ => ⟨_, rfl⟩⟩, fun h' => absurd ⟨_, rfl⟩ h'⟩
  · rw [if_neg h]
    have ht : ∀ o : Outcome (Nat × Double), o.IsThrow → (o.IsOk ↔
        lens ≠ [] ∧ le (num 0) arc = true ∧ le arc ((DLengths.arcs lens)[lens.length]'(by simp [DLengths.arcs])) = true) ∧ (¬ o.IsOk → o.IsThrow) :=
      fun o ho => by
        refine ⟨⟨fun ⟨v, hv⟩ => ?_, fun h' => absurd ⟨h'.2.1, h'.2.2, h'.1⟩ h⟩, fun _ => ho⟩
        obtain ⟨m, hm⟩ := ho
        rw [hv] at hm
        cases hm
    apply ht
    split
    · exact ⟨_, rfl⟩
    · split
      · exact ⟨_, rfl⟩
      · exact ⟨_, rfl⟩

/-- C98.  The distances of the poses along the curve start at 0 and never fall, and each is within a relative error of (1 + 2^-53)^k - 1 of the exact
sum of the k lengths before it, unless they overflow. -/
theorem c98_lengths (ls as : List ℚ) (hls : ∀ l ∈ ls, IsDouble l ∧ 0 ≤ l) (h : (DLengths.make (ls.map num)).controls = as.map num) :
    ∃ _ : as.length = ls.length + 1, as[0] = 0 ∧ (∀ (i : Nat) (_ : i + 1 < as.length), as[i] ≤ as[i + 1]) ∧
      ∀ (k : Nat) (_ : k < as.length), |as[k] - (ls.take k).sum| ≤ ((1 + 2 ^ (-53 : ℤ)) ^ k - 1) * (ls.take k).sum := by
  rw [DLengths.make_eq] at h
  obtain ⟨hl, h0, -, -, hm⟩ := DLengths.finite_arcs ls as hls h
  exact ⟨hl, h0, hm, fun k hk => DLengths.sum_error ls as hls h k hk⟩

/-- A curve with a length of 1 + 1/2 and a pose twice in its middle. -/
example : (DLengths.make ([1, 0, 1 / 2].map num)).controls = [0, 1, 1, 3 / 2].map num := by decide +kernel

/-- C98.  A query at a finite distance on the curve finds the first segment that reaches to it, and unless that is the first one and it has no length,
the fraction of the segment is between 0 and 1, within 2^-50 of the exact one, exactly 0 at the start and exactly 1 at the end. -/
theorem c98_fraction_partial (ls as : List ℚ) (hls : ∀ l ∈ ls, IsDouble l ∧ 0 ≤ l) (h : (DLengths.make (ls.map num)).controls = as.map num)
    (hne : ls ≠ []) (hl : as.length = ls.length + 1) (x : ℚ) (hx : IsDouble x) (h0 : 0 ≤ x) (h1 : x ≤ as[ls.length])
    (hpos : 0 < x ∨ 0 < ls[0]'(List.length_pos_iff.mpr hne)) :
    ∃ (i : Nat) (y : ℚ) (_ : i < ls.length), DLengths.query (DLengths.make (ls.map num)) (num x) = .ok (i, num y) ∧
      as[i] ≤ x ∧ x ≤ as[i + 1] ∧ (0 < i → as[i] < x) ∧ as[i] < as[i + 1] ∧ 0 ≤ y ∧ y ≤ 1 ∧
      |y - (x - as[i]) / (as[i + 1] - as[i])| ≤ 2 ^ (-50 : ℤ) ∧ (x = as[i] → y = 0) ∧ (x = as[i + 1] → y = 1) := by
  rw [DLengths.make_eq] at h
  obtain ⟨i, hi, hq, hlo, hup, hlo'⟩ := DLengths.query_fraction ls as hls h hne x h0 hl h1
  obtain ⟨hl', z, hs, -, -⟩ := DLengths.finite_arcs ls as hls h
  have hlt : as[i] < as[i + 1] := by
    rcases Nat.eq_zero_or_pos i with hz | hz
    · subst hz
      rcases hpos with hp | hp
      · rw [z]
        exact hp.trans_le hup
      · rw [hs 0 hi, z, zero_add, round64_double (hls _ (List.getElem_mem _)).1]
        exact hp
    · exact (hlo' hz).trans_le hup
  obtain ⟨y, e, y0, y1, ye, z0, z1, -⟩ := DLengths.query_num ls as hls h x hx i (by omega) hlo hup hlt
  rw [e] at hq
  exact ⟨i, y, hi, hq, hlo, hup, hlo', hlt, y0, y1, by rwa [show 8 * u = (2 : ℚ) ^ (-50 : ℤ) by unfold u; norm_num] at ye, z0, z1⟩

/-- C98 fails as stated exactly where the first segment has no length: the fraction at distance 0 is then not-a-number. -/
theorem c98_nan (ls as : List ℚ) (hls : ∀ l ∈ ls, IsDouble l ∧ 0 ≤ l) (h : (DLengths.make (ls.map num)).controls = as.map num)
    (hne : ls ≠ []) (hl : as.length = ls.length + 1) (x : ℚ) (hx : IsDouble x) (h0 : 0 ≤ x) (h1 : x ≤ as[ls.length]) :
    (∃ i, DLengths.query (DLengths.make (ls.map num)) (num x) = .ok (i, nan)) ↔ x = 0 ∧ ls[0]'(List.length_pos_iff.mpr hne) = 0 := by
  constructor
  · rintro ⟨i, hq⟩
    by_contra hn
    have hl0 := (hls _ (List.getElem_mem (List.length_pos_iff.mpr hne))).2
    have hpos : 0 < x ∨ 0 < ls[0]'(List.length_pos_iff.mpr hne) := by
      by_contra hno
      rw [not_or, not_lt, not_lt] at hno
      exact hn ⟨le_antisymm hno.1 h0, le_antisymm hno.2 hl0⟩
    obtain ⟨j, y, -, e, -⟩ := c98_fraction_partial ls as hls h hne hl x hx h0 h1 hpos
    rw [e] at hq
    cases hq
  · rintro ⟨rfl, hz⟩
    rw [DLengths.make_eq] at h
    obtain ⟨i, hi, hq, hlo, hup, hlo'⟩ := DLengths.query_fraction ls as hls h hne 0 h0 hl h1
    obtain ⟨hl', z, hs, -, -⟩ := DLengths.finite_arcs ls as hls h
    have hi0 : i = 0 := by
      by_contra hne0
      have a := hlo' (by omega)
      have b := DLengths.arcs_mono ls as hls h (i := 0) (j := i) (by omega) (by omega)
      rw [z] at b
      linarith
    subst hi0
    have e1 : as[0 + 1] = 0 := by rw [hs 0 hi, z, hz, zero_add, round64_zero]
    rw [e1, z, DLengths.query_zero_length] at hq
    exact ⟨0, hq⟩

/-- Two equal poses at the start. -/
example : DLengths.query (DLengths.make [num 0, num 1]) (num 0) = .ok (0, nan) := by decide +kernel

/-- C98.  A query further along never goes to an earlier segment, and within one segment never gets a smaller fraction. -/
theorem c98_order (ls as : List ℚ) (hls : ∀ l ∈ ls, IsDouble l ∧ 0 ≤ l) (h : (DLengths.make (ls.map num)).controls = as.map num)
    (hne : ls ≠ []) (hl : as.length = ls.length + 1) (x x' : ℚ) (hx : IsDouble x) (hx' : IsDouble x') (h0 : 0 ≤ x) (hxx : x ≤ x')
    (h1 : x' ≤ as[ls.length]) {i i' : Nat} {y y' : ℚ} (hq : DLengths.query (DLengths.make (ls.map num)) (num x) = .ok (i, num y))
    (hq' : DLengths.query (DLengths.make (ls.map num)) (num x') = .ok (i', num y')) :
    i ≤ i' ∧ (i = i' → y ≤ y') := by
  rw [DLengths.make_eq] at h
  obtain ⟨j, hj, e, a1, a2, a3⟩ := DLengths.query_fraction ls as hls h hne x h0 hl (hxx.trans h1)
  obtain ⟨j', hj', e', b1, b2, b3⟩ := DLengths.query_fraction ls as hls h hne x' (h0.trans hxx) hl h1
  rw [e] at hq
  rw [e'] at hq'
  injection hq with hq
  injection hq' with hq'
  injection hq with q1 q2
  injection hq' with q1' q2'
  subst q1 q1'
  constructor
  · by_contra hlt
    have := DLengths.arcs_mono ls as hls h (i := j' + 1) (j := j) (by omega) (by omega)
    exact absurd (a3 (by omega)) (by linarith)
  · rintro rfl
    have hlt : as[j] < as[j + 1] := by
      refine lt_of_le_of_ne (a1.trans a2) fun heq => ?_
      have : x = as[j] := le_antisymm (heq ▸ a2) a1
      rw [← heq, this, DLengths.query_zero_length] at q2
      cases q2
    obtain ⟨z, f, -, -, -, -, -, g⟩ := DLengths.query_num ls as hls h x hx j (by omega) a1 a2 hlt
    obtain ⟨z', f', -, -, -, -, -, g'⟩ := DLengths.query_num ls as hls h x' hx' j (by omega) b1 b2 hlt
    rw [f] at q2
    rw [f'] at q2'
    injection q2 with q2
    injection q2' with q2'
    rw [← q2, ← q2', g, g']
    exact round64_mono (div_le_div_of_nonneg_right (round64_mono (by linarith)) (round64_nonneg (by linarith)))

/-- Queries on this curve: the pose that is twice in its middle is answered from the segment before it. -/
example : DLengths.query (DLengths.make [num 1, num 0, num (1 / 2)]) (num 1) = .ok (0, num 1) ∧
    DLengths.query (DLengths.make [num 1, num 0, num (1 / 2)]) (num (5 / 4)) = .ok (2, num (1 / 2)) := by decide +kernel

/-- C98.  A segment after the first whose length is lost in the rounded sum is never evaluated: no query at all returns it. -/
theorem c98_absorbed (lens : List Double) (i : Nat) (hi : 0 < i) (hi2 : i < lens.length)
    (h : (DLengths.make lens).controls[i]? = (DLengths.make lens).controls[i + 1]?) (arc f : Double) :
    DLengths.query (DLengths.make lens) arc ≠ .ok (i, f) := by
  rw [DLengths.query_eq]
  rw [DLengths.make_eq] at h
  rw [List.getElem?_eq_getElem (by rw [DLengths.arcs_length]; omega), List.getElem?_eq_getElem (by rw [DLengths.arcs_length]; omega)] at h
  injection h with h
  split
  · next hr =>
    obtain ⟨j, hj, f0, f1, f2⟩ := DLengths.find_in_range lens arc hr.2.1 hr.2.2
    rw [f0, List.getElem?_eq_getElem (by
      have := TTimes.pairs_length (DLengths.arcs lens); rw [DLengths.arcs_length] at this; omega)]
    intro heq
    injection heq with heq
    injection heq with e1 e2
    subst e1
    have := f2 (j - 1) (by omega)
    simp only [show j - 1 + 1 = j by omega] at this
    rw [h, f1] at this
    cases this
  · intro heq
    split at heq
    · cases heq
    · split at heq <;> cases heq

/-- The second segment of this curve is 1 long and cannot be reached. -/
example : (DLengths.make [num (2 ^ 60), num 1, num 5]).controls[1]? = (DLengths.make [num (2 ^ 60), num 1, num 5]).controls[2]? := by decide +kernel

/-! ## Instances of the theorems above -/

/-- `c97_too_short` on a curve with one control. -/
example : ∃ c, TTimes.make [num 3] = .ok c ∧ TTimes.query c (num 3) = .throw "Cannot query a curve with less than two control points" := by
  have h : TTimes.make [num 3] = .ok ⟨[num 3], []⟩ := by decide +kernel
  exact ⟨_, h, c97_too_short _ _ h (by decide) _⟩

/-- `c97_nan` on the curve of three controls. -/
example : ∃ c inv, TTimes.make ([0, 1 / 2, 3].map num) = .ok c ∧ TTimes.query c nan = .ok (0, inv, nan) := by
  have h : TTimes.make ([0, 1 / 2, 3].map num) = .ok ⟨[num 0, num (1 / 2), num 3], [(num 0, num (1 / 2)), (num (1 / 2), num 3)]⟩ := by decide +kernel
  obtain ⟨inv, hi⟩ := c97_nan _ _ h (by decide)
  exact ⟨_, inv, h, hi⟩

/-- `c98_answers` and `c98_fraction_partial` in the middle of the last of three segments, the second of which has no length. -/
example : (DLengths.query (DLengths.make [num 1, num 0, num (1 / 2)]) (num (5 / 4))).IsOk ∧
    ¬ (DLengths.query (DLengths.make [num 1, num 0, num (1 / 2)]) (num 2)).IsOk ∧
    ¬ (DLengths.query (DLengths.make [num 1, num 0, num (1 / 2)]) nan).IsOk :=
  ⟨(c98_answers _ _).1.mpr (by decide +kernel), fun h => absurd ((c98_answers _ _).1.mp h) (by decide +kernel),
    fun h => absurd ((c98_answers _ _).1.mp h) (by decide +kernel)⟩

example : ∃ (i : Nat) (y : ℚ), DLengths.query (DLengths.make ([1, 0, 1 / 2].map num)) (num (5 / 4)) = .ok (i, num y) ∧ 0 ≤ y ∧ y ≤ 1 := by
  obtain ⟨i, y, -, h, -, -, -, -, h0, h1, -⟩ := c98_fraction_partial [1, 0, 1 / 2] [0, 1, 1, 3 / 2] (by
      simp only [List.forall_mem_cons, List.not_mem_nil, false_imp_iff, implies_true, and_true]
      exact ⟨⟨isDouble_one, by norm_num⟩, ⟨isDouble_zero, le_rfl⟩, ⟨1, -1, by norm_num, by norm_num, by norm_num, by norm_num⟩, by norm_num⟩)
    (by decide +kernel) (by decide) rfl (5 / 4) ⟨5, -2, by norm_num, by norm_num, by norm_num, by norm_num⟩ (by norm_num)
    (by simp only [List.length_cons, List.length_nil, Nat.zero_add, Nat.reduceAdd, List.getElem_cons_succ, List.getElem_cons_zero]; norm_num)
    (.inl (by norm_num))
  exact ⟨i, y, h, h0, h1⟩

end Verif.Props
