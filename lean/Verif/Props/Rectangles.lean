import Verif.Model.TimeExample
import Verif.Proofs.Rectangles
import Verif.Props.SampleInterval
import Verif.Props.SampleIntervalReal
/-! # C87: the documented left-rectangle recipe approximates the integral -/
namespace Verif.Props
open Verif.SafeInt Verif.Spec Verif.SampleInterval Verif.TimeExample MeasureTheory

theorem toInt32_small {n : Int} (h0 : 0 ≤ n) (h : n ≤ 2147483647) : toInt32 n = n := by
  unfold toInt32; omega

/-- The samples of a completed call. -/
theorem calls_closed {start stop dt n : Int} (hs : InI64 start) (he : InI64 stop) (hd : InI64 dt)
    (hne : start ≠ stop) (hok : (sampleInterval start stop dt).result = .ok ()) (hn : numSamples start stop dt = .ok n) :
    Params start (stop - start) (n - 1) ∧ LeastCount |stop - start| dt n ∧
    (sampleInterval start stop dt).calls = (List.range n.toNat).map (fun l => start + offset (stop - start) (n - 1) l) := by
  obtain ⟨P, hdt, l, hp⟩ := params_of_ok hs he hd hne hn
  refine ⟨P, l, ?_⟩
  rcases run_cases hs he hd hne hn with ⟨k, msg, _, _, e, _⟩ | ⟨e, _⟩ | ⟨e, _⟩
  · rw [e] at hok; cases hok
  · rw [e]
  · rw [e] at hok; cases hok

/-- Least counts never ask for more steps than the interval has nanoseconds. -/
theorem count_le {len dt n : Int} (hlen : 0 < len) (hdt : 0 < dt) (l : LeastCount len dt n) : n - 1 ≤ len := by
  have := l.least (len + 1) (by omega) (by unfold StepsFit; nlinarith)
  omega

/-- Distance of the offsets from the ideal positions. -/
theorem offset_near (T m : Int) (hm : 0 < m) (i : Nat) :
    (0 ≤ T → 2 * |m * offset T m i - i * T| ≤ m) ∧
    (T < 0 → 0 ≤ m * offset T m i - i * T ∧ m * offset T m i - i * T < m) := by
  constructor
  · intro hT
    unfold offset
    rw [if_pos hT]
    set z := (2 * (i * T) + m) / (2 * m) with hz
    have h1 : z * (2 * m) ≤ 2 * (i * T) + m := Int.ediv_mul_le _ (by omega)
    have h2 : 2 * (i * T) + m < (z + 1) * (2 * m) := Int.lt_ediv_add_one_mul_self _ (by omega)
    have : |m * z - i * T| = |i * T - m * z| := abs_sub_comm _ _
    rcases abs_cases (m * z - i * T) with ⟨e, _⟩ | ⟨e, _⟩ <;> rw [e] <;> nlinarith
  · intro hT
    unfold offset
    rw [if_neg (by omega)]
    set z := (i * -T) / m with hz
    have h1 : z * m ≤ i * -T := Int.ediv_mul_le _ (by omega)
    have h2 : i * -T < (z + 1) * m := Int.lt_ediv_add_one_mul_self _ (by omega)
    constructor <;> nlinarith

/-- Only the last sample is the end of the interval. -/
theorem offset_ne_end (T m : Int) (hm : 0 < m) (hmT : m ≤ |T|) (i : Nat) (hi : (i : Int) < m) : offset T m i ≠ T := by
  intro hc
  obtain ⟨h1, h2⟩ := offset_near T m hm i
  rw [hc] at h1 h2
  rcases le_or_gt 0 T with hT | hT
  · have := h1 hT
    rw [abs_of_nonneg hT] at hmT
    have e : m * T - i * T = (m - i) * T := by ring
    have h3 : T ≤ (m - i) * T := by nlinarith
    rw [e, abs_of_nonneg (by linarith)] at this
    omega
  · have := (h2 hT).1
    have e : m * T - i * T = (m - i) * T := by ring
    rw [e] at this
    nlinarith

theorem filter_not_end {start stop n : Int} (hn : 2 ≤ n) (hm : n - 1 ≤ |stop - start|) :
    ((List.range n.toNat).map (fun l => start + offset (stop - start) (n - 1) l)).filter (· ≠ stop) =
      (List.range (n - 1).toNat).map (fun l => start + offset (stop - start) (n - 1) l) := by
  obtain ⟨k, hk⟩ : ∃ k : Nat, (n - 1) = k := ⟨(n - 1).toNat, by omega⟩
  have e1 : n.toNat = k + 1 := by omega
  have e2 : (n - 1).toNat = k := by omega
  rw [e1, e2, List.range_succ, List.map_append, List.filter_append, List.map_singleton,
    offset_last _ _ (by omega) k hk.symm]
  have h1 : [start + (stop - start)].filter (· ≠ stop) = [] := by simp
  rw [h1, List.append_nil, List.filter_eq_self]
  intro x hx
  simp only [List.mem_map, List.mem_range] at hx
  obtain ⟨i, hi, rfl⟩ := hx
  have := offset_ne_end (stop - start) (n - 1) (by omega) hm i (by omega)
  simp only [ne_eq, decide_not, Bool.not_eq_eq_eq_not, Bool.not_true, decide_eq_false_iff_not]
  omega

/-- What the recipe computes: the sum over all samples but the last, times the length of the interval over the number of steps. -/
theorem leftRectangles_eq (f : Int → ℝ) {start stop dt : Int} (hs : InI64 start) (he : InI64 stop) (hd : InI64 dt)
    (hdt : 0 < dt) (hne : start ≠ stop) (hshort : |stop - start| < 2 ^ 62) :
    ∃ m : Nat, 0 < m ∧ numSamples start stop dt = .ok (m + 1) ∧ |stop - start| ≤ m * dt ∧
      (∀ k : Int, 0 < k → |stop - start| ≤ k * dt → m ≤ k) ∧
      leftRectangles f start stop dt = (intPred (toInt32 (m + 1)) >>= fun k =>
        .ok ((∑ i ∈ Finset.range m, f (start + offset (stop - start) m i)) *
          (((stop - start : Int) : ℝ) / 1000000000 / (k : ℝ)))) := by
  have hok := c06_completes_partial start stop dt hs he hd hdt hshort
  obtain ⟨n, hn⟩ : ∃ n, numSamples start stop dt = .ok n := ⟨_, (c04_sample_interval_walks start stop dt hs he hd hne hok).2⟩
  obtain ⟨P, l, e⟩ := calls_closed hs he hd hne hok hn
  have h2 := l.two
  have hpos : 0 < |stop - start| := abs_pos.mpr (by omega)
  have hm := count_le hpos hdt l
  obtain ⟨m, hmm⟩ : ∃ m : Nat, n - 1 = m := ⟨(n - 1).toNat, by omega⟩
  have en : n = (m : Int) + 1 := by omega
  refine ⟨m, by omega, by rw [hn, en], ?_, ?_, ?_⟩
  · have := l.fits; unfold StepsFit at this; rwa [hmm] at this
  · intro k hk hf
    have := l.least (k + 1) (by omega) (by unfold StepsFit; simpa using hf)
    omega
  · unfold leftRectangles
    simp only [hok, Outcome.ok_bind, hn]
    rw [e, filter_not_end h2 hm, hmm]
    have : (m : Int).toNat = m := by omega
    rw [this, List.map_map, Rectangles.list_sum_range, en]
    rfl

/-- C87.  The recipe of the documentation, for a quantity `F` of time in seconds with Lipschitz constant `L` on the interval: if the
count fits in the `int` the recipe stores it in, the result differs from the integral of `F` by at most `L` times the length of the
interval times half of the requested step plus half a nanosecond (a whole one for backward intervals), all in seconds.
Backward intervals give the integral with the opposite sign, as `∫` does. -/
theorem c87_timestamps (F : ℝ → ℝ) (L : ℝ) (start stop dt : Int) (hs : InI64 start) (he : InI64 stop) (hd : InI64 dt)
    (hdt : 0 < dt) (hne : start ≠ stop) (hshort : |stop - start| < 2 ^ 62) (hfit : |stop - start| ≤ 2147483646 * dt)
    (hL : 0 ≤ L) (hF : ∀ x ∈ Set.uIcc (start / 1e9 : ℝ) (stop / 1e9), ∀ y ∈ Set.uIcc (start / 1e9 : ℝ) (stop / 1e9),
      |F x - F y| ≤ L * |x - y|) :
    ∃ I : ℝ, leftRectangles (fun t => F (t / 1e9)) start stop dt = .ok I ∧
      |I - ∫ s in (start / 1e9 : ℝ)..(stop / 1e9), F s| ≤
        L * (|(stop : ℝ) - start| / 1e9) * (dt / 1e9 / 2 + (if start < stop then 1 / 2 else 1) / 1e9) := by
  obtain ⟨m, hm, -, hle, hleast, e⟩ := leftRectangles_eq (fun t => F (t / 1e9)) hs he hd hdt hne hshort
  have hmk := hleast 2147483646 (by norm_num) hfit
  have e1 : toInt32 ((m : Int) + 1) = m + 1 := toInt32_small (by omega) (by omega)
  have e2 : intPred ((m : Int) + 1) = .ok m := by unfold intPred; rw [if_neg (by omega)]; simp
  rw [e1, e2, Outcome.ok_bind] at e
  refine ⟨_, e, ?_⟩
  have hm' : (0 : ℝ) < m := by exact_mod_cast hm
  have hmI : (0 : Int) < m := by exact_mod_cast hm
  have hdist : ∀ i : Nat, |((start + offset (stop - start) m i : Int) : ℝ) / 1e9 -
      (start / 1e9 + i * ((stop / 1e9 - start / 1e9) / m))| ≤ (if start < stop then 1 / 2 else 1) / 1e9 := by
    intro i
    have e3 : ((start + offset (stop - start) m i : Int) : ℝ) / 1e9 - (start / 1e9 + i * ((stop / 1e9 - start / 1e9) / m)) =
        ((m * offset (stop - start) m i - i * (stop - start) : Int) : ℝ) / m / 1e9 := by
      push_cast; field_simp; ring
    rw [e3, abs_div, abs_of_pos (by norm_num : (0 : ℝ) < 1e9)]
    refine div_le_div_of_nonneg_right ?_ (by norm_num)
    rw [abs_div, abs_of_pos hm', div_le_iff₀ hm', ← Int.cast_abs]
    obtain ⟨h1, h2⟩ := offset_near (stop - start) m hmI i
    split_ifs with hlt
    · have := h1 (by omega)
      have : (2 : ℝ) * ((|m * offset (stop - start) m i - i * (stop - start)| : Int) : ℝ) ≤ m := by exact_mod_cast this
      linarith
    · have := h2 (by omega)
      rw [abs_of_nonneg this.1, one_mul]
      exact_mod_cast this.2.le
  have hin : ∀ i < m, ((start + offset (stop - start) m i : Int) : ℝ) / 1e9 ∈ Set.uIcc (start / 1e9 : ℝ) (stop / 1e9) := by
    intro i hi
    have hb := offset_between (stop - start) m hmI i (by omega)
    rw [Set.mem_uIcc]
    rcases le_total start stop with hc | hc
    · left
      have h := hb.1 (by omega)
      constructor <;> refine div_le_div_of_nonneg_right ?_ (by norm_num)
      · exact_mod_cast (by omega : start ≤ start + offset (stop - start) m i)
      · exact_mod_cast (by omega : start + offset (stop - start) m i ≤ stop)
    · right
      have h := hb.2 (by omega)
      constructor <;> refine div_le_div_of_nonneg_right ?_ (by norm_num)
      · exact_mod_cast (by omega : stop ≤ start + offset (stop - start) m i)
      · exact_mod_cast (by omega : start + offset (stop - start) m i ≤ start)
  have key := Rectangles.all hL hF hm (fun i => ((start + offset (stop - start) m i : Int) : ℝ) / 1e9) hin
    (fun i _ => hdist i)
  have e4 : ((stop - start : Int) : ℝ) / 1000000000 / ((m : Int) : ℝ) = (stop / 1e9 - start / 1e9) / m := by
    push_cast; field_simp; norm_num
  have e5 : |(stop / 1e9 - start / 1e9 : ℝ)| = |(stop : ℝ) - start| / 1e9 := by
    rw [← sub_div, abs_div, abs_of_pos (by norm_num : (0 : ℝ) < 1e9)]
  rw [e4]
  refine key.trans ?_
  rw [e5]
  have hstep : |(stop : ℝ) - start| / 1e9 / m ≤ dt / 1e9 := by
    rw [div_right_comm]
    refine div_le_div_of_nonneg_right ?_ (by norm_num)
    rw [div_le_iff₀ hm', mul_comm]
    exact_mod_cast hle
  refine mul_le_mul_of_nonneg_left ?_ (by positivity)
  linarith

/-- The interval and step of the documentation, for the cosine, which has Lipschitz constant 1. -/
example : ∃ I : ℝ, leftRectangles (fun t => Real.cos (t / 1e9)) 0 30000000000 100000 = .ok I ∧
    |I - Real.sin 30| ≤ 1.6e-3 := by
  obtain ⟨I, h, b⟩ := c87_timestamps Real.cos 1 0 30000000000 100000 (by decide) (by decide) (by decide) (by norm_num) (by norm_num)
    (by norm_num) (by norm_num) zero_le_one (fun x _ y _ => by rw [one_mul]; exact Real.abs_cos_sub_cos_le x y)
  refine ⟨I, h, ?_⟩
  rw [integral_cos] at b
  norm_num at b ⊢
  linarith

/-- C87 is false without the bound on the count: the recipe stores the 64-bit count in an `int`.  Sampling 2³¹ ns at steps of 1 ns gives
2³¹ + 1 samples, and the "integral" of the constant 1 over 2.147 s comes out as -2.147 s. -/
theorem c87_count_wraps : ∃ (start stop dt : Int) (I : ℝ), InI64 start ∧ InI64 stop ∧ InI64 dt ∧ 0 < dt ∧ start < stop ∧
    leftRectangles (fun _ => 1) start stop dt = .ok I ∧ I < 0 := by
  obtain ⟨m, hm, -, hle, hleast, e⟩ := leftRectangles_eq (fun _ => 1) (start := 0) (stop := 2147483648) (dt := 1)
    (by decide) (by decide) (by decide) (by norm_num) (by norm_num) (by norm_num)
  have h1 := hleast 2147483648 (by norm_num) (by norm_num)
  have h2 : (2147483648 : Int) ≤ m := by norm_num at hle; omega
  have h3 : (m : Int) = 2147483648 := by omega
  rw [h3] at e
  have e1 : intPred (toInt32 (2147483648 + 1)) = .ok (-2147483648) := by decide
  rw [e1, Outcome.ok_bind] at e
  refine ⟨0, 2147483648, 1, _, by decide, by decide, by decide, by norm_num, by norm_num, e, ?_⟩
  have hm' : (0 : ℝ) < m := by exact_mod_cast hm
  simp only [Finset.sum_const, Finset.card_range, nsmul_eq_mul, mul_one]
  apply mul_neg_of_pos_of_neg hm'
  norm_num

example : numSamples 0 2147483648 1 = .ok 2147483649 := by decide

/-- C87, `double` overloads: the bound is `L` times the length of the interval times half of the requested step. -/
theorem c87_doubles (F : ℝ → ℝ) (L start stop dt : ℝ) (hne : start ≠ stop) (hdt : 0 < dt)
    (hfit : |stop - start| ≤ 2147483646 * dt) (hL : 0 ≤ L)
    (hF : ∀ x ∈ Set.uIcc start stop, ∀ y ∈ Set.uIcc start stop, |F x - F y| ≤ L * |x - y|) :
    ∃ I : ℝ, leftRectanglesReal F start stop dt = .ok I ∧
      |I - ∫ s in start..stop, F s| ≤ L * |stop - start| * (dt / 2) := by
  obtain ⟨n, xs, hn, hx, h2, hlen, hhead, hlast, hstep, hle, -⟩ :=
    c07_covers start stop dt hne hdt (by push_cast; exact hfit)
  obtain ⟨m, hm⟩ : ∃ m : Nat, n = m + 1 := ⟨(n - 1).toNat, by omega⟩
  subst hm
  have hm0 : 0 < m := by omega
  have hm' : (0 : ℝ) < m := by exact_mod_cast hm0
  push_cast at hstep hle
  simp only [add_sub_cancel_right] at hstep hle
  have hl : xs.length = m + 1 := by omega
  have hget : ∀ (i : Nat) (h : i < xs.length), xs[i] = start + i * ((stop - start) / m) := by
    intro i
    induction i with
    | zero =>
      intro h
      rw [List.head?_eq_getElem?, List.getElem?_eq_getElem h] at hhead
      simpa using hhead
    | succ i ih =>
      intro h
      have := hstep i h
      have := ih (by omega)
      push_cast
      linarith
  have hxs : xs = (List.range (m + 1)).map (fun i : Nat => start + i * ((stop - start) / m)) := by
    apply List.ext_getElem
    · simp [hl]
    · intro i h1 _
      simp [hget i h1]
  have hfilter : xs.filter (fun t => decide (t ≠ stop)) = (List.range m).map (fun i : Nat => start + i * ((stop - start) / m)) := by
    rw [hxs, List.range_succ, List.map_append, List.filter_append, List.map_singleton]
    have e1 : start + m * ((stop - start) / m) = stop := by field_simp; ring
    rw [e1]
    have e2 : [stop].filter (fun t => decide (t ≠ stop)) = [] := by simp
    rw [e2, List.append_nil, List.filter_eq_self]
    intro x hx
    simp only [List.mem_map, List.mem_range] at hx
    obtain ⟨i, hi, rfl⟩ := hx
    simp only [decide_eq_true_eq]
    intro hc
    have hi' : (i : ℝ) < m := by exact_mod_cast hi
    have : (stop - start) * (m - i) = 0 := by
      have h0 : (i : ℝ) * ((stop - start) / m) = stop - start := by linarith
      field_simp at h0
      linarith
    rcases mul_eq_zero.mp this with h | h
    · exact hne (by linarith)
    · linarith
  refine ⟨_, by
    unfold leftRectanglesReal
    rw [hx, Outcome.ok_bind, hn, Outcome.ok_bind, hfilter, List.map_map, Rectangles.list_sum_range]
    rfl, ?_⟩
  have hin : ∀ i < m, start + i * ((stop - start) / m) ∈ Set.uIcc start stop := by
    intro i hi
    have hi' : (i : ℝ) ≤ m := by exact_mod_cast hi.le
    have e1 : start + i * ((stop - start) / m) = start + (i / m) * (stop - start) := by ring
    have h0 : (0 : ℝ) ≤ i / m := by positivity
    have h1 : (i : ℝ) / m ≤ 1 := by rw [div_le_one hm']; exact hi'
    rw [e1, Set.mem_uIcc]
    rcases le_total start stop with hab | hab
    · left; constructor <;> nlinarith
    · right; constructor <;> nlinarith
  have key := Rectangles.all (e := 0) hL hF hm0 (fun i => start + i * ((stop - start) / m)) hin (by intro i _; simp)
  have e3 : (((m : Int) + 1 - 1 : Int) : ℝ) = m := by push_cast; ring
  rw [e3]
  refine key.trans ?_
  rw [abs_div, abs_of_pos hm'] at hle
  refine mul_le_mul_of_nonneg_left ?_ (by positivity)
  linarith

example : ∃ I : ℝ, leftRectanglesReal Real.cos 0 30 1e-4 = .ok I ∧ |I - Real.sin 30| ≤ 1.5e-3 := by
  obtain ⟨I, h, b⟩ := c87_doubles Real.cos 1 0 30 1e-4 (by norm_num) (by norm_num) (by norm_num [abs_of_pos]) zero_le_one
    (fun x _ y _ => by rw [one_mul]; exact Real.abs_cos_sub_cos_le x y)
  refine ⟨I, h, ?_⟩
  rw [integral_cos] at b
  norm_num at b ⊢
  linarith

end Verif.Props
