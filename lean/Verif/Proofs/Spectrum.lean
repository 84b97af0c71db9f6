import Mathlib.Analysis.SpecialFunctions.Trigonometric.Bounds
import Mathlib.MeasureTheory.Integral.IntervalIntegral.Basic
import Verif.Spec.Spectrum
import Verif.Proofs.MomentOrder
import Verif.Proofs.Coincidences
import Verif.Proofs.Optimal

/-!
# The response of sequences to dephasing noise of one frequency
-/

namespace OpenControls

open Spec MeasureTheory Complex
open scoped Topology

/-- the response of a switching function -/
noncomputable def response (times : List ℝ) (T ω : ℝ) : ℂ :=
  ∫ t in 0..T, ((switching times t : ℝ) : ℂ) * exp (I * (ω * t : ℝ))

theorem toneResponse_eq (s : Sequence ℝ) (ω : ℝ) :
    toneResponse s ω = response (piPulseTimes s) s.duration ω := by
  unfold toneResponse response
  simp only [sensitivity_switching]

theorem norm_exp_I (x : ℝ) : ‖exp (I * (x : ℂ))‖ = 1 := by
  rw [mul_comm]; exact norm_exp_ofReal_mul_I x

/-! ### Real and imaginary part -/

theorem response_integrable (times : List ℝ) {f : ℝ → ℂ} (hf : Continuous f) (T : ℝ) :
    IntervalIntegrable (fun t => ((switching times t : ℝ) : ℂ) * f t) volume 0 T := by
  have h := (hf.intervalIntegrable (μ := volume) 0 T)
  refine h.mono_fun ?_ ?_
  · exact ((Complex.measurable_ofReal.comp (switching_measurable times)).mul
      hf.measurable).aestronglyMeasurable
  · refine Filter.Eventually.of_forall fun t => ?_
    simp only [norm_mul, norm_real, Real.norm_eq_abs, switching_abs, one_mul, le_refl]

theorem continuous_wave (ω : ℝ) : Continuous fun t : ℝ => exp (I * (ω * t : ℝ)) := by
  fun_prop

theorem response_parts (times : List ℝ) (T ω : ℝ) :
    response times T ω = ((∫ t in 0..T, switching times t * Real.cos (ω * t) : ℝ) : ℂ) +
      ((∫ t in 0..T, switching times t * Real.sin (ω * t) : ℝ) : ℂ) * I := by
  unfold response
  have e : ∀ t : ℝ, ((switching times t : ℝ) : ℂ) * exp (I * (ω * t : ℝ)) =
      ((switching times t * Real.cos (ω * t) : ℝ) : ℂ) +
        ((switching times t * Real.sin (ω * t) : ℝ) : ℂ) * I := by
    intro t
    rw [mul_comm I, exp_mul_I, ← ofReal_cos, ← ofReal_sin]
    push_cast
    ring
  have hc : Continuous fun t : ℝ => Real.cos (ω * t) := by fun_prop
  have hs : Continuous fun t : ℝ => Real.sin (ω * t) := by fun_prop
  simp only [e]
  rw [intervalIntegral.integral_add, intervalIntegral.integral_mul_const,
    intervalIntegral.integral_ofReal, intervalIntegral.integral_ofReal]
  · have h : IntervalIntegrable (fun t => switching times t * Real.cos (ω * t)) volume 0 T :=
      switching_integrable times hc T
    exact ⟨h.1.ofReal, h.2.ofReal⟩
  · have h : IntervalIntegrable (fun t => switching times t * Real.sin (ω * t)) volume 0 T :=
      switching_integrable times hs T
    exact IntervalIntegrable.mul_const ⟨h.1.ofReal, h.2.ofReal⟩ I

/-! ### The alternating sum -/

/-- the alternating sum of `integral_switching`, for complex values -/
noncomputable def waveSum (E : ℝ → ℂ) (T : ℝ) : ℝ → List ℝ → ℂ
  | a, [] => E T - E a
  | a, b :: r => (E b - E a) - waveSum E T b r

theorem waveSum_parts (E : ℝ → ℂ) (T : ℝ) (times : List ℝ) (a : ℝ) :
    waveSum E T a times = (altSum (fun t => (E t).re) T a times : ℂ) +
      (altSum (fun t => (E t).im) T a times : ℂ) * I := by
  induction times generalizing a with
  | nil =>
    simp only [waveSum, altSum]
    push_cast
    conv_lhs => rw [← re_add_im (E T), ← re_add_im (E a)]
    ring
  | cons b r ih =>
    simp only [waveSum, altSum]
    rw [ih]
    push_cast
    conv_lhs => rw [← re_add_im (E b), ← re_add_im (E a)]
    ring

theorem waveSum_sum (E : ℝ → ℂ) (T : ℝ) (f : ℕ → ℝ) (n : ℕ) (i : ℕ) (a : ℝ) :
    waveSum E T a ((List.range' i n).map f) =
      -E a + 2 * ∑ j ∈ Finset.range n, (-1) ^ j * E (f (i + j)) + (-1) ^ n * E T := by
  induction n generalizing i a with
  | zero => simp [waveSum]; ring
  | succ n ih =>
    rw [List.range'_succ, List.map_cons, waveSum, ih, Finset.sum_range_succ']
    have : ∑ j ∈ Finset.range n, (-1 : ℂ) ^ (j + 1) * E (f (i + (j + 1))) =
        -∑ j ∈ Finset.range n, (-1) ^ j * E (f (i + 1 + j)) := by
      rw [← Finset.sum_neg_distrib]
      refine Finset.sum_congr rfl fun j _ => ?_
      rw [show i + (j + 1) = i + 1 + j by ring, pow_succ]; ring
    rw [this, pow_zero, add_zero, pow_succ]
    ring

theorem response_waveSum {T : ℝ} (hT : 0 ≤ T) (times : List ℝ) (hs : times.Pairwise (· ≤ ·))
    (hb : ∀ t ∈ times, 0 ≤ t ∧ t ≤ T) (ω : ℝ) :
    I * ω * response times T ω = waveSum (fun t => exp (I * (ω * t : ℝ))) T 0 times := by
  have hcos : ∀ t : ℝ, (exp (I * (ω * t : ℝ))).re = Real.cos (ω * t) := by
    intro t; rw [mul_comm, exp_ofReal_mul_I_re]
  have hsin : ∀ t : ℝ, (exp (I * (ω * t : ℝ))).im = Real.sin (ω * t) := by
    intro t; rw [mul_comm, exp_ofReal_mul_I_im]
  have hd : ∀ x : ℝ, HasDerivAt (fun t : ℝ => ω * t) ω x := by
    intro x; simpa using (hasDerivAt_id x).const_mul ω
  have h1 := (integral_switching (f := fun t => Real.cos (ω * t) * ω) (F := fun t => Real.sin (ω * t))
    (fun x => (hd x).sin) (by fun_prop) T times 0 hT hs hb).2
  have h2 := (integral_switching (f := fun t => -Real.sin (ω * t) * ω) (F := fun t => Real.cos (ω * t))
    (fun x => (hd x).cos) (by fun_prop) T times 0 hT hs hb).2
  rw [waveSum_parts]
  simp only [hcos, hsin]
  rw [← h1, ← h2, response_parts]
  have e1 : ∫ t in 0..T, switching times t * (Real.cos (ω * t) * ω) =
      ω * ∫ t in 0..T, switching times t * Real.cos (ω * t) := by
    rw [← intervalIntegral.integral_const_mul]; congr 1; funext t; ring
  have e2 : ∫ t in 0..T, switching times t * (-Real.sin (ω * t) * ω) =
      -ω * ∫ t in 0..T, switching times t * Real.sin (ω * t) := by
    rw [← intervalIntegral.integral_const_mul]; congr 1; funext t; ring
  rw [e1, e2]
  push_cast
  generalize (∫ t in 0..T, switching times t * Real.cos (ω * t) : ℝ) = x
  generalize (∫ t in 0..T, switching times t * Real.sin (ω * t) : ℝ) = y
  linear_combination (ω : ℂ) * y * I_mul_I

/-! ### Norms -/

theorem norm_one_sub_wave (x : ℝ) : ‖(1 : ℂ) - exp (I * (x : ℂ))‖ = 2 * |Real.sin (x / 2)| := by
  rw [norm_sub_rev, norm_exp_I_mul_ofReal_sub_one]
  simp [abs_mul]

theorem norm_one_add_wave (x : ℝ) : ‖(1 : ℂ) + exp (I * (x : ℂ))‖ = 2 * |Real.cos (x / 2)| := by
  have h := norm_one_sub_wave (x + Real.pi)
  have e : exp (I * ((x + Real.pi : ℝ) : ℂ)) = -exp (I * (x : ℂ)) := by
    push_cast
    rw [mul_add, exp_add, mul_comm I (Real.pi : ℂ), exp_pi_mul_I]; ring
  rw [e, sub_neg_eq_add] at h
  rw [h, show (x + Real.pi) / 2 = x / 2 + Real.pi / 2 by ring, Real.sin_add_pi_div_two]

theorem wave_pow (x : ℝ) (n : ℕ) : exp (I * (x : ℂ)) ^ n = exp (I * ((n * x : ℝ) : ℂ)) := by
  rw [← exp_nat_mul]; congr 1; push_cast; ring

/-- sine or cosine of half the phase, according to the parity -/
theorem norm_parity (x : ℝ) (n : ℕ) : ‖(1 : ℂ) - (-1) ^ n * exp (I * (x : ℂ))‖ =
    2 * |if Even n then Real.sin (x / 2) else Real.cos (x / 2)| := by
  by_cases h : Even n
  · rw [if_pos h, h.neg_one_pow, one_mul, norm_one_sub_wave]
  · rw [if_neg h, (Nat.not_even_iff_odd.mp h).neg_one_pow, neg_one_mul, sub_neg_eq_add, norm_one_add_wave]

theorem alt_geom (w : ℂ) (n : ℕ) : (1 + w) * ∑ j ∈ Finset.range n, (-1) ^ j * w ^ j = 1 - (-1) ^ n * w ^ n := by
  induction n with
  | zero => simp
  | succ n ih => rw [Finset.sum_range_succ, mul_add, ih]; ring

/-! ### Closed forms -/

theorem response_nil {T : ℝ} (hT : 0 ≤ T) (ω : ℝ) :
    |ω| * ‖response [] T ω‖ = 2 * |Real.sin (ω * T / 2)| := by
  have h := congrArg norm (response_waveSum hT [] (by simp) (by simp) ω)
  rw [norm_mul, norm_mul, norm_I, one_mul, norm_real, Real.norm_eq_abs] at h
  rw [h]
  simp only [waveSum, mul_zero, ofReal_zero, exp_zero]
  rw [norm_sub_rev, norm_one_sub_wave]

theorem cpmg_wave {T : ℝ} (hT : 0 < T) {n : ℕ} (hn : n ≠ 0) (ω : ℝ) {z : ℂ}
    (hz : z = exp (I * ((ω * T / n / 2 : ℝ) : ℂ))) :
    I * ω * response (cpmgTimes T n) T ω =
      -1 + 2 * (z * ∑ j ∈ Finset.range n, (-1) ^ j * (z ^ 2) ^ j) + (-1) ^ n * (z ^ 2) ^ n := by
  have hn0 : (n : ℝ) ≠ 0 := by exact_mod_cast hn
  have ho := cpmg_ordered hT n
  rw [response_waveSum hT.le (cpmgTimes T n) (ho.1.imp le_of_lt)
    (fun t ht => ⟨(ho.2 t ht).1.le, (ho.2 t ht).2.le⟩) ω]
  unfold cpmgTimes
  rw [waveSum_sum]
  have e1 : ∀ j : ℕ, exp (I * ((ω * (T / n * (((1 + j : ℕ) : ℝ) - 1 / 2)) : ℝ) : ℂ)) = z * (z ^ 2) ^ j := by
    intro j
    rw [← pow_mul, ← pow_succ', hz, wave_pow]
    congr 3
    push_cast; field_simp; ring
  have e2 : exp (I * ((ω * T : ℝ) : ℂ)) = (z ^ 2) ^ n := by
    rw [← pow_mul, hz, wave_pow]
    congr 3
    push_cast; field_simp
  simp only [e1, e2, mul_zero, ofReal_zero, exp_zero]
  have e3 : ∑ j ∈ Finset.range n, (-1 : ℂ) ^ j * (z * (z ^ 2) ^ j) =
      z * ∑ j ∈ Finset.range n, (-1) ^ j * (z ^ 2) ^ j := by
    rw [Finset.mul_sum]
    exact Finset.sum_congr rfl fun j _ => by ring
  rw [e3]

/-- noise of one half-period per pulse is picked up in full -/
theorem response_resonance {T : ℝ} (hT : 0 < T) {n : ℕ} (hn : n ≠ 0) :
    ‖response (cpmgTimes T n) T (n * Real.pi / T)‖ = 2 * T / Real.pi := by
  have hn0 : (0 : ℝ) < n := by exact_mod_cast Nat.pos_of_ne_zero hn
  have hpi := Real.pi_pos
  have h := cpmg_wave hT hn (n * Real.pi / T) (z := I) (by
    rw [show (n * Real.pi / T * T / n / 2 : ℝ) = Real.pi / 2 by field_simp, mul_comm]
    push_cast
    rw [exp_pi_div_two_mul_I])
  have e : ∀ j : ℕ, (-1 : ℂ) ^ j * (I ^ 2) ^ j = 1 := by
    intro j; rw [I_sq, ← mul_pow]; norm_num
  rw [e n] at h
  simp only [e] at h
  have hk := congrArg norm h
  have e2 : (-1 : ℂ) + 2 * (I * ∑ j ∈ Finset.range n, (1 : ℂ)) + 1 = I * ((2 * n : ℝ) : ℂ) := by
    simp; ring
  rw [e2, norm_mul, norm_mul, norm_mul, norm_I, norm_real, norm_real, Real.norm_eq_abs, Real.norm_eq_abs,
    abs_of_pos (by positivity), abs_of_pos (by positivity), one_mul, one_mul] at hk
  have : ‖response (cpmgTimes T n) T (n * Real.pi / T)‖ = 2 * n / (n * Real.pi / T) := by
    rw [← hk]; field_simp
  rw [this]; field_simp

theorem response_cpmg {T : ℝ} (hT : 0 < T) {n : ℕ} (hn : n ≠ 0) (ω : ℝ) :
    |ω * Real.cos (ω * T / (2 * n))| * ‖response (cpmgTimes T n) T ω‖ =
      4 * Real.sin (ω * T / (4 * n)) ^ 2 *
        |if Even n then Real.sin (ω * T / 2) else Real.cos (ω * T / 2)| := by
  have hn0 : (n : ℝ) ≠ 0 := by exact_mod_cast hn
  set x : ℝ := ω * T / n with hx
  set z : ℂ := exp (I * ((x / 2 : ℝ) : ℂ)) with hz
  have h := cpmg_wave hT hn ω hz
  have key : (1 + z ^ 2) * (I * ω * response (cpmgTimes T n) T ω) =
      -((1 - (-1) ^ n * (z ^ 2) ^ n) * (1 - z) ^ 2) := by
    rw [h]
    linear_combination 2 * z * alt_geom (z ^ 2) n
  have hk := congrArg norm key
  have hz2 : z ^ 2 = exp (I * (x : ℂ)) := by
    rw [hz, wave_pow]; congr 3; push_cast; ring
  have hzn : (z ^ 2) ^ n = exp (I * ((ω * T : ℝ) : ℂ)) := by
    rw [hz2, wave_pow]; congr 3; rw [hx]; field_simp
  rw [hzn, hz2, norm_neg, norm_mul, norm_mul, norm_mul, norm_mul, norm_I, norm_parity, norm_pow, hz,
    norm_one_sub_wave, norm_one_add_wave, norm_real, Real.norm_eq_abs, one_mul] at hk
  rw [abs_mul, show ω * T / (2 * n) = x / 2 by rw [hx]; field_simp,
    show ω * T / (4 * n) = x / 2 / 2 by rw [hx]; field_simp; norm_num]
  have : (2 * |Real.sin (x / 2 / 2)|) ^ 2 = 4 * Real.sin (x / 2 / 2) ^ 2 := by
    rw [mul_pow, sq_abs]; norm_num
  rw [this] at hk
  linarith

theorem response_periodic {T : ℝ} (hT : 0 < T) (n : ℕ) (ω : ℝ) :
    |ω * Real.cos (ω * T / (2 * (n + 1)))| * ‖response (periodicTimes T n) T ω‖ =
      2 * |Real.sin (ω * T / (2 * (n + 1)))| *
        |if Even n then Real.cos (ω * T / 2) else Real.sin (ω * T / 2)| := by
  have hn0 : ((n : ℝ) + 1) ≠ 0 := by positivity
  have ho := periodic_ordered hT n
  have h := response_waveSum hT.le (periodicTimes T n) (ho.1.imp le_of_lt)
    (fun t ht => ⟨(ho.2 t ht).1.le, (ho.2 t ht).2.le⟩) ω
  set x : ℝ := ω * T / (n + 1) with hx
  set w : ℂ := exp (I * (x : ℂ)) with hw
  have hwn : w ^ (n + 1) = exp (I * ((ω * T : ℝ) : ℂ)) := by
    rw [hw, wave_pow]
    congr 3
    rw [hx]; push_cast; field_simp
  have hsum : waveSum (fun t => exp (I * (ω * t : ℝ))) T 0 (periodicTimes T n) =
      -1 + 2 * (w * ∑ j ∈ Finset.range n, (-1) ^ j * w ^ j) + (-1) ^ n * w ^ (n + 1) := by
    unfold periodicTimes
    rw [waveSum_sum]
    have e1 : ∀ j : ℕ, exp (I * ((ω * (((1 + j : ℕ) : ℝ) * (T / (n + 1))) : ℝ) : ℂ)) = w * w ^ j := by
      intro j
      rw [← pow_succ', hw, wave_pow]
      congr 3
      rw [hx]; push_cast; field_simp; ring
    simp only [e1, ← hwn, mul_zero, ofReal_zero, exp_zero]
    have e3 : ∑ j ∈ Finset.range n, (-1 : ℂ) ^ j * (w * w ^ j) =
        w * ∑ j ∈ Finset.range n, (-1) ^ j * w ^ j := by
      rw [Finset.mul_sum]
      exact Finset.sum_congr rfl fun j _ => by ring
    rw [e3]
  rw [hsum] at h
  have key : (1 + w) * (I * ω * response (periodicTimes T n) T ω) =
      -((1 - w) * (1 - (-1) ^ (n + 1) * w ^ (n + 1))) := by
    rw [h]
    linear_combination 2 * w * alt_geom w n
  have hk := congrArg norm key
  rw [hwn, norm_neg, norm_mul, norm_mul, norm_mul, norm_mul, norm_I, norm_parity, hw,
    norm_one_sub_wave, norm_one_add_wave, norm_real, Real.norm_eq_abs, one_mul] at hk
  rw [abs_mul, show ω * T / (2 * (n + 1)) = x / 2 by rw [hx]; field_simp]
  have hp : (if Even (n + 1) then Real.sin (ω * T / 2) else Real.cos (ω * T / 2)) =
      if Even n then Real.cos (ω * T / 2) else Real.sin (ω * T / 2) := by
    by_cases he : Even n
    · rw [if_pos he, if_neg (by rw [Nat.even_add_one]; simpa using he)]
    · rw [if_neg he, if_pos (by rw [Nat.even_add_one]; exact he)]
  rw [hp] at hk
  linarith

end OpenControls
