import Verif.Props.Noise
import Verif.Props.ConversionError
import Mathlib.Analysis.Calculus.Taylor

/-!
# Noise that varies slowly: the remainder of its Taylor polynomial
-/

namespace OpenControls

open Spec RealInst

theorem taylor_bound {β : ℝ → ℝ} {k : ℕ} (hβ : ContDiff ℝ k β) {c x B : ℝ}
    (hB : ∀ t ∈ Set.uIcc c x, |iteratedDeriv k β t| ≤ B) :
    |β x - ∑ j ∈ Finset.range k, iteratedDeriv j β c / j.factorial * (x - c) ^ j| ≤
      B * |x - c| ^ k / k.factorial := by
  have hB0 : 0 ≤ B := (abs_nonneg _).trans (hB c Set.left_mem_uIcc)
  cases k with
  | zero => simpa using hB x Set.right_mem_uIcc
  | succ n =>
    by_cases hx : c = x
    · subst hx
      rw [Finset.sum_eq_single 0]
      · simp
      · intro j _ hj; simp [hj]
      · simp
    · obtain ⟨y, hy, he⟩ := taylor_mean_remainder_lagrange_iteratedDeriv hx
        (show ContDiffOn ℝ (n + 1) β (Set.uIcc c x) by exact_mod_cast hβ.contDiffOn)
      have ht : taylorWithinEval β n (Set.uIcc c x) c x =
          ∑ j ∈ Finset.range (n + 1), iteratedDeriv j β c / j.factorial * (x - c) ^ j := by
        rw [taylor_within_apply]
        refine Finset.sum_congr rfl fun j hj => ?_
        have hj' : (j : WithTop ℕ∞) ≤ ((n + 1 : ℕ) : WithTop ℕ∞) := by
          exact_mod_cast (Finset.mem_range.mp hj).le
        rw [iteratedDerivWithin_eq_iteratedDeriv (uniqueDiffOn_uIcc hx)
          (hβ.of_le hj').contDiffAt Set.left_mem_uIcc, smul_eq_mul]
        ring
      rw [← ht, he, abs_div, abs_mul, abs_pow, abs_of_pos (show (0 : ℝ) < ((n + 1).factorial : ℝ) by positivity)]
      gcongr
      exact hB y (Set.uIoo_subset_uIcc_self hy)

theorem integral_distance (T : ℝ) (hT : 0 ≤ T) (k : ℕ) :
    ∫ t in 0..T, |t - T / 2| ^ k = T ^ (k + 1) / (2 ^ k * (k + 1)) := by
  have hc : Continuous fun t : ℝ => |t - T / 2| ^ k := by fun_prop
  rw [← intervalIntegral.integral_add_adjacent_intervals (b := T / 2) (hc.intervalIntegrable _ _)
    (hc.intervalIntegrable _ _)]
  have h1 : ∫ t in 0..T / 2, |t - T / 2| ^ k = (T / 2) ^ (k + 1) / (k + 1) := by
    have : ∫ t in 0..T / 2, |t - T / 2| ^ k = ∫ t in 0..T / 2, (T / 2 - t) ^ k := by
      refine intervalIntegral.integral_congr fun t ht => ?_
      rw [Set.uIcc_of_le (by linarith)] at ht
      rw [abs_sub_comm, abs_of_nonneg (by linarith [ht.2])]
    rw [this, intervalIntegral.integral_comp_sub_left (fun t => t ^ k), integral_pow]
    simp
  have h2 : ∫ t in T / 2..T, |t - T / 2| ^ k = (T / 2) ^ (k + 1) / (k + 1) := by
    have : ∫ t in T / 2..T, |t - T / 2| ^ k = ∫ t in T / 2..T, (t - T / 2) ^ k := by
      refine intervalIntegral.integral_congr fun t ht => ?_
      rw [Set.uIcc_of_le (by linarith)] at ht
      rw [abs_of_nonneg (by linarith [ht.1])]
    rw [this, intervalIntegral.integral_comp_sub_right (fun t => t ^ k), integral_pow]
    have e : T - T / 2 = T / 2 := by ring
    rw [e]
    simp
  rw [h1, h2, div_pow, pow_succ (2 : ℝ) k]
  field_simp
  norm_num

theorem slow_phase {σ β : ℝ → ℝ} {T : ℝ} (hT : 0 ≤ T) {k : ℕ} (hβ : ContDiff ℝ k β)
    (hσ : ∀ t, |σ t| ≤ 1) (hint : ∀ f : ℝ → ℝ, Continuous f →
      IntervalIntegrable (fun t => σ t * f t) MeasureTheory.volume 0 T)
    (hpoly : ∀ p : Polynomial ℝ, p.degree < k → ∫ t in 0..T, σ t * p.eval t = 0) {B : ℝ}
    (hB : ∀ t ∈ Set.Icc 0 T, |iteratedDeriv k β t| ≤ B) :
    |∫ t in 0..T, σ t * β t| ≤ B * T ^ (k + 1) / (2 ^ k * (k + 1).factorial) := by
  classical
  set p : Polynomial ℝ := ∑ j ∈ Finset.range k,
    Polynomial.C (iteratedDeriv j β (T / 2) / j.factorial) * (Polynomial.X - Polynomial.C (T / 2)) ^ j with hp
  have hpe : ∀ t, p.eval t =
      ∑ j ∈ Finset.range k, iteratedDeriv j β (T / 2) / j.factorial * (t - T / 2) ^ j := by
    intro t
    rw [hp, Polynomial.eval_finsetSum]
    simp
  have hdeg : p.degree < k := by
    refine (Polynomial.degree_sum_le _ _).trans_lt ?_
    rw [Finset.sup_lt_iff (by exact_mod_cast WithBot.bot_lt_coe k)]
    intro j hj
    refine ((Polynomial.degree_mul_le _ _).trans (add_le_add_left Polynomial.degree_C_le _)).trans_lt ?_
    rw [Polynomial.degree_pow, Polynomial.degree_X_sub_C]
    simpa using Finset.mem_range.mp hj
  have hpc : Continuous fun t => p.eval t := by
    simp only [hpe]
    fun_prop
  have hsub : ∫ t in 0..T, σ t * β t = ∫ t in 0..T, σ t * (β t - p.eval t) := by
    have e : ∀ t, σ t * (β t - p.eval t) = σ t * β t - σ t * p.eval t := fun t => by ring
    simp only [e]
    rw [intervalIntegral.integral_sub (hint β hβ.continuous) (hint _ hpc), hpoly p hdeg, sub_zero]
  have hbound : ∀ t ∈ Set.Icc 0 T, |σ t * (β t - p.eval t)| ≤ B / k.factorial * |t - T / 2| ^ k := by
    intro t ht
    rw [abs_mul, hpe]
    have h1 := taylor_bound hβ (c := T / 2) (x := t) (B := B) fun u hu => hB u (by
      rcases Set.mem_uIcc.mp hu with h | h
      · exact ⟨by linarith [h.1], by linarith [h.2, ht.2]⟩
      · exact ⟨by linarith [h.1, ht.1], by linarith [h.2]⟩)
    calc |σ t| * _ ≤ 1 * (B * |t - T / 2| ^ k / k.factorial) :=
          mul_le_mul (hσ t) h1 (abs_nonneg _) zero_le_one
      _ = _ := by ring
  rw [hsub]
  have hle := intervalIntegral.norm_integral_le_of_norm_le (a := 0) (b := T) (μ := MeasureTheory.volume)
    (f := fun t => σ t * (β t - p.eval t)) (g := fun t => B / k.factorial * |t - T / 2| ^ k) hT
    (by filter_upwards with t ht using hbound t (Set.Ioc_subset_Icc_self ht))
    ((by fun_prop : Continuous fun t : ℝ => B / k.factorial * |t - T / 2| ^ k).intervalIntegrable _ _)
  rw [intervalIntegral.integral_const_mul, integral_distance T hT k] at hle
  refine hle.trans (le_of_eq ?_)
  rw [Nat.factorial_succ]
  push_cast
  field_simp

open scoped Matrix.Norms.L2Operator

theorem tableProduct_norm (table : List (ℝ × Axis)) : ‖tableProduct table‖ ≤ 1 := by
  induction table with
  | nil => simp [tableProduct]
  | cons p r ih =>
    rw [tableProduct, ← pulseUnitary_axis]
    refine (norm_mul_le _ _).trans ?_
    calc _ ≤ (1 : ℝ) * 1 := mul_le_mul ih (pulse_norm _ _ _) (norm_nonneg _) zero_le_one
      _ = 1 := one_mul 1

theorem zrot_dist (θ : ℝ) : ‖zrot θ - 1‖ ≤ |θ| / 2 := by
  rw [← su2_one, zrot, su2_sub]
  refine le_of_sq_le_sq ?_ (by positivity)
  rw [su2_norm_sq, div_pow, sq_abs]
  have h := Real.one_sub_sq_div_two_le_cos (x := θ / 2)
  have := Real.cos_sq_add_sin_sq (θ / 2)
  nlinarith

end OpenControls
