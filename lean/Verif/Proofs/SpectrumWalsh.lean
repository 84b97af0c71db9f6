import Verif.Proofs.Spectrum

/-!
# The response of Walsh sequences, and the response at low frequencies
-/

namespace OpenControls

open Spec MeasureTheory Complex intervalIntegral
open scoped Topology

/-! ### Walsh -/

/-- the response of a product of Rademacher functions over `[0, 1]` -/
noncomputable def walshResponse (bs : List Bool) (x : ℝ) : ℂ :=
  ∫ u in (0:ℝ)..1, ((walshProduct bs u : ℝ) : ℂ) * exp (I * (x * u : ℝ))

theorem walshProduct_wave (bs : List Bool) (x : ℝ) (a b : ℝ) :
    IntervalIntegrable (fun u => ((walshProduct bs u : ℝ) : ℂ) * exp (I * (x * u : ℝ))) volume a b := by
  have h := ((continuous_wave x).intervalIntegrable (μ := volume) a b)
  refine h.mono_fun ?_ ?_
  · exact ((Complex.measurable_ofReal.comp (measurable_walshProduct bs)).mul
      (continuous_wave x).measurable).aestronglyMeasurable
  · refine Filter.Eventually.of_forall fun t => ?_
    simp only [norm_mul, norm_real, Real.norm_eq_abs]
    exact mul_le_of_le_one_left (norm_nonneg _) (walshProduct_bound bs t)

theorem walshResponse_cons (b : Bool) (bs : List Bool) (x : ℝ) :
    walshResponse (b :: bs) x =
      (1 / 2) * (1 + (if b then -1 else 1) * exp (I * (x / 2 : ℝ))) * walshResponse bs (x / 2) := by
  unfold walshResponse
  rw [← integral_add_adjacent_intervals (walshProduct_wave (b :: bs) x 0 (1 / 2))
    (walshProduct_wave (b :: bs) x (1 / 2) 1)]
  set g : ℝ → ℂ := fun u => ((walshProduct bs u : ℝ) : ℂ) * exp (I * (x / 2 * u : ℝ)) with hg
  have h1 : ∫ u in (0:ℝ)..(1 / 2), ((walshProduct (b :: bs) u : ℝ) : ℂ) * exp (I * (x * u : ℝ)) =
      ∫ u in (0:ℝ)..(1 / 2), g (2 * u) := by
    apply intervalIntegral.integral_congr_ae
    filter_upwards [ae_ne (1 / 2)] with u hu hu'
    rw [Set.uIoc_of_le (by norm_num)] at hu'
    have hr := rademacher_one_left hu'.1 (lt_of_le_of_ne hu'.2 hu)
    simp only [walshProduct, hr, hg, ite_self, one_mul]
    rw [show x / 2 * (2 * u) = x * u by ring]
  have h2 : ∫ u in (1 / 2 : ℝ)..1, ((walshProduct (b :: bs) u : ℝ) : ℂ) * exp (I * (x * u : ℝ)) =
      ∫ u in (1 / 2 : ℝ)..1, (if b then -1 else 1 : ℂ) * g (2 * u) := by
    apply intervalIntegral.integral_congr_ae
    filter_upwards [ae_ne 1] with u hu hu'
    rw [Set.uIoc_of_le (by norm_num)] at hu'
    have hr := rademacher_one_right hu'.1 (lt_of_le_of_ne hu'.2 hu)
    simp only [walshProduct, hr, hg]
    rw [show x / 2 * (2 * u) = x * u by ring]
    cases b <;> simp
  rw [h1, h2, intervalIntegral.integral_const_mul, integral_comp_mul_left _ (by norm_num : (2 : ℝ) ≠ 0),
    integral_comp_mul_left _ (by norm_num : (2 : ℝ) ≠ 0)]
  have h3 : ∫ u in (2 * (1 / 2) : ℝ)..(2 * 1), g u = ∫ u in (0:ℝ)..1, g (u + 1) := by
    rw [integral_comp_add_right]; norm_num
  have h4 : ∫ u in (0:ℝ)..1, g (u + 1) = exp (I * (x / 2 : ℝ)) * ∫ u in (0:ℝ)..1, g u := by
    rw [← intervalIntegral.integral_const_mul]
    congr 1
    funext u
    simp only [hg, walshProduct_periodic]
    rw [mul_left_comm, ← exp_add]
    congr 2
    push_cast; ring
  rw [h3, h4, show (2 * 0 : ℝ) = 0 by norm_num, show (2 * (1 / 2) : ℝ) = 1 by norm_num]
  simp only [real_smul]
  push_cast
  ring

/-- the product of sines, for the digits one, and cosines, for the digits zero -/
noncomputable def digitProduct : List Bool → ℝ → ℝ
  | [], x => 2 * Real.sin (x / 2)
  | b :: bs, x => (if b then Real.sin (x / 4) else Real.cos (x / 4)) * (2 * digitProduct bs (x / 2))

theorem walshResponse_norm (bs : List Bool) (x : ℝ) : |x| * ‖walshResponse bs x‖ = |digitProduct bs x| := by
  induction bs generalizing x with
  | nil =>
    have h := response_nil (T := 1) zero_le_one x
    unfold response at h
    have e : ∀ t : ℝ, switching [] t = 1 := by intro t; simp [switching]
    simp only [e] at h
    unfold walshResponse digitProduct
    simp only [walshProduct]
    rw [h, mul_one, abs_mul, abs_of_pos (by norm_num : (0:ℝ) < 2)]
  | cons b bs ih =>
    rw [walshResponse_cons, digitProduct, norm_mul, norm_mul]
    have hf : ‖(1 : ℂ) + (if b then -1 else 1) * exp (I * (x / 2 : ℝ))‖ =
        2 * |if b then Real.sin (x / 4) else Real.cos (x / 4)| := by
      cases b with
      | true =>
        simp only [if_true]
        rw [neg_one_mul, ← sub_eq_add_neg, norm_one_sub_wave, show x / 2 / 2 = x / 4 by ring]
      | false =>
        simp only [Bool.false_eq_true, if_false]
        rw [one_mul, norm_one_add_wave, show x / 2 / 2 = x / 4 by ring]
    rw [hf, abs_mul, abs_mul, ← ih (x / 2), abs_div]
    norm_num
    ring

theorem response_walsh {T : ℝ} (hT : 0 < T) {k : ℕ} (hk : k ≠ 0) (ω : ℝ) :
    |ω| * ‖response (walshTimes T k) T ω‖ = |digitProduct (orderBits k) (ω * T)| := by
  have hW : ∀ x, paley k x = walshProduct (orderBits k) x := by
    intro x; unfold paley orderBits; rw [walshProduct_range]
  set g : ℝ → ℂ := fun u => ((walshProduct (orderBits k) u : ℝ) : ℂ) * exp (I * (ω * T * u : ℝ)) with hg
  have h1 : response (walshTimes T k) T ω = ∫ t in 0..T, g (t / T) := by
    unfold response
    apply intervalIntegral.integral_congr_ae
    have hcount : Set.Countable (Set.range fun c : ℕ => T * ((c : ℝ) / 2 ^ (Nat.log2 k + 1))) :=
      Set.countable_range _
    filter_upwards [ae_ne T, hcount.ae_notMem volume] with t ht hedge ht'
    rw [Set.uIoc_of_le hT.le] at ht'
    have hne : paley k (t / T) ≠ 0 := by
      rw [Ne, paley_eq_zero_iff hk (div_pos ht'.1 hT)]
      rintro ⟨c, hc⟩
      apply hedge
      refine ⟨c, ?_⟩
      simp only
      rw [← hc]; field_simp
    rw [walsh_switching hT hk ht'.1 (lt_of_le_of_ne ht'.2 ht) hne, hW]
    simp only [hg]
    rw [show ω * T * (t / T) = ω * t by field_simp]
  rw [h1, integral_comp_div _ hT.ne', zero_div, div_self hT.ne', ← walshResponse_norm]
  have e : ∫ x in (0:ℝ)..1, g x = walshResponse (orderBits k) (ω * T) := rfl
  rw [e, norm_smul, Real.norm_eq_abs, abs_mul]
  ring

/-- for all digits one -/
theorem digitProduct_ones (l : ℕ) (x : ℝ) : digitProduct (List.replicate l true) x =
    2 ^ (l + 1) * Real.sin (x / 2 ^ (l + 1)) * ∏ j ∈ Finset.range l, Real.sin (x / 2 ^ (j + 2)) := by
  induction l generalizing x with
  | zero => simp [digitProduct]
  | succ l ih =>
    rw [List.replicate_succ, digitProduct, ih, Finset.prod_range_succ']
    have : ∀ j : ℕ, x / 2 / 2 ^ (j + 2) = x / 2 ^ (j + 1 + 2) := by
      intro j; rw [div_div, ← pow_succ']
    simp only [this, if_true]
    rw [show x / 2 / 2 ^ (l + 1) = x / 2 ^ (l + 1 + 1) by rw [div_div, ← pow_succ'],
      show x / 2 ^ (0 + 2) = x / 4 by norm_num]
    ring

theorem digitProduct_range (f : ℕ → Bool) (n : ℕ) (x : ℝ) : digitProduct ((List.range n).map f) x =
    2 ^ (n + 1) * Real.sin (x / 2 ^ (n + 1)) *
      ∏ j ∈ Finset.range n, if f j then Real.sin (x / 2 ^ (j + 2)) else Real.cos (x / 2 ^ (j + 2)) := by
  induction n generalizing f x with
  | zero => simp [digitProduct]
  | succ n ih =>
    rw [List.range_succ_eq_map, List.map_cons, List.map_map, digitProduct, ih, Finset.prod_range_succ']
    have : ∀ j : ℕ, x / 2 / 2 ^ (j + 2) = x / 2 ^ (j + 1 + 2) := by
      intro j; rw [div_div, ← pow_succ']
    simp only [this, Function.comp_apply, Nat.succ_eq_add_one]
    rw [show x / 2 / 2 ^ (n + 1) = x / 2 ^ (n + 1 + 1) by rw [div_div, ← pow_succ'],
      show x / 2 ^ (0 + 2) = x / 4 by norm_num]
    ring

/-! ### Low frequencies -/

theorem response_taylor {T : ℝ} (hT : 0 ≤ T) (times : List ℝ) {m : ℕ}
    (h : ∀ k < m, ∫ t in 0..T, switching times t * t ^ k = 0) (ω : ℝ) :
    ‖response times T ω - (I * ω) ^ m / m.factorial * ((∫ t in 0..T, switching times t * t ^ m : ℝ) : ℂ)‖ ≤
      |ω| ^ (m + 1) * (T ^ (m + 2) * Real.exp (|ω| * T)) := by
  have hpoly : ∫ t in 0..T, ((switching times t : ℝ) : ℂ) *
      ∑ k ∈ Finset.range (m + 1), (I * (ω * t : ℝ)) ^ k / k.factorial =
      (I * ω) ^ m / m.factorial * ((∫ t in 0..T, switching times t * t ^ m : ℝ) : ℂ) := by
    have e : ∀ t : ℝ, ((switching times t : ℝ) : ℂ) *
        ∑ k ∈ Finset.range (m + 1), (I * (ω * t : ℝ)) ^ k / k.factorial =
        ∑ k ∈ Finset.range (m + 1), (I * ω) ^ k / k.factorial * ((switching times t * t ^ k : ℝ) : ℂ) := by
      intro t
      rw [Finset.mul_sum]
      refine Finset.sum_congr rfl fun k _ => ?_
      push_cast
      ring
    simp only [e]
    have hi : ∀ k : ℕ, IntervalIntegrable (fun t => ((switching times t * t ^ k : ℝ) : ℂ)) volume 0 T := by
      intro k
      have h : IntervalIntegrable (fun t => switching times t * t ^ k) volume 0 T :=
        switching_integrable times (continuous_pow k) T
      exact ⟨h.1.ofReal, h.2.ofReal⟩
    rw [intervalIntegral.integral_finsetSum fun k _ => (hi k).const_mul _, Finset.sum_range_succ,
      Finset.sum_eq_zero, zero_add, intervalIntegral.integral_const_mul, intervalIntegral.integral_ofReal]
    intro k hk
    rw [intervalIntegral.integral_const_mul, intervalIntegral.integral_ofReal, h k (Finset.mem_range.mp hk)]
    simp
  have hc : Continuous fun t : ℝ => ∑ k ∈ Finset.range (m + 1), (I * (ω * t : ℝ)) ^ k / (k.factorial : ℂ) := by
    fun_prop
  rw [← hpoly]
  unfold response
  rw [← intervalIntegral.integral_sub (response_integrable times (continuous_wave ω) T)
    (response_integrable times hc T)]
  have hb : ∀ t ∈ Set.uIoc 0 T, ‖((switching times t : ℝ) : ℂ) * exp (I * (ω * t : ℝ)) -
      ((switching times t : ℝ) : ℂ) * ∑ k ∈ Finset.range (m + 1), (I * (ω * t : ℝ)) ^ k / k.factorial‖ ≤
      (|ω| * T) ^ (m + 1) * Real.exp (|ω| * T) := by
    intro t ht
    rw [Set.uIoc_of_le hT] at ht
    rw [← mul_sub, norm_mul, norm_real, Real.norm_eq_abs, switching_abs, one_mul]
    refine (norm_exp_sub_sum_le_norm_mul_exp _ _).trans ?_
    have hn : ‖I * ((ω * t : ℝ) : ℂ)‖ ≤ |ω| * T := by
      rw [norm_mul, norm_I, one_mul, norm_real, Real.norm_eq_abs, abs_mul, abs_of_pos ht.1]
      exact mul_le_mul_of_nonneg_left ht.2 (abs_nonneg _)
    exact mul_le_mul (pow_le_pow_left₀ (norm_nonneg _) hn _) (Real.exp_le_exp.mpr hn) (Real.exp_pos _).le
      (by positivity)
  refine (intervalIntegral.norm_integral_le_of_norm_le_const hb).trans (le_of_eq ?_)
  rw [sub_zero, abs_of_nonneg hT]
  ring

theorem response_limit {T : ℝ} (hT : 0 ≤ T) (times : List ℝ) {m : ℕ}
    (h : ∀ k < m, ∫ t in 0..T, switching times t * t ^ k = 0) :
    Filter.Tendsto (fun ω : ℝ => ‖response times T ω‖ / |ω| ^ m) (𝓝[≠] 0)
      (𝓝 (|∫ t in 0..T, switching times t * t ^ m| / m.factorial)) := by
  set M : ℝ := ∫ t in 0..T, switching times t * t ^ m with hM
  rw [tendsto_iff_norm_sub_tendsto_zero]
  have hg : Filter.Tendsto (fun ω : ℝ => |ω| * (T ^ (m + 2) * Real.exp (|ω| * T))) (𝓝[≠] 0) (𝓝 0) := by
    have : Continuous fun ω : ℝ => |ω| * (T ^ (m + 2) * Real.exp (|ω| * T)) := by fun_prop
    have h0 := this.tendsto 0
    simp only [abs_zero, zero_mul] at h0
    exact h0.mono_left nhdsWithin_le_nhds
  refine squeeze_zero' (Filter.Eventually.of_forall fun _ => norm_nonneg _) ?_ hg
  filter_upwards [self_mem_nhdsWithin] with ω hω
  have hω0 : 0 < |ω| := abs_pos.mpr hω
  have hmain := response_taylor hT times h ω
  rw [← hM] at hmain
  have hnorm : ‖(I * (ω : ℂ)) ^ m / (m.factorial : ℂ) * (M : ℂ)‖ = |ω| ^ m * (|M| / m.factorial) := by
    rw [norm_mul, norm_div, norm_pow, norm_mul, norm_I, one_mul, norm_real, norm_real, Real.norm_eq_abs,
      Real.norm_eq_abs, Complex.norm_natCast]
    ring
  have hd := (abs_norm_sub_norm_le _ _).trans hmain
  rw [hnorm] at hd
  have e : ‖response times T ω‖ / |ω| ^ m - |M| / m.factorial =
      (‖response times T ω‖ - |ω| ^ m * (|M| / m.factorial)) / |ω| ^ m := by
    field_simp
  rw [e, norm_div, Real.norm_eq_abs, Real.norm_eq_abs, abs_of_pos (pow_pos hω0 m), div_le_iff₀ (pow_pos hω0 m)]
  refine hd.trans (le_of_eq ?_)
  rw [pow_succ]; ring

end OpenControls
