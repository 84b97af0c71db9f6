import Verif.Proofs.SlowNoise

/-!
# C98: noise that varies slowly during a sequence
-/

namespace OpenControls

open Spec RealInst
open scoped Matrix.Norms.L2Operator

/-- **C98**, the phase: if a sequence cancels dephasing noise to the order `family.cancellationOrder`, then for every
`k` up to this order and every noise with `k` continuous derivatives, the `k`-th bounded by `B`, the phase picked
up is at most `B T^(k+1) / (2^k (k+1)!)`. -/
theorem C98_phase (family : Family) (T : ℝ) (prePost : Bool) (name : Option String) (s : Sequence ℝ)
    (hs : family.call T prePost name = .ok s) (k : ℕ) (hk : k ≤ family.cancellationOrder) (β : ℝ → ℝ)
    (hβ : ContDiff ℝ k β) (B : ℝ) (hB : ∀ t ∈ Set.Icc 0 T, |iteratedDeriv k β t| ≤ B) :
    |∫ t in 0..T, sensitivity s t * β t| ≤ B * T ^ (k + 1) / (2 ^ k * (k + 1).factorial) := by
  have hc := (C72_cancellation_order family T prePost name s hs).1
  obtain ⟨⟨hT, hv⟩, hw⟩ := (C43_well_formed family T prePost name).ok hs
  rw [hw.1] at hc
  rw [Family.call_eq hv hT] at hs
  injection hs with hs
  subst hs
  simp only [sensitivity_finished] at hc ⊢
  have hint : ∀ f : ℝ → ℝ, Continuous f → IntervalIntegrable
      (fun t => switching (flipTimes (family.table T)) t * f t) MeasureTheory.volume 0 T :=
    fun f hf => (integral_switching (primitive_deriv hf) hf T _ 0 hT.le
      (axisFlips_sorted (Family.table_sorted hv hT) .z) (fun t ht => by
        unfold axisFlips at ht
        obtain ⟨p, hp, rfl⟩ := List.mem_map.mp ht
        have := Family.table_bounds hv hT p (List.mem_of_mem_filter hp)
        exact ⟨this.1.le, this.2⟩)).1
  refine slow_phase hT.le hβ (fun t => by simp [switching]) hint ?_ hB
  intro p hp
  have he : ∀ t, switching (flipTimes (family.table T)) t * p.eval t =
      ∑ j ∈ Finset.range (p.natDegree + 1), p.coeff j *
        (switching (flipTimes (family.table T)) t * t ^ j) := by
    intro t
    rw [Polynomial.eval_eq_sum_range, Finset.mul_sum]
    exact Finset.sum_congr rfl fun j _ => by ring
  simp only [he]
  rw [intervalIntegral.integral_finsetSum fun j _ => (hint _ (continuous_pow j)).const_mul _]
  refine Finset.sum_eq_zero fun j hj => ?_
  rw [intervalIntegral.integral_const_mul]
  by_cases h0 : p = 0
  · simp [h0]
  · have : p.natDegree < k := by
      rw [Polynomial.degree_eq_natDegree h0] at hp
      exact_mod_cast hp
    rw [hc j (by have := Finset.mem_range.mp hj; omega), mul_zero]

/-- **C98.** The evolution under such noise differs from that of the ideal pulses, in the operator norm, by at most
half of that phase. -/
theorem C98_evolution (family : Family) (T : ℝ) (prePost : Bool) (name : Option String) (s : Sequence ℝ)
    (hs : family.call T prePost name = .ok s) (k : ℕ) (hk : k ≤ family.cancellationOrder) (β : ℝ → ℝ)
    (hβ : ContDiff ℝ k β) (B : ℝ) (hB : ∀ t ∈ Set.Icc 0 T, |iteratedDeriv k β t| ≤ B) :
    ‖underNoise (dephasing β) s - pulses s‖ ≤ B * T ^ (k + 1) / (2 ^ k * (k + 1).factorial) / 2 := by
  have hphase := C98_phase family T prePost name s hs k hk β hβ B hB
  obtain ⟨⟨hT, hv⟩, -⟩ := (C43_well_formed family T prePost name).ok hs
  rw [Family.call_eq hv hT] at hs
  injection hs with hs
  subst hs
  simp only [sensitivity_finished] at hphase
  have hd : ‖tableNoise (dephasing β) T 0 (family.table T) - tableProduct (family.table T)‖ ≤
      B * T ^ (k + 1) / (2 ^ k * (k + 1).factorial) / 2 := by
    rw [family_dephasing hv hT hβ.continuous]
    set θ := ∫ t in 0..T, switching (flipTimes (family.table T)) t * β t
    have hn : ‖tableProduct (family.table T)‖ ≤ 1 := tableProduct_norm _
    have e : tableProduct (family.table T) * zrot θ - tableProduct (family.table T) =
        tableProduct (family.table T) * (zrot θ - 1) := by rw [mul_sub, mul_one]
    rw [e]
    refine (norm_mul_le _ _).trans ?_
    have := zrot_dist θ
    calc _ ≤ 1 * (|θ| / 2) := mul_le_mul hn this (norm_nonneg _) zero_le_one
      _ ≤ _ := by linarith
  cases prePost with
  | false =>
    have e : finished T (family.table T) false name = piSequence T (family.table T) name := rfl
    rw [e, underNoise_table, pulses_table]
    exact hd
  | true =>
    have e : finished T (family.table T) true name =
      withPrePost (finalAngle (family.table T)) (piSequence T (family.table T) name) := rfl
    rw [e, underNoise_withPrePost _ (dephasing_refl _), pulses_withPrePost_eq, ← sub_mul, ← mul_sub]
    refine (norm_mul_le _ _).trans ?_
    have h0 : 0 ≤ B * T ^ (k + 1) / (2 ^ k * (k + 1).factorial) / 2 := (norm_nonneg _).trans hd
    calc _ ≤ (1 * (B * T ^ (k + 1) / (2 ^ k * (k + 1).factorial) / 2)) * 1 := by
          refine mul_le_mul ((norm_mul_le _ _).trans ?_) (pulse_norm _ _ _) (norm_nonneg _) (by linarith)
          exact mul_le_mul (pulse_norm _ _ _) hd (norm_nonneg _) zero_le_one
      _ = _ := by ring

/-- **C98**, with pre and post rotations: the probability not to find the qubit in its initial state is at most the
square of half of that phase. -/
theorem C98_return_probability (family : Family) (T : ℝ) (name : Option String) (s : Sequence ℝ)
    (hs : family.call T true name = .ok s) (k : ℕ) (hk : k ≤ family.cancellationOrder) (β : ℝ → ℝ)
    (hβ : ContDiff ℝ k β) (B : ℝ) (hB : ∀ t ∈ Set.Icc 0 T, |iteratedDeriv k β t| ≤ B) :
    1 - (B * T ^ (k + 1) / (2 ^ k * (k + 1).factorial) / 2) ^ 2 ≤
      returnProbability (underNoise (dephasing β) s) := by
  have hphase := C98_phase family T true name s hs k hk β hβ B hB
  rw [C81_return_probability family T name s hs β hβ.continuous, Real.cos_sq']
  set θ := ∫ t in 0..T, sensitivity s t * β t
  have h1 : |Real.sin (θ / 2)| ≤ |θ / 2| := Real.abs_sin_le_abs
  have h2 : |θ / 2| ≤ B * T ^ (k + 1) / (2 ^ k * (k + 1).factorial) / 2 := by
    rw [abs_div, abs_two]; linarith
  have h3 := pow_le_pow_left₀ (abs_nonneg _) (h1.trans h2) 2
  rw [sq_abs] at h3
  linarith

/-- the hypotheses are met: a CPMG sequence of four pulses lasting `T` under the noise `sin t`, which has second
derivative at most one: the error probability is at most `(T³/48)²` -/
example (T : ℝ) (hT : 0 < T) : ∃ s, newCPMGSequence T 4 true none = .ok s ∧
    1 - (T ^ 3 / 48) ^ 2 ≤ returnProbability (underNoise (dephasing Real.sin) s) := by
  obtain ⟨s, hs, -⟩ := (C43_well_formed (.cpmg 4) T true none).1 ⟨hT, show (1 : ℝ) ≤ 4 by norm_num⟩
  refine ⟨s, hs, ?_⟩
  have ho : 2 ≤ (Family.cpmg 4).cancellationOrder := by
    simp [Family.cancellationOrder, show Even 4 by decide]
  have h := C98_return_probability (.cpmg 4) T none s hs 2 ho Real.sin Real.contDiff_sin 1 (by
    intro t _
    have : iteratedDeriv 2 Real.sin t = -Real.sin t := by
      rw [iteratedDeriv_succ, iteratedDeriv_one, Real.deriv_sin, Real.deriv_cos]
    rw [this, abs_neg]
    exact Real.abs_sin_le_one t)
  have e : 1 * T ^ (2 + 1) / (2 ^ 2 * ((2 + 1).factorial : ℝ)) / 2 = T ^ 3 / 48 := by
    norm_num [Nat.factorial]; ring
  rwa [e] at h

end OpenControls
