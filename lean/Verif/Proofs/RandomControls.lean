import Verif.Proofs.NoiseMeasurable
import Verif.Props.RandomNoise
import Verif.Props.NoisyPipeline

/-!
# Controls under random dephasing noise
-/

namespace OpenControls

open Spec RealInst MeasureTheory
open scoped Matrix.Norms.L2Operator

/-- dephasing noise changes the evolution of a predefined sequence by at most half of the phase -/
theorem family_phase_dist (family : Family) (T : ℝ) (prePost : Bool) (name : Option String) (s : Sequence ℝ)
    (hs : family.call T prePost name = .ok s) (β : ℝ → ℝ) (hβ : Continuous β) :
    ‖underNoise (dephasing β) s - pulses s‖ ≤ |dephasingPhase s β| / 2 := by
  obtain ⟨⟨hT, hv⟩, hw⟩ := (C43_well_formed family T prePost name).ok hs
  have hd : s.duration = T := hw.1
  unfold dephasingPhase
  rw [hd]
  rw [Family.call_eq hv hT] at hs
  injection hs with hs
  subst hs
  simp only [sensitivity_finished]
  set θ := ∫ t in 0..T, switching (flipTimes (family.table T)) t * β t with hθ
  have hk : ‖tableNoise (dephasing β) T 0 (family.table T) - tableProduct (family.table T)‖ ≤ |θ| / 2 := by
    rw [family_dephasing hv hT hβ, ← hθ]
    have hn : ‖tableProduct (family.table T)‖ ≤ 1 := tableProduct_norm _
    have e : tableProduct (family.table T) * zrot θ - tableProduct (family.table T) =
        tableProduct (family.table T) * (zrot θ - 1) := by rw [mul_sub, mul_one]
    rw [e]
    refine (norm_mul_le _ _).trans ?_
    calc _ ≤ 1 * (|θ| / 2) := mul_le_mul hn (zrot_dist θ) (norm_nonneg _) zero_le_one
      _ = _ := one_mul _
  cases prePost with
  | false =>
    have e : finished T (family.table T) false name = piSequence T (family.table T) name := rfl
    rw [e, underNoise_table, pulses_table]
    exact hk
  | true =>
    have e : finished T (family.table T) true name =
      withPrePost (finalAngle (family.table T)) (piSequence T (family.table T) name) := rfl
    rw [e, underNoise_withPrePost _ (dephasing_refl _), pulses_withPrePost_eq, ← sub_mul, ← mul_sub]
    refine (norm_mul_le _ _).trans ?_
    have h0 : 0 ≤ |θ| / 2 := by positivity
    calc _ ≤ (1 * (|θ| / 2)) * 1 := by
          refine mul_le_mul ((norm_mul_le _ _).trans ?_) (pulse_norm _ _ _) (norm_nonneg _) (by linarith)
          exact mul_le_mul (pulse_norm _ _ _) hk (norm_nonneg _) zero_le_one
      _ = _ := by ring

/-- the mean square of half the phase and a constant -/
theorem phase_square_mean {Ω : Type} [MeasurableSpace Ω] {P : Measure Ω} [IsProbabilityMeasure P] {θ : Ω → ℝ}
    (hm : Measurable θ) (hi : Integrable (fun x => θ x ^ 2) P) {d : ℝ} (hd : 0 ≤ d) :
    Integrable (fun x => (|θ x| / 2 + d) ^ 2) P ∧
    ∫ x, (|θ x| / 2 + d) ^ 2 ∂P ≤ (√(∫ x, θ x ^ 2 ∂P) / 2 + d) ^ 2 := by
  have ha : Integrable (fun x => |θ x|) P := by
    refine ((integrable_const (1 : ℝ)).add hi).mono' hm.abs.aestronglyMeasurable
      (Filter.Eventually.of_forall fun x => ?_)
    rw [Real.norm_eq_abs, abs_abs, Pi.add_apply]
    nlinarith [sq_nonneg (|θ x| - 1), sq_abs (θ x), abs_nonneg (θ x)]
  have e : ∀ x, (|θ x| / 2 + d) ^ 2 = θ x ^ 2 / 4 + d * |θ x| + d ^ 2 := fun x => by
    rw [← sq_abs (θ x)]; ring
  have h1 := hi.div_const 4
  have h2 := ha.const_mul d
  have h12 : Integrable (fun x => θ x ^ 2 / 4 + d * |θ x|) P := h1.add h2
  simp only [e]
  refine ⟨h12.add (integrable_const _), ?_⟩
  rw [integral_add h12 (integrable_const _), integral_add h1 h2, integral_div, integral_const_mul, integral_const]
  have hnn : 0 ≤ ∫ x, θ x ^ 2 ∂P := integral_nonneg fun x => sq_nonneg _
  set V := ∫ x, θ x ^ 2 ∂P with hV
  have hmean : ∫ x, |θ x| ∂P ≤ √V := by
    refine Real.le_sqrt_of_sq_le ?_
    set μ := ∫ x, |θ x| ∂P with hμ
    have hpos : 0 ≤ ∫ x, (|θ x| - μ) ^ 2 ∂P := integral_nonneg fun x => sq_nonneg _
    have e2 : ∀ x, (|θ x| - μ) ^ 2 = θ x ^ 2 - 2 * μ * |θ x| + μ ^ 2 := fun x => by
      rw [← sq_abs (θ x)]; ring
    have h3 := ha.const_mul (2 * μ)
    have h13 : Integrable (fun x => θ x ^ 2 - 2 * μ * |θ x|) P := hi.sub h3
    simp only [e2] at hpos
    rw [integral_add h13 (integrable_const _), integral_sub hi h3, integral_const_mul, integral_const, ← hμ, ← hV] at hpos
    simp only [probReal_univ, smul_eq_mul, one_mul] at hpos
    nlinarith
  simp only [probReal_univ, smul_eq_mul, one_mul]
  have hs := Real.sq_sqrt hnn
  nlinarith [mul_le_mul_of_nonneg_left hmean hd]

/-- averages over the runs, from a bound in every run -/
theorem random_average {Ω : Type} [MeasurableSpace Ω] {P : Measure Ω} [IsProbabilityMeasure P] {β : Ω → ℝ → ℝ}
    {S : Measure ℝ} [IsFiniteMeasure S] (h : StationaryNoise P β S) {s : Sequence ℝ} (hd0 : 0 ≤ s.duration)
    {gs : List (Segment ℝ)} (hg : ∀ g ∈ gs, 0 < g.duration) {cname : Option String}
    {U : Ω → ℝ → M2} (hU : ∀ x, NoisyEvolution (ofSegments gs cname) ⟨fun _ => 0, fun _ => 0, β x⟩ (U x)) {d : ℝ}
    (hd : 0 ≤ d) {V : M2} (hx : ∀ x, ‖U x (total gs) - V‖ ≤ |dephasingPhase s (β x)| / 2 + d) :
    (Integrable (fun x => ‖U x (total gs) - V‖ ^ 2) P ∧
      ∫ x, ‖U x (total gs) - V‖ ^ 2 ∂P ≤ (√(spectralOverlap s S) / 2 + d) ^ 2) ∧
    ((EqUpToPhase V 1 ∨ EqUpToPhase V σz) → Integrable (fun x => returnProbability (U x (total gs))) P ∧
      1 - (√(spectralOverlap s S) / 2 + d) ^ 2 ≤ ∫ x, returnProbability (U x (total gs)) ∂P) := by
  obtain ⟨hi, hf⟩ := C138_filter_function h s hd0
  obtain ⟨h1, h2⟩ := phase_square_mean (dephasingPhase_measurable h hd0) hi hd
  have hf' : _ = spectralOverlap s S := hf
  rw [hf'] at h2
  constructor
  · have hF : Continuous fun A : M2 => ‖A - V‖ ^ 2 := by fun_prop
    have hint := evolution_integrable (P := P) h.continuous h.measurable hg cname hF (C := (1 + ‖V‖) ^ 2)
      (fun A hA => by
        rw [abs_of_nonneg (by positivity)]
        refine pow_le_pow_left₀ (norm_nonneg _) ((norm_sub_le A V).trans ?_) 2
        linarith) hU
    exact ⟨hint, (integral_mono hint h1 fun x => pow_le_pow_left₀ (norm_nonneg _) (hx x) 2).trans h2⟩
  · intro hV
    have hint := evolution_integrable (P := P) h.continuous h.measurable hg cname returnProbability_continuous
      (C := 1) (fun A hA => by
        unfold returnProbability
        rw [abs_of_nonneg (by positivity)]
        exact pow_le_one₀ (norm_nonneg _) ((entry_le_norm A 0 0).trans hA)) hU
    refine ⟨hint, ?_⟩
    have k1 : ∫ x, (1 - (|dephasingPhase s (β x)| / 2 + d) ^ 2) ∂P ≤ ∫ x, returnProbability (U x (total gs)) ∂P := by
      refine integral_mono ((integrable_const 1).sub h1) hint fun x => ?_
      obtain ⟨u0, u1, u2⟩ := noisyEvolution_follows.mp (hU x)
      refine isometry_returnProbability ?_ hV (hx x)
      rw [follows_unique u1 u1 u2 u2 _ ⟨total_nonneg hg, le_rfl⟩, u0]
      simp
    rw [integral_sub (integrable_const 1) h1] at k1
    simp only [integral_const, probReal_univ, smul_eq_mul, mul_one] at k1
    linarith

end OpenControls
