import Verif.Proofs.RandomNoise
import Verif.Props.Spectrum

/-!
# C138: random dephasing noise with a given spectrum

`StationaryNoise`, `dephasingPhase` and `spectralOverlap` are in `Verif/Spec/RandomNoise.lean`, `toneResponse` in
`Verif/Spec/Spectrum.lean`.
-/

namespace OpenControls

open Spec RealInst MeasureTheory ProbabilityTheory
open scoped Topology

section
variable {Ω : Type} [MeasurableSpace Ω] {P : Measure Ω} [IsProbabilityMeasure P] {β : Ω → ℝ → ℝ} {S : Measure ℝ}
  [IsFiniteMeasure S]

/-- **C138**, the phase is zero on average. -/
theorem C138_mean (h : StationaryNoise P β S) (s : Sequence ℝ) (hT : 0 ≤ s.duration) :
    ∫ x, dephasingPhase s (β x) ∂P = 0 := by
  simp only [dephasingPhase_eq hT]
  exact stationary_mean h (switching_measurable _) (switching_abs _) _

/-- **C138**, the filter function: the mean square of the phase picked up by any sequence is the integral of the
square of its response over the spectrum of the noise. -/
theorem C138_filter_function (h : StationaryNoise P β S) (s : Sequence ℝ) (hT : 0 ≤ s.duration) :
    Integrable (fun x => dephasingPhase s (β x) ^ 2) P ∧
    ∫ x, dephasingPhase s (β x) ^ 2 ∂P = ∫ ω, ‖toneResponse s ω‖ ^ 2 ∂S := by
  refine ⟨dephasingPhase_square_integrable h hT, ?_⟩
  simp only [dephasingPhase_eq hT, toneResponse_square hT]
  exact stationary_filter h (switching_measurable _) (switching_abs _) _

/-- **C138**, low frequencies: a predefined sequence suppresses the mean square of the phase by the power `2k` of the
frequencies, for every `k` up to its order of cancellation. -/
theorem C138_suppression (h : StationaryNoise P β S) (family : Family) (T : ℝ) (prePost : Bool)
    (name : Option String) (s : Sequence ℝ) (hs : family.call T prePost name = .ok s) (k : ℕ)
    (hk : k ≤ family.cancellationOrder) (hS : Integrable (fun ω : ℝ => ω ^ (2 * k)) S) :
    ∫ x, dephasingPhase s (β x) ^ 2 ∂P ≤
      (T ^ (k + 1) / (2 ^ k * (k + 1).factorial)) ^ 2 * ∫ ω, ω ^ (2 * k) ∂S := by
  obtain ⟨⟨hT, -⟩, hw⟩ := (C43_well_formed family T prePost name).ok hs
  have hd : s.duration = T := hw.1
  rw [(C138_filter_function h s (by rw [hd]; exact hT.le)).2, ← integral_const_mul]
  refine integral_mono_of_nonneg (Filter.Eventually.of_forall fun ω => sq_nonneg _) (hS.const_mul _)
    (Filter.Eventually.of_forall fun ω => ?_)
  have hb := C123_suppression family T prePost name s hs k hk ω
  have := pow_le_pow_left₀ (norm_nonneg _) hb 2
  refine this.trans (le_of_eq ?_)
  simp only []
  rw [pow_mul, ← sq_abs ω, div_pow, div_pow, mul_pow, ← pow_mul, ← pow_mul, mul_comm k 2]
  ring

/-- **C138**, noise below a cut-off frequency: the mean square of the phase is at most
`σ² Ω^(2k) (T^(k+1)/(2^k (k+1)!))²` for noise of the power `σ²` at frequencies up to `Ω`. -/
theorem C138_cutoff (h : StationaryNoise P β S) (family : Family) (T : ℝ) (prePost : Bool)
    (name : Option String) (s : Sequence ℝ) (hs : family.call T prePost name = .ok s) (k : ℕ)
    (hk : k ≤ family.cancellationOrder) (Λ : ℝ) (hS : ∀ᵐ ω ∂S, |ω| ≤ Λ) (t : ℝ) :
    ∫ x, dephasingPhase s (β x) ^ 2 ∂P ≤
      (∫ x, β x t ^ 2 ∂P) * Λ ^ (2 * k) * (T ^ (k + 1) / (2 ^ k * (k + 1).factorial)) ^ 2 := by
  have hle : ∀ᵐ ω ∂S, ω ^ (2 * k) ≤ Λ ^ (2 * k) := hS.mono fun ω hω => by
    rw [pow_mul, pow_mul, ← sq_abs ω]
    exact pow_le_pow_left₀ (sq_nonneg _) (pow_le_pow_left₀ (abs_nonneg _) hω 2) k
  have hi : Integrable (fun ω : ℝ => ω ^ (2 * k)) S :=
    (integrable_const (Λ ^ (2 * k))).mono' (by fun_prop) (hle.mono fun ω hω => by
      rw [Real.norm_eq_abs, abs_of_nonneg (by rw [pow_mul]; positivity)]; exact hω)
  refine (C138_suppression h family T prePost name s hs k hk hi).trans ?_
  rw [stationary_power h, mul_comm]
  refine mul_le_mul_of_nonneg_right ?_ (sq_nonneg _)
  refine (integral_mono_ae hi (integrable_const _) hle).trans (le_of_eq ?_)
  rw [integral_const, smul_eq_mul]

/-- **C138**, slow noise: if the noise is slowed down by a factor `ε`, the mean square of the phase picked up by a
predefined sequence vanishes exactly as `ε^(2m)`, where `m` is its order of cancellation: the quotient converges to
the moment of the spectrum times a factor that is not zero. -/
theorem C138_slow (h : StationaryNoise P β S) (family : Family) (T : ℝ) (prePost : Bool) (name : Option String)
    (s : Sequence ℝ) (hs : family.call T prePost name = .ok s)
    (hS : Integrable (fun ω : ℝ => ω ^ (2 * family.cancellationOrder)) S) :
    ∃ c : ℝ, 0 < c ∧
      Filter.Tendsto (fun ε : ℝ => (∫ x, dephasingPhase s (fun t => β x (ε * t)) ^ 2 ∂P) /
        ε ^ (2 * family.cancellationOrder)) (𝓝[≠] 0)
        (𝓝 (c ^ 2 * ∫ ω, ω ^ (2 * family.cancellationOrder) ∂S)) := by
  obtain ⟨⟨hT, -⟩, hw⟩ := (C43_well_formed family T prePost name).ok hs
  have hd : s.duration = T := hw.1
  have hd0 : 0 < s.duration := by rw [hd]; exact hT
  set m := family.cancellationOrder with hm
  have hC := C72_cancellation_order family T prePost name s hs
  obtain ⟨hc, hlim⟩ := C123_order s hd0 m hC
  set c := |∫ t in 0..s.duration, sensitivity s t * t ^ m| / m.factorial with hcdef
  refine ⟨c, hc, ?_⟩
  have e : ∀ ε : ℝ, (∫ x, dephasingPhase s (fun t => β x (ε * t)) ^ 2 ∂P) / ε ^ (2 * m) =
      ∫ ω, ‖toneResponse s (ε * ω)‖ ^ 2 / ε ^ (2 * m) ∂S := by
    intro ε
    rw [(C138_filter_function (stationary_slowed h ε) s hd0.le).2, integral_map (by fun_prop)
      (toneResponse_measurable hd0.le).aestronglyMeasurable, integral_div]
  simp only [e]
  rw [← integral_const_mul]
  set K := T ^ (m + 1) / (2 ^ m * (m + 1).factorial) with hK
  refine tendsto_integral_filter_of_dominated_convergence (fun ω => K ^ 2 * ω ^ (2 * m)) ?_ ?_ (hS.const_mul _) ?_
  · refine Filter.Eventually.of_forall fun ε => Measurable.aestronglyMeasurable ?_
    exact ((toneResponse_measurable hd0.le).comp (measurable_const_mul ε)).div_const _
  · refine eventually_nhdsWithin_of_forall fun ε (hε : ε ≠ 0) => Filter.Eventually.of_forall fun ω => ?_
    have hb := C123_suppression family T prePost name s hs m le_rfl (ε * ω)
    have h2 := pow_le_pow_left₀ (norm_nonneg _) hb 2
    have hpos : 0 < ε ^ (2 * m) := by rw [pow_mul]; positivity
    rw [Real.norm_eq_abs, abs_of_nonneg (by positivity), div_le_iff₀ hpos]
    refine h2.trans (le_of_eq ?_)
    rw [hK, pow_mul, pow_mul ε, ← sq_abs ω, ← sq_abs ε, abs_mul]
    ring
  · refine Filter.Eventually.of_forall fun ω => ?_
    rcases eq_or_ne ω 0 with rfl | hω
    · have h0 : ∀ ε : ℝ, ε ≠ 0 → ‖toneResponse s (ε * 0)‖ ^ 2 / ε ^ (2 * m) = c ^ 2 * 0 ^ (2 * m) := by
        intro ε _
        rw [mul_zero, toneResponse_zero]
        rcases Nat.eq_zero_or_pos m with h0 | h0
        · rw [hcdef, h0]; simp
        · have := hC.1 0 h0
          simp only [pow_zero, mul_one] at this
          rw [this, abs_zero, zero_pow two_ne_zero, zero_div, zero_pow (by omega), mul_zero]
      refine Filter.Tendsto.congr' ?_ tendsto_const_nhds
      exact eventually_nhdsWithin_of_forall fun ε hε => (h0 ε hε).symm
    · have hto : Filter.Tendsto (fun ε : ℝ => ε * ω) (𝓝[≠] 0) (𝓝[≠] 0) := by
        refine tendsto_nhdsWithin_iff.mpr ⟨?_, eventually_nhdsWithin_of_forall fun ε hε => mul_ne_zero hε hω⟩
        have : Filter.Tendsto (fun ε : ℝ => ε * ω) (𝓝 0) (𝓝 (0 * ω)) := (continuous_mul_const ω).tendsto 0
        rw [zero_mul] at this
        exact this.mono_left nhdsWithin_le_nhds
      have := ((hlim.comp hto).pow 2).mul_const (ω ^ (2 * m))
      refine this.congr' (eventually_nhdsWithin_of_forall fun ε (hε : ε ≠ 0) => ?_)
      simp only [Function.comp]
      rw [div_pow, ← pow_mul, mul_comm m 2, pow_mul |ε * ω|, sq_abs, ← pow_mul, mul_pow]
      have h1 : ε ^ (2 * m) ≠ 0 := pow_ne_zero _ hε
      have h2 : ω ^ (2 * m) ≠ 0 := pow_ne_zero _ hω
      field_simp

/-- **C138**, what is measured: with pre- and post-rotations the qubit returns to its initial state with an average
probability of at least one minus a quarter of the overlap of the spectrum with the square of the response. -/
theorem C138_return_probability (h : StationaryNoise P β S) (family : Family) (T : ℝ) (name : Option String)
    (s : Sequence ℝ) (hs : family.call T true name = .ok s) :
    1 - spectralOverlap s S / 4 ≤ ∫ x, returnProbability (underNoise (dephasing (β x)) s) ∂P := by
  obtain ⟨⟨hT, -⟩, hw⟩ := (C43_well_formed family T true name).ok hs
  have hd : s.duration = T := hw.1
  have hd0 : 0 ≤ s.duration := by rw [hd]; exact hT.le
  have e : ∀ x, returnProbability (underNoise (dephasing (β x)) s) = Real.cos (dephasingPhase s (β x) / 2) ^ 2 := by
    intro x
    rw [C81_return_probability family T name s hs (β x) (h.continuous x), dephasingPhase, hd]
  obtain ⟨hi, hf⟩ := C138_filter_function h s hd0
  simp only [e]
  unfold spectralOverlap
  rw [← hf]
  have hc : Integrable (fun x => 1 - dephasingPhase s (β x) ^ 2 / 4) P :=
    (integrable_const 1).sub (hi.div_const 4)
  have h1 : 1 - (∫ x, dephasingPhase s (β x) ^ 2 ∂P) / 4 = ∫ x, (1 - dephasingPhase s (β x) ^ 2 / 4) ∂P := by
    rw [integral_sub (integrable_const 1) (hi.div_const 4), integral_div]
    simp
  rw [h1]
  have hm := dephasingPhase_measurable h hd0
  refine integral_mono hc ((integrable_const (1 : ℝ)).mono' ?_ (Filter.Eventually.of_forall fun x => ?_)) fun x => ?_
  · exact (((Real.continuous_cos.measurable.comp (hm.div_const 2)).pow_const 2)).aestronglyMeasurable
  · rw [Real.norm_eq_abs, abs_of_nonneg (sq_nonneg _), Real.cos_sq']
    linarith [sq_nonneg (Real.sin (dephasingPhase s (β x) / 2))]
  · simp only []
    rw [Real.cos_sq']
    have h1 : |Real.sin (dephasingPhase s (β x) / 2)| ≤ |dephasingPhase s (β x) / 2| := Real.abs_sin_le_abs
    have h2 := sq_le_sq.mpr h1
    rw [div_pow] at h2
    linarith

/-- **C138**, Gaussian noise: the average probability to return is `(1 + e^(-χ)) / 2`, where `2χ` is the overlap of
the spectrum with the square of the response. -/
theorem C138_gaussian (h : StationaryNoise P β S) (hg : GaussianIntegrals P β) (family : Family) (T : ℝ)
    (name : Option String) (s : Sequence ℝ) (hs : family.call T true name = .ok s) :
    ∫ x, returnProbability (underNoise (dephasing (β x)) s) ∂P =
      (1 + Real.exp (-(spectralOverlap s S / 2))) / 2 := by
  obtain ⟨⟨hT, -⟩, hw⟩ := (C43_well_formed family T true name).ok hs
  have hd : s.duration = T := hw.1
  have hd0 : 0 ≤ s.duration := by rw [hd]; exact hT.le
  have e : ∀ x, returnProbability (underNoise (dephasing (β x)) s) =
      (1 + Real.cos (dephasingPhase s (β x))) / 2 := by
    intro x
    rw [C81_return_probability family T name s hs (β x) (h.continuous x), ← hd, ← dephasingPhase, Real.cos_sq,
      mul_div_cancel₀ _ (two_ne_zero)]
    ring
  have hm := dephasingPhase_measurable h hd0
  obtain ⟨v, hv⟩ : ∃ v, P.map (fun x => dephasingPhase s (β x)) = gaussianReal 0 v := by
    have := hg s.duration (switching (piPulseTimes s)) (switching_measurable _) fun t => (switching_abs _ t).le
    simpa only [dephasingPhase, sensitivity_switching] using this
  have hsq : (v : ℝ) = spectralOverlap s S := by
    unfold spectralOverlap
    rw [← (C138_filter_function h s hd0).2]
    have h1 : ∫ y, y ^ 2 ∂(gaussianReal 0 v) = v := by
      have := variance_id_gaussianReal (μ := 0) (v := v)
      rw [variance_of_integral_eq_zero measurable_id.aemeasurable (by simp)] at this
      simpa using this
    rw [← h1, ← hv, integral_map hm.aemeasurable (by fun_prop)]
  have hcos : ∫ x, Real.cos (dephasingPhase s (β x)) ∂P = Real.exp (-(spectralOverlap s S / 2)) := by
    have h1 : ∫ y, Real.cos y ∂(gaussianReal 0 v) = ∫ x, Real.cos (dephasingPhase s (β x)) ∂P := by
      rw [← hv, integral_map hm.aemeasurable (by fun_prop)]
    have h2 := charFun_gaussianReal (μ := 0) (v := v) 1
    rw [charFun_apply_real] at h2
    have h3 := congrArg Complex.re h2
    have hint : Integrable (fun y : ℝ => Complex.exp (((1 : ℝ) : ℂ) * y * Complex.I)) (gaussianReal 0 v) := by
      refine (integrable_const (1 : ℝ)).mono' (by fun_prop) (Filter.Eventually.of_forall fun y => ?_)
      rw [Complex.ofReal_one, one_mul, Complex.norm_exp_ofReal_mul_I]
    have h4 := integral_re (𝕜 := ℂ) hint
    simp only [RCLike.re_to_complex] at h4
    rw [← h4] at h3
    simp only [Complex.ofReal_one, one_mul, Complex.exp_ofReal_mul_I_re] at h3
    rw [← h1, h3, ← hsq]
    have : (Complex.ofReal 0 * Complex.I - (v : ℂ) * 1 ^ 2 / 2) = ((-((v : ℝ) / 2) : ℝ) : ℂ) := by
      push_cast; ring
    rw [this, Complex.exp_ofReal_re]
  simp only [e]
  rw [integral_div, integral_add (integrable_const _), hcos]
  · simp
  · exact (integrable_const (1 : ℝ)).mono' (Real.continuous_cos.measurable.comp hm).aestronglyMeasurable
      (Filter.Eventually.of_forall fun x => by rw [Real.norm_eq_abs]; exact Real.abs_cos_le_one _)

end

/-- **C138**, tones: noise of several tones with independent random phases is noise of this kind; the power of a tone
of the amplitude `A` is `A²/2` at its frequency. -/
theorem C138_tones {ι : Type} [Fintype ι] (A ν : ι → ℝ) :
    StationaryNoise (Measure.pi fun _ => randomPhase) (tones A ν)
      (∑ i, ENNReal.ofReal (A i ^ 2 / 2) • Measure.dirac (ν i)) := by
  classical
  refine ⟨tones_continuous A ν, fun t => (tones_continuous_phases A ν t).measurable, fun t => ?_, fun t => ?_,
    fun t u => ?_⟩
  · refine phases_integrable ((tones_continuous_phases A ν t).pow 2) ((∑ i, |A i|) ^ 2) fun φ => ?_
    rw [abs_pow]
    exact pow_le_pow_left₀ (abs_nonneg _) (tones_bound A ν φ t) 2
  · unfold tones
    rw [integral_finsetSum _ fun i _ => ?_]
    · refine Finset.sum_eq_zero fun i _ => ?_
      rw [integral_const_mul, randomPhases_one (fun x => Real.cos (ν i * t + x)) (by fun_prop), randomPhase_cos, mul_zero]
    · refine (phases_integrable (f := fun φ : ι → ℝ => Real.cos (ν i * t + φ i)) (by fun_prop) 1
        fun φ => Real.abs_cos_le_one _).const_mul _
  · have e : ∀ φ : ι → ℝ, tones A ν φ t * tones A ν φ u =
        ∑ i, ∑ j, A i * A j * (Real.cos (ν i * t + φ i) * Real.cos (ν j * u + φ j)) := by
      intro φ
      unfold tones
      rw [Finset.sum_mul_sum]
      exact Finset.sum_congr rfl fun i _ => Finset.sum_congr rfl fun j _ => by ring
    have hi : ∀ i j : ι, Integrable (fun φ : ι → ℝ =>
        A i * A j * (Real.cos (ν i * t + φ i) * Real.cos (ν j * u + φ j))) (Measure.pi fun _ => randomPhase) := by
      intro i j
      refine (phases_integrable (f := fun φ : ι → ℝ => Real.cos (ν i * t + φ i) * Real.cos (ν j * u + φ j))
        (by fun_prop) 1 fun φ => ?_).const_mul _
      rw [abs_mul]
      exact mul_le_one₀ (Real.abs_cos_le_one _) (abs_nonneg _) (Real.abs_cos_le_one _)
    simp only [e]
    rw [integral_finsetSum _ fun i _ => integrable_finsetSum _ fun j _ => hi i j,
      integral_finsetSum_measure fun i _ => ?_]
    · refine Finset.sum_congr rfl fun i _ => ?_
      rw [integral_finsetSum _ fun j _ => hi i j, integral_smul_measure, integral_dirac,
        ENNReal.toReal_ofReal (by positivity), Finset.sum_eq_single i]
      · rw [integral_const_mul, randomPhases_one
          (fun x => Real.cos (ν i * t + x) * Real.cos (ν i * u + x)) (by fun_prop), randomPhase_cos_cos, mul_sub,
          smul_eq_mul]
        ring
      · intro j _ hj
        rw [integral_const_mul, randomPhases_two (fun x => Real.cos (ν i * t + x)) (fun x => Real.cos (ν j * u + x))
          (by fun_prop) (by fun_prop) hj.symm, randomPhase_cos, zero_mul, mul_zero]
      · intro hni; exact absurd (Finset.mem_univ i) hni
    · refine Integrable.smul_measure ?_ ENNReal.ofReal_ne_top
      exact (integrable_const (1 : ℝ)).mono' (by fun_prop) (Filter.Eventually.of_forall fun ω => by
        rw [Real.norm_eq_abs]; exact Real.abs_cos_le_one _)

/-- **C138**, tones: the mean square of the phase is half the sum of `A² |F(ν)|²` over the tones. -/
theorem C138_tones_phase {ι : Type} [Fintype ι] (A ν : ι → ℝ) (s : Sequence ℝ) (hT : 0 ≤ s.duration) :
    ∫ φ, dephasingPhase s (tones A ν φ) ^ 2 ∂(Measure.pi fun _ => randomPhase) =
      ∑ i, A i ^ 2 / 2 * ‖toneResponse s (ν i)‖ ^ 2 := by
  have : IsFiniteMeasure (∑ i, ENNReal.ofReal (A i ^ 2 / 2) • Measure.dirac (ν i)) := by
    refine ⟨?_⟩
    rw [Measure.finsetSum_apply]
    refine ENNReal.sum_lt_top.mpr fun i _ => ?_
    simp
  rw [(C138_filter_function (C138_tones A ν) s hT).2, integral_finsetSum_measure fun i _ => ?_]
  · refine Finset.sum_congr rfl fun i _ => ?_
    rw [integral_smul_measure, integral_dirac, ENNReal.toReal_ofReal (by positivity), smul_eq_mul]
  · exact (integrable_dirac (by simp)).smul_measure ENNReal.ofReal_ne_top

/-- the hypotheses are met: noise of two tones of different frequencies, and a spin echo -/
example : ∃ s, newSpinEchoSequence (1 : ℝ) true none = .ok s ∧
    ∫ φ, dephasingPhase s (tones ![1, 2] ![2 * Real.pi, 4 * Real.pi] φ) ^ 2 ∂(Measure.pi fun _ => randomPhase) =
      2 / Real.pi ^ 2 := by
  obtain ⟨s, hs, hw⟩ := (C43_well_formed .spinEcho 1 true none).1 ⟨by norm_num, trivial⟩
  have hd : s.duration = 1 := hw.1
  refine ⟨s, hs, ?_⟩
  have hp := Real.pi_pos
  have h1 := C123_spin_echo 1 true none s hs (2 * Real.pi)
  have h2 := C123_spin_echo 1 true none s hs (4 * Real.pi)
  rw [show 2 * Real.pi * 1 / 4 = Real.pi / 2 by ring, Real.sin_pi_div_two, abs_of_pos (by positivity)] at h1
  rw [show 4 * Real.pi * 1 / 4 = Real.pi by ring, Real.sin_pi, abs_of_pos (by positivity)] at h2
  have e1 : ‖toneResponse s (2 * Real.pi)‖ = 2 / Real.pi := by
    field_simp; linarith
  have e2 : ‖toneResponse s (4 * Real.pi)‖ = 0 := by
    have : 4 * Real.pi * ‖toneResponse s (4 * Real.pi)‖ = 0 := by rw [h2]; ring
    rcases mul_eq_zero.mp this with h | h
    · exact absurd h (by positivity)
    · exact h
  rw [C138_tones_phase _ _ s (by rw [hd]; norm_num), Fin.sum_univ_two]
  simp only [Matrix.cons_val_zero, Matrix.cons_val_one, e1, e2]
  ring

/-- the hypotheses are met: a tone of a random phase, slowed down, and a Uhrig sequence of three pulses, for which the
mean square vanishes with the sixth power -/
example : ∃ s, newUhrigSequence (1 : ℝ) 3 false none = .ok s ∧ ∃ c : ℝ, 0 < c ∧
    Filter.Tendsto (fun ε : ℝ => (∫ φ, dephasingPhase s (fun t => tones ![2] ![1] φ (ε * t)) ^ 2
      ∂(Measure.pi fun _ => randomPhase)) / ε ^ 6) (𝓝[≠] 0) (𝓝 c) := by
  obtain ⟨s, hs, -⟩ := (C43_well_formed (.uhrig 3) 1 false none).1 ⟨by norm_num, show (1 : ℝ) ≤ 3 by norm_num⟩
  refine ⟨s, hs, ?_⟩
  have ho : Family.cancellationOrder (.uhrig 3) = 3 := by simp [Family.cancellationOrder]
  have hS := C138_tones (![2] : Fin 1 → ℝ) ![1]
  rw [Fin.sum_univ_one] at hS
  have : IsFiniteMeasure (ENNReal.ofReal ((![2] : Fin 1 → ℝ) 0 ^ 2 / 2) • Measure.dirac ((![1] : Fin 1 → ℝ) 0)) :=
    ⟨by simp⟩
  obtain ⟨c, hc, hlim⟩ := C138_slow hS (.uhrig 3) 1 false none s hs
    ((integrable_dirac (by simp)).smul_measure ENNReal.ofReal_ne_top)
  rw [ho, integral_smul_measure, integral_dirac, ENNReal.toReal_ofReal (by positivity)] at hlim
  refine ⟨_, ?_, hlim⟩
  simp only [Matrix.cons_val_zero, smul_eq_mul]
  positivity

/-- the hypotheses are met: static noise that is normally distributed from run to run; without echo the qubit
dephases by the Gaussian law -/
example : ∃ s, newRamseySequence (2 : ℝ) true none = .ok s ∧
    StationaryNoise (gaussianReal 0 1) (fun x _ => x) (Measure.dirac 0) ∧
    GaussianIntegrals (gaussianReal 0 1) (fun x _ => x) ∧
    ∫ x, returnProbability (underNoise (dephasing fun _ => x) s) ∂(gaussianReal 0 1) =
      (1 + Real.exp (-2)) / 2 := by
  obtain ⟨s, hs, hw⟩ := (C43_well_formed .ramsey 2 true none).1 ⟨by norm_num, trivial⟩
  have hd : s.duration = 2 := hw.1
  have hsq : ∫ x, x ^ 2 ∂(gaussianReal 0 1) = 1 := by
    have := variance_id_gaussianReal (μ := 0) (v := 1)
    rw [variance_of_integral_eq_zero measurable_id.aemeasurable (by simp)] at this
    simpa using this
  have hn : StationaryNoise (gaussianReal 0 1) (fun x _ => x) (Measure.dirac 0) := by
    refine ⟨fun x => continuous_const, fun t => measurable_id, fun t => ?_, fun t => by simp, fun t u => ?_⟩
    · exact Integrable.of_integral_ne_zero (by rw [hsq]; norm_num)
    · rw [integral_dirac, zero_mul, Real.cos_zero, ← hsq]
      simp only [pow_two]
  have hg : GaussianIntegrals (gaussianReal 0 1) (fun x _ => x) := by
    intro T w _ _
    simp only [intervalIntegral.integral_mul_const]
    exact ⟨_, by rw [gaussianReal_map_const_mul, mul_zero]⟩
  refine ⟨s, hs, hn, hg, ?_⟩
  rw [C138_gaussian hn hg .ramsey 2 none s hs]
  have hs' : Family.call .ramsey 2 true none = .ok s := hs
  rw [Family.call_eq (family := .ramsey) trivial (by norm_num)] at hs'
  injection hs' with hs'
  have ht : flipTimes (Family.table .ramsey (2 : ℝ)) = [] := by simp [Family.table, flipTimes]
  have hF : toneResponse s 0 = 2 := by
    rw [toneResponse_eq, hd, ← hs', piPulseTimes_finished, ht]
    unfold response
    simp [switching]
  unfold spectralOverlap
  rw [integral_dirac, hF]
  norm_num

end OpenControls
