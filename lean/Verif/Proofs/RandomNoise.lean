import Mathlib.MeasureTheory.Integral.Prod
import Mathlib.Probability.Independence.Integration
import Mathlib.Analysis.SpecialFunctions.Integrals.Basic
import Verif.Spec.RandomNoise
import Verif.Proofs.Spectrum

/-!
# Random dephasing noise with a given spectrum
-/

namespace OpenControls

open Spec MeasureTheory

section
variable {Ω : Type} [MeasurableSpace Ω] {P : Measure Ω} {β : Ω → ℝ → ℝ} {S : Measure ℝ}

theorem stationary_joint (h : StationaryNoise P β S) : Measurable fun q : ℝ × Ω => β q.2 q.1 :=
  measurable_uncurry_of_continuous_of_measurable (u := fun t x => β x t) h.continuous h.measurable

theorem stationary_power (h : StationaryNoise P β S) (t : ℝ) : ∫ x, β x t ^ 2 ∂P = S.real Set.univ := by
  have := h.correlation t t
  simpa [pow_two] using this

theorem stationary_pair (h : StationaryNoise P β S) (t u : ℝ) : Integrable (fun x => β x t * β x u) P := by
  refine (((h.power t).add (h.power u)).div_const 2).mono'
    ((h.measurable t).mul (h.measurable u)).aestronglyMeasurable (Filter.Eventually.of_forall fun x => ?_)
  simp only [Real.norm_eq_abs, abs_mul, Pi.add_apply]
  nlinarith [sq_nonneg (|β x t| - |β x u|), sq_abs (β x t), sq_abs (β x u)]

theorem stationary_pair_bound (h : StationaryNoise P β S) (t u : ℝ) :
    ∫ x, |β x t * β x u| ∂P ≤ S.real Set.univ := by
  have hb : Integrable (fun x => (β x t ^ 2 + β x u ^ 2) / 2) P := ((h.power t).add (h.power u)).div_const 2
  refine (integral_mono (stationary_pair h t u).abs hb fun x => ?_).trans ?_
  · simp only [abs_mul]
    nlinarith [sq_nonneg (|β x t| - |β x u|), sq_abs (β x t), sq_abs (β x u)]
  · rw [integral_div, integral_add (h.power t) (h.power u), stationary_power h, stationary_power h]
    linarith

theorem stationary_sum_integrable [IsFiniteMeasure P] (h : StationaryNoise P β S) {w : ℝ → ℝ} (hw : Measurable w)
    (hw1 : ∀ t, |w t| = 1) (μ : Measure ℝ) [IsFiniteMeasure μ] :
    Integrable (fun q : Ω × (ℝ × ℝ) => (w q.2.1 * β q.1 q.2.1) * (w q.2.2 * β q.1 q.2.2)) (P.prod (μ.prod μ)) := by
  have hj := stationary_joint h
  have hm : Measurable fun q : Ω × (ℝ × ℝ) => (w q.2.1 * β q.1 q.2.1) * (w q.2.2 * β q.1 q.2.2) := by
    have h1 : Measurable fun q : Ω × (ℝ × ℝ) => β q.1 q.2.1 :=
      hj.comp ((measurable_fst.comp measurable_snd).prodMk measurable_fst)
    have h2 : Measurable fun q : Ω × (ℝ × ℝ) => β q.1 q.2.2 :=
      hj.comp ((measurable_snd.comp measurable_snd).prodMk measurable_fst)
    exact ((hw.comp (measurable_fst.comp measurable_snd)).mul h1).mul
      ((hw.comp (measurable_snd.comp measurable_snd)).mul h2)
  have habs : ∀ (x : Ω) (t u : ℝ), ‖(w t * β x t) * (w u * β x u)‖ = |β x t * β x u| := by
    intro x t u
    simp only [Real.norm_eq_abs, abs_mul, hw1, one_mul]
  refine (integrable_prod_iff' hm.aestronglyMeasurable).mpr ⟨Filter.Eventually.of_forall fun p => ?_, ?_⟩
  · have := (stationary_pair h p.1 p.2).const_mul (w p.1 * w p.2)
    refine this.congr (Filter.Eventually.of_forall fun x => ?_)
    simp only []; ring
  · refine (integrable_const (S.real Set.univ)).mono' ?_ (Filter.Eventually.of_forall fun p => ?_)
    · exact (hm.norm.stronglyMeasurable.integral_prod_left' (μ := P)).aestronglyMeasurable
    · have e : ∫ x, ‖(w p.1 * β x p.1) * (w p.2 * β x p.2)‖ ∂P = ∫ x, |β x p.1 * β x p.2| ∂P := by
        simp only [habs]
      rw [e, Real.norm_eq_abs, abs_of_nonneg (integral_nonneg fun _ => abs_nonneg _)]
      exact stationary_pair_bound h _ _

theorem stationary_square (w : ℝ → ℝ) (x : Ω) (μ : Measure ℝ) [SFinite μ] :
    (∫ t, w t * β x t ∂μ) ^ 2 = ∫ p : ℝ × ℝ, (w p.1 * β x p.1) * (w p.2 * β x p.2) ∂μ.prod μ := by
  rw [integral_prod_mul (fun t => w t * β x t) fun t => w t * β x t, pow_two]

theorem stationary_square_integrable [IsFiniteMeasure P] (h : StationaryNoise P β S) {w : ℝ → ℝ} (hw : Measurable w)
    (hw1 : ∀ t, |w t| = 1) (μ : Measure ℝ) [IsFiniteMeasure μ] :
    Integrable (fun x => (∫ t, w t * β x t ∂μ) ^ 2) P := by
  simp only [stationary_square]
  exact (stationary_sum_integrable h hw hw1 μ).integral_prod_left

/-- the square of the absolute value of a transform -/
theorem wave_square {w : ℝ → ℝ} (hw : Measurable w) (hw1 : ∀ t, |w t| = 1) (μ : Measure ℝ) [IsFiniteMeasure μ]
    (ω : ℝ) : ∫ p : ℝ × ℝ, w p.1 * w p.2 * Real.cos (ω * (p.1 - p.2)) ∂μ.prod μ =
      (∫ t, w t * Real.cos (ω * t) ∂μ) ^ 2 + (∫ t, w t * Real.sin (ω * t) ∂μ) ^ 2 := by
  have hi : ∀ f : ℝ → ℝ, Continuous f → (∀ t, |f t| ≤ 1) → Integrable (fun t => w t * f t) μ := by
    intro f hf hf1
    refine (integrable_const (1 : ℝ)).mono' (hw.mul hf.measurable).aestronglyMeasurable
      (Filter.Eventually.of_forall fun t => ?_)
    rw [Real.norm_eq_abs, abs_mul, hw1, one_mul]
    exact hf1 t
  have hc := hi (fun t => Real.cos (ω * t)) (by fun_prop) fun t => Real.abs_cos_le_one _
  have hs := hi (fun t => Real.sin (ω * t)) (by fun_prop) fun t => Real.abs_sin_le_one _
  have e : ∀ p : ℝ × ℝ, w p.1 * w p.2 * Real.cos (ω * (p.1 - p.2)) =
      (w p.1 * Real.cos (ω * p.1)) * (w p.2 * Real.cos (ω * p.2)) +
        (w p.1 * Real.sin (ω * p.1)) * (w p.2 * Real.sin (ω * p.2)) := by
    intro p
    rw [mul_sub, Real.cos_sub]; ring
  simp only [e]
  rw [integral_add (hc.mul_prod hc) (hs.mul_prod hs),
    integral_prod_mul (fun t => w t * Real.cos (ω * t)) fun t => w t * Real.cos (ω * t),
    integral_prod_mul (fun t => w t * Real.sin (ω * t)) fun t => w t * Real.sin (ω * t), pow_two, pow_two]

theorem stationary_filter [IsFiniteMeasure P] [IsFiniteMeasure S] (h : StationaryNoise P β S) {w : ℝ → ℝ}
    (hw : Measurable w) (hw1 : ∀ t, |w t| = 1) (μ : Measure ℝ) [IsFiniteMeasure μ] :
    ∫ x, (∫ t, w t * β x t ∂μ) ^ 2 ∂P =
      ∫ ω, ((∫ t, w t * Real.cos (ω * t) ∂μ) ^ 2 + (∫ t, w t * Real.sin (ω * t) ∂μ) ^ 2) ∂S := by
  simp only [stationary_square, ← wave_square hw hw1 μ]
  rw [integral_integral_swap (stationary_sum_integrable h hw hw1 μ)]
  have e : ∀ p : ℝ × ℝ, ∫ x, (w p.1 * β x p.1) * (w p.2 * β x p.2) ∂P =
      ∫ ω, w p.1 * w p.2 * Real.cos (ω * (p.1 - p.2)) ∂S := by
    intro p
    rw [integral_const_mul, ← h.correlation, ← integral_const_mul]
    exact integral_congr_ae (Filter.Eventually.of_forall fun x => by simp only []; ring)
  simp only [e]
  refine integral_integral_swap ?_
  refine (integrable_const (1 : ℝ)).mono' ?_ (Filter.Eventually.of_forall fun q => ?_)
  · refine Measurable.aestronglyMeasurable ?_
    unfold Function.uncurry
    have := hw
    fun_prop
  · simp only [Function.uncurry, Real.norm_eq_abs, abs_mul, hw1, one_mul]
    exact Real.abs_cos_le_one _

theorem dephasingPhase_eq {s : Sequence ℝ} (hT : 0 ≤ s.duration) (b : ℝ → ℝ) :
    dephasingPhase s b =
      ∫ t, switching (piPulseTimes s) t * b t ∂(volume.restrict (Set.Ioc 0 s.duration)) := by
  unfold dephasingPhase
  rw [intervalIntegral.integral_of_le hT]
  simp only [sensitivity_switching]

theorem toneResponse_square {s : Sequence ℝ} (hT : 0 ≤ s.duration) (ω : ℝ) :
    ‖toneResponse s ω‖ ^ 2 =
      (∫ t, switching (piPulseTimes s) t * Real.cos (ω * t) ∂(volume.restrict (Set.Ioc 0 s.duration))) ^ 2 +
      (∫ t, switching (piPulseTimes s) t * Real.sin (ω * t) ∂(volume.restrict (Set.Ioc 0 s.duration))) ^ 2 := by
  rw [toneResponse_eq, response_parts, Complex.sq_norm, Complex.normSq_add_mul_I,
    intervalIntegral.integral_of_le hT, intervalIntegral.integral_of_le hT]

theorem dephasingPhase_square_integrable [IsFiniteMeasure P] (h : StationaryNoise P β S) {s : Sequence ℝ}
    (hT : 0 ≤ s.duration) : Integrable (fun x => dephasingPhase s (β x) ^ 2) P := by
  simp only [dephasingPhase_eq hT]
  exact stationary_square_integrable h (switching_measurable _) (switching_abs _) _

theorem dephasingPhase_measurable [SFinite P] (h : StationaryNoise P β S) {s : Sequence ℝ} (hT : 0 ≤ s.duration) :
    Measurable fun x => dephasingPhase s (β x) := by
  simp only [dephasingPhase_eq hT]
  have hm : Measurable fun q : Ω × ℝ => switching (piPulseTimes s) q.2 * β q.1 q.2 :=
    ((switching_measurable _).comp measurable_snd).mul ((stationary_joint h).comp measurable_swap)
  exact (hm.stronglyMeasurable.integral_prod_right').measurable

theorem stationary_mean [IsFiniteMeasure P] (h : StationaryNoise P β S) {w : ℝ → ℝ} (hw : Measurable w)
    (hw1 : ∀ t, |w t| = 1) (μ : Measure ℝ) [IsFiniteMeasure μ] : ∫ x, ∫ t, w t * β x t ∂μ ∂P = 0 := by
  have hm : Measurable fun q : Ω × ℝ => w q.2 * β q.1 q.2 :=
    (hw.comp measurable_snd).mul ((stationary_joint h).comp measurable_swap)
  have hb : ∀ t, Integrable (fun x => 1 + β x t ^ 2) P := fun t => (integrable_const 1).add (h.power t)
  have hle : ∀ x t, |β x t| ≤ 1 + β x t ^ 2 := fun x t => by
    nlinarith [sq_nonneg (|β x t| - 1), sq_abs (β x t), abs_nonneg (β x t)]
  have hi : ∀ t, Integrable (fun x => β x t) P := fun t =>
    (hb t).mono' (h.measurable t).aestronglyMeasurable (Filter.Eventually.of_forall fun x => by
      rw [Real.norm_eq_abs]; exact hle x t)
  rw [integral_integral_swap]
  · have e : ∀ t, ∫ x, w t * β x t ∂P = 0 := fun t => by rw [integral_const_mul, h.mean, mul_zero]
    simp only [e, integral_zero]
  · refine (integrable_prod_iff' hm.aestronglyMeasurable).mpr
      ⟨Filter.Eventually.of_forall fun t => (hi t).const_mul (w t), ?_⟩
    refine (integrable_const (P.real Set.univ + S.real Set.univ)).mono'
      (hm.norm.stronglyMeasurable.integral_prod_left' (μ := P)).aestronglyMeasurable
      (Filter.Eventually.of_forall fun t => ?_)
    rw [Real.norm_eq_abs, abs_of_nonneg (integral_nonneg fun _ => norm_nonneg _)]
    have e : ∀ x, ‖w t * β x t‖ = |β x t| := fun x => by rw [Real.norm_eq_abs, abs_mul, hw1, one_mul]
    simp only [e]
    refine (integral_mono (hi t).abs (hb t) fun x => hle x t).trans (le_of_eq ?_)
    rw [integral_add (integrable_const _) (h.power t), stationary_power h]
    simp

theorem stationary_slowed (h : StationaryNoise P β S) (ε : ℝ) :
    StationaryNoise P (fun x t => β x (ε * t)) (S.map (ε * ·)) := by
  refine ⟨fun x => (h.continuous x).comp (by fun_prop), fun t => h.measurable _, fun t => h.power _,
    fun t => h.mean _, fun t u => ?_⟩
  rw [h.correlation, integral_map (by fun_prop) (by fun_prop)]
  refine integral_congr_ae (Filter.Eventually.of_forall fun ω => ?_)
  simp only []
  congr 1; ring

theorem toneResponse_measurable {s : Sequence ℝ} (hT : 0 ≤ s.duration) :
    Measurable fun ω => ‖toneResponse s ω‖ ^ 2 := by
  simp only [toneResponse_square hT]
  have hw := switching_measurable (piPulseTimes s)
  have hc : Measurable fun q : ℝ × ℝ => switching (piPulseTimes s) q.2 * Real.cos (q.1 * q.2) := by fun_prop
  have hs : Measurable fun q : ℝ × ℝ => switching (piPulseTimes s) q.2 * Real.sin (q.1 * q.2) := by fun_prop
  exact (hc.stronglyMeasurable.integral_prod_right'.measurable.pow_const 2).add
    (hs.stronglyMeasurable.integral_prod_right'.measurable.pow_const 2)

theorem toneResponse_zero (s : Sequence ℝ) : ‖toneResponse s 0‖ = |∫ t in 0..s.duration, sensitivity s t| := by
  unfold toneResponse
  simp only [zero_mul, Complex.ofReal_zero, mul_zero, Complex.exp_zero, mul_one]
  rw [intervalIntegral.integral_ofReal, Complex.norm_real, Real.norm_eq_abs]

end

/-! ### Tones with random phases -/

instance randomPhase_probability : IsProbabilityMeasure randomPhase := by
  refine ⟨?_⟩
  have hp : 0 < 2 * Real.pi := by positivity
  unfold randomPhase
  rw [Measure.smul_apply, Measure.restrict_apply_univ, Real.volume_Ioc, sub_zero, smul_eq_mul]
  exact ENNReal.inv_mul_cancel (by simpa using hp) ENNReal.ofReal_ne_top

theorem integral_randomPhase (f : ℝ → ℝ) :
    ∫ φ, f φ ∂randomPhase = (2 * Real.pi)⁻¹ * ∫ φ in 0..(2 * Real.pi), f φ := by
  have hp : 0 < 2 * Real.pi := by positivity
  unfold randomPhase
  rw [integral_smul_measure, intervalIntegral.integral_of_le hp.le, ENNReal.toReal_inv, ENNReal.toReal_ofReal hp.le,
    smul_eq_mul]

theorem randomPhase_cos (a : ℝ) : ∫ φ, Real.cos (a + φ) ∂randomPhase = 0 := by
  rw [integral_randomPhase, intervalIntegral.integral_comp_add_left (fun x => Real.cos x), integral_cos]
  simp [Real.sin_add_two_pi]

theorem randomPhase_cos_cos (a b : ℝ) :
    ∫ φ, Real.cos (a + φ) * Real.cos (b + φ) ∂randomPhase = Real.cos (a - b) / 2 := by
  have e : ∀ φ, Real.cos (a + φ) * Real.cos (b + φ) =
      (Real.cos (a - b) + Real.cos (a + b + 2 * φ)) / 2 := by
    intro φ
    rw [show a - b = (a + φ) - (b + φ) by ring, show a + b + 2 * φ = (a + φ) + (b + φ) by ring, Real.cos_sub,
      Real.cos_add (a + φ) (b + φ)]
    ring
  simp only [e]
  rw [integral_randomPhase, intervalIntegral.integral_div,
    intervalIntegral.integral_add (by simp) ((by fun_prop : Continuous _).intervalIntegrable _ _),
    intervalIntegral.integral_comp_add_mul (fun x => Real.cos x) (two_ne_zero), integral_cos,
    intervalIntegral.integral_const]
  have : Real.sin (a + b + 2 * (2 * Real.pi)) = Real.sin (a + b + 2 * 0) := by
    rw [mul_zero, add_zero]
    exact Real.sin_add_nat_mul_two_pi (a + b) 2
  rw [this]
  have hp : Real.pi ≠ 0 := Real.pi_ne_zero
  simp only [sub_self, sub_zero, smul_eq_mul, mul_zero, add_zero]
  field_simp

section
variable {ι : Type} [Fintype ι]

theorem randomPhases_one (f : ℝ → ℝ) (hf : Continuous f) (i : ι) :
    ∫ φ : ι → ℝ, f (φ i) ∂(Measure.pi fun _ => randomPhase) = ∫ x, f x ∂randomPhase := by
  have h := (measurePreserving_eval (fun _ : ι => randomPhase) i)
  have e := integral_map (μ := Measure.pi fun _ : ι => randomPhase) (measurable_pi_apply i).aemeasurable
    (f := f) hf.aestronglyMeasurable
  have hm : Measure.map (fun φ : ι → ℝ => φ i) (Measure.pi fun _ => randomPhase) = randomPhase := h.map_eq
  rw [hm] at e
  exact e.symm

theorem randomPhases_two (f g : ℝ → ℝ) (hf : Continuous f) (hg : Continuous g) {i j : ι} (hij : i ≠ j) :
    ∫ φ : ι → ℝ, f (φ i) * g (φ j) ∂(Measure.pi fun _ => randomPhase) =
      (∫ x, f x ∂randomPhase) * ∫ x, g x ∂randomPhase := by
  have h := ProbabilityTheory.iIndepFun_pi (μ := fun _ : ι => randomPhase) (X := fun _ x => x)
    fun _ => measurable_id.aemeasurable
  have h2 := (h.indepFun hij).comp hf.measurable hg.measurable
  have := h2.integral_fun_mul_eq_mul_integral
    (hf.measurable.comp (measurable_pi_apply i)).aestronglyMeasurable
    (hg.measurable.comp (measurable_pi_apply j)).aestronglyMeasurable
  simp only [Function.comp_def] at this
  rw [this, randomPhases_one f hf, randomPhases_one g hg]

theorem tones_continuous (A ν φ : ι → ℝ) : Continuous (tones A ν φ) := by
  unfold tones; fun_prop

theorem tones_continuous_phases (A ν : ι → ℝ) (t : ℝ) : Continuous fun φ => tones A ν φ t := by
  unfold tones; fun_prop

theorem tones_bound (A ν φ : ι → ℝ) (t : ℝ) : |tones A ν φ t| ≤ ∑ i, |A i| := by
  unfold tones
  refine (Finset.abs_sum_le_sum_abs _ _).trans (Finset.sum_le_sum fun i _ => ?_)
  rw [abs_mul]
  exact mul_le_of_le_one_right (abs_nonneg _) (Real.abs_cos_le_one _)

theorem phases_integrable {f : (ι → ℝ) → ℝ} (hf : Continuous f) (C : ℝ) (hC : ∀ φ, |f φ| ≤ C) :
    Integrable f (Measure.pi fun _ => randomPhase) :=
  (integrable_const C).mono' hf.measurable.aestronglyMeasurable (Filter.Eventually.of_forall fun φ => by
    rw [Real.norm_eq_abs]; exact hC φ)

end

end OpenControls
