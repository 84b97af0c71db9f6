import Mathlib.MeasureTheory.Integral.Bochner.Basic
import Mathlib.Probability.Distributions.Gaussian.Real
import Verif.Spec.Noise
import Verif.Spec.Spectrum

/-!
# Specification: random dephasing noise with a given spectrum
-/

namespace OpenControls.Spec

open MeasureTheory

/-- `β x` is the dephasing noise in the run `x` of the experiment; the runs are distributed as `P`. The noise is
continuous in time, has the mean zero, and its correlation between two times depends only on their distance: it is
the cosine transform of the spectrum `S`, the measure of the power of the noise in a set of frequencies. -/
structure StationaryNoise {Ω : Type} [MeasurableSpace Ω] (P : Measure Ω) (β : Ω → ℝ → ℝ) (S : Measure ℝ) : Prop where
  continuous : ∀ x, Continuous (β x)
  measurable : ∀ t, Measurable fun x => β x t
  power : ∀ t, Integrable (fun x => β x t ^ 2) P
  mean : ∀ t, ∫ x, β x t ∂P = 0
  correlation : ∀ t u, ∫ x, β x t * β x u ∂P = ∫ ω, Real.cos (ω * (t - u)) ∂S

/-- The phase that a qubit picks up during the sequence under the dephasing noise `β`. -/
noncomputable def dephasingPhase (s : Sequence ℝ) (β : ℝ → ℝ) : ℝ := ∫ t in 0..s.duration, sensitivity s t * β t

/-- The strength with which a sequence picks up noise with the spectrum `S`: the overlap of the spectrum with the
square of the response. -/
noncomputable def spectralOverlap (s : Sequence ℝ) (S : Measure ℝ) : ℝ := ∫ ω, ‖toneResponse s ω‖ ^ 2 ∂S

/-- The weighted integrals of the noise over time are normally distributed, as they are for a Gaussian process. -/
def GaussianIntegrals {Ω : Type} [MeasurableSpace Ω] (P : Measure Ω) (β : Ω → ℝ → ℝ) : Prop :=
  ∀ (T : ℝ) (w : ℝ → ℝ), Measurable w → (∀ t, |w t| ≤ 1) →
    ∃ v, P.map (fun x => ∫ t in 0..T, w t * β x t) = ProbabilityTheory.gaussianReal 0 v

/-- A phase between `0` and `2π`, all equally likely. -/
noncomputable def randomPhase : Measure ℝ :=
  (ENNReal.ofReal (2 * Real.pi))⁻¹ • volume.restrict (Set.Ioc 0 (2 * Real.pi))

/-- Noise of several tones: amplitudes `A i` and frequencies `ν i`. -/
noncomputable def tones {ι : Type} [Fintype ι] (A ν : ι → ℝ) (φ : ι → ℝ) (t : ℝ) : ℝ :=
  ∑ i, A i * Real.cos (ν i * t + φ i)

end OpenControls.Spec
