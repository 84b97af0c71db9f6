import Mathlib.Analysis.SpecialFunctions.ExpDeriv
import Verif.Spec.Families

/-!
# Specification: the response of a sequence to dephasing noise of one frequency
-/

namespace OpenControls.Spec

open Complex

/-- The response to noise of the frequency `ω`: the Fourier transform of the sensitivity. The phase picked up
under the noise `cos(ωt + φ)` is the real part of `e^{iφ}` times it, and `|ω · toneResponse s ω|²` is the filter
function of the sequence. -/
noncomputable def toneResponse (s : Sequence ℝ) (ω : ℝ) : ℂ :=
  ∫ t in 0..s.duration, ((sensitivity s t : ℝ) : ℂ) * exp (I * (ω * t : ℝ))

end OpenControls.Spec
