import Verif.Spec.Robustness

/-!
# Specification: amplitude noise
-/

namespace OpenControls.Spec

/-- amplitude noise: the Rabi rate of segment `i` is off by the relative error `e i` -/
def withAmplitudeNoise (e : ℕ → ℝ) (c : DrivenControl ℝ) : DrivenControl ℝ :=
  { c with rabiRates := c.rabiRates.mapIdx fun i r => (1 + e i) * r }

end OpenControls.Spec
