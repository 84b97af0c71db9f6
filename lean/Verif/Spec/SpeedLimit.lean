import Verif.Spec.Composite

/-!
# Specification: pulse areas and durations of composite pulses
-/

namespace OpenControls.Spec

/-- the pulse area of a control: the sum over its segments of Rabi rate times duration -/
def pulseArea (c : DrivenControl ℝ) : ℝ := (List.zipWith (· * ·) c.rabiRates c.durations).sum

/-- the sum of the durations of a control, times the maximum Rabi rate, for the nine composite pulses that rotate by `θ` -/
noncomputable def schemeAngle (θ : ℝ) : Scheme → ℝ
  | .primitive => θ
  | .bb1 | .sk1 => θ + 4 * Real.pi
  | .scrofulous => 2 * scrofulousAngle θ + Real.pi
  | .corpse => θ + 4 * Real.pi - 4 * corpseAngle θ
  | .corpseInBB1 | .corpseInSK1 => θ + 8 * Real.pi - 4 * corpseAngle θ
  | .corpseInScrofulous => 2 * (scrofulousAngle θ + 4 * Real.pi - 4 * corpseAngle (scrofulousAngle θ)) + 13 / 3 * Real.pi
  | .wamf1 => 4 * (wamf1Angles θ).1

end OpenControls.Spec
