import Verif.Spec.PulseErrors

/-!
# Specification: errors that depend on the axis of the pulse
-/

namespace OpenControls.Spec

/-- The relative error `εx` for the pulses about X, the relative error `εy` for the other ones. -/
noncomputable def axisErrors (εx εy : ℝ) (s : Sequence ℝ) (i : ℕ) : ℝ :=
  if s.azimuthalAngles[i]? = some 0 then εx else εy

end OpenControls.Spec
