import Verif.Spec.Conversion
import Verif.Spec.Robustness
import Verif.Spec.PulseErrors

/-!
# Specification: driven controls with miscalibrated rates
-/

namespace OpenControls.Spec

/-- the control with all Rabi rates multiplied by `k` and all detunings by `l` -/
noncomputable def scaledRates (k l : ℝ) (c : DrivenControl ℝ) : DrivenControl ℝ :=
  { c with rabiRates := c.rabiRates.map (k * ·), detunings := c.detunings.map (l * ·) }

/-- the sequence with all Rabi rotations multiplied by `k` and all detuning rotations by `l` -/
noncomputable def scaledAngles (k l : ℝ) (s : Sequence ℝ) : Sequence ℝ :=
  { s with
    rabiRotations := s.rabiRotations.map (k * ·), detuningRotations := s.detuningRotations.map (l * ·) }

/-- the pulse with its Rabi rotation multiplied by `k` and its detuning rotation by `l` -/
noncomputable def scaledPulse (k l : ℝ) (p : Pulse) : Pulse :=
  { p with rabi := k * p.rabi, detuning := l * p.detuning }

open Classical in
/-- The angle by which the pulses turn the qubit about X altogether: rotations about -X count negatively, and
the sense changes at every Z pulse. -/
noncomputable def netRotation : List Pulse → ℝ
  | [] => 0
  | p :: r => Real.cos p.azimuthal * p.rabi +
      (if p.detuning = Real.pi then -netRotation r else netRotation r)

end OpenControls.Spec
