import Verif.Spec.Noise

/-!
# Specification: π-pulses with wrong rotation angles
-/

namespace OpenControls.Spec

/-- The sequence whose π-pulses about axes in the XY plane rotate by `(1 + e i) π` instead of `π`, where `i` is
the position of the pulse. The pre and post rotations and the Z pulses are not changed. -/
noncomputable def miscalibrated (e : ℕ → ℝ) (s : Sequence ℝ) : Sequence ℝ :=
  { s with rabiRotations := s.rabiRotations.mapIdx fun i r =>
      if r = Real.pi then (1 + e i) * r else r }

/-- The sum of the relative errors of the π-pulses, each with a sign that flips at every Z pulse. -/
noncomputable def netError (e : ℕ → ℝ) (s : Sequence ℝ) : ℝ :=
  ∑ i ∈ Finset.range s.rabiRotations.length,
    if s.rabiRotations[i]? = some Real.pi then
      (-1) ^ (s.detuningRotations.take i).count Real.pi * e i else 0

/-- The families whose π-pulses are about the axis along which the pre rotation puts the state. -/
def Family.PulsesAlongState : Family → Prop
  | .cpmg _ | .uhrig _ => True
  | _ => False

/-- The families whose pulses are about X (and Z). -/
def Family.PulsesAcrossState : Family → Prop
  | .cpmg _ | .uhrig _ | .xyConcatenated _ => False
  | _ => True

end OpenControls.Spec
