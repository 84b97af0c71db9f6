import Verif.Model.Sequence
import Verif.RealInst

/-!
# Specification for C67: a sequence without its pulses
-/

namespace OpenControls.Spec

/-- The same instants with nothing done at them. -/
def withoutPulses (s : Sequence ℝ) : Sequence ℝ :=
  { s with
    rabiRotations := s.rabiRotations.map fun _ => 0
    detuningRotations := s.detuningRotations.map fun _ => 0 }

end OpenControls.Spec
