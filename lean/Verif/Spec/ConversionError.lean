import Verif.Spec.Conversion

/-!
# Specification: what the conversion leaves out
-/

namespace OpenControls.Spec

/-- the total rotation angle of a pulse -/
noncomputable def Pulse.angle (p : Pulse) : ℝ := Real.sqrt (p.rabi ^ 2 + p.detuning ^ 2)

open Classical in
/-- The rotation angle that the conversion leaves out: the detuning rotation of a pulse with a Rabi rotation that is
not negligible, else the Rabi rotation of a pulse with a detuning rotation that is not negligible, else all. -/
noncomputable def leftOut (p : Pulse) : ℝ :=
  if ¬ Negligible p.rabi then |p.detuning|
  else if ¬ Negligible p.detuning then |p.rabi|
  else p.angle

end OpenControls.Spec
