import Verif.Model.Sequence

/-!
# Specification: the objects a user can hold

A control (sequence) is *constructed* if it is the result of a successful constructor call.
-/

namespace OpenControls

variable {α : Type} [Add α] [Sub α] [Mul α] [Div α] [Neg α] [PyFloat α]

/-- `c` is the value of some successful call `DrivenControl(...)`. -/
def DrivenControl.Constructed (c : DrivenControl α) : Prop :=
  ∃ durations rabiRates azimuthalAngles detunings name,
    DrivenControl.new durations rabiRates azimuthalAngles detunings name = .ok c

/-- `s` is the value of some successful call `DynamicDecouplingSequence(...)`. -/
def Sequence.Constructed (s : Sequence α) : Prop :=
  ∃ duration offsets rabiRotations azimuthalAngles detuningRotations name,
    Sequence.new duration offsets rabiRotations azimuthalAngles detuningRotations name = .ok s

end OpenControls
