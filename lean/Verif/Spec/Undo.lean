import Verif.Spec.Circuits

/-!
# Specification: the control that undoes another control
-/

namespace OpenControls.Spec

variable {α : Type} [Add α] [Sub α] [Mul α] [Div α] [Neg α] [PyFloat α]

/-- What a user writes to undo a control: the arrays reversed, `np.pi` added to the azimuthal angles, the opposite detunings. -/
def undo (c : DrivenControl α) (name : Option String) : Except PyErr (DrivenControl α) :=
  DrivenControl.new c.durations.reverse (some c.rabiRates.reverse)
    (some (c.azimuthalAngles.reverse.map fun φ => φ + PyFloat.pi)) (some (c.detunings.reverse.map fun Δ => -Δ)) name

/-- the composite pulses whose rotations are the same forwards and backwards -/
def Scheme.Palindromic : Scheme → Prop
  | .primitive | .scrofulous | .wamf1 => True
  | _ => False

end OpenControls.Spec
