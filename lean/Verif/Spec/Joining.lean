import Verif.Spec.Conversion

/-!
# Specification: playing one control or sequence after another
-/

namespace OpenControls.Spec

variable {α : Type} [Add α] [Sub α] [Mul α] [Div α] [Neg α] [PyFloat α]

/-- What a user writes to play the control `c'` after the control `c`: all arrays are concatenated. -/
def joinedControl (c c' : DrivenControl α) (name : Option String) : Except PyErr (DrivenControl α) :=
  DrivenControl.new (c.durations ++ c'.durations) (some (c.rabiRates ++ c'.rabiRates))
    (some (c.azimuthalAngles ++ c'.azimuthalAngles)) (some (c.detunings ++ c'.detunings)) name

/-- What a user writes to play the sequence `s'` after the sequence `s`: all arrays are concatenated, and the offsets of `s'`
are moved by the duration of `s`. -/
def joinedSequence (s s' : Sequence α) (name : Option String) : Except PyErr (Sequence α) :=
  Sequence.new (s.duration + s'.duration) (s.offsets ++ s'.offsets.map fun t => t + s.duration)
    (s.rabiRotations ++ s'.rabiRotations) (s.azimuthalAngles ++ s'.azimuthalAngles)
    (s.detuningRotations ++ s'.detuningRotations) name

/-- `s'` can follow `s` without a pulse at the joint -/
def NoPulseAtJoint (s s' : Sequence ℝ) : Prop := s.duration ∉ s.offsets ∧ 0 ∉ s'.offsets

/-- At each time the control `j` does what `c` does, and when `c` is over, after the time `T`, what `c'` does. -/
def PlaysInTurn (j : DrivenControl ℝ) (T : ℝ) (c c' : DrivenControl ℝ) : Prop :=
  ∀ t v, DrivesAt j t v ↔ DrivesAt c t v ∨ DrivesAt c' (t - T) v

end OpenControls.Spec
