import Verif.Spec.Conversion
import Verif.Spec.Noise

/-!
# Specification: pulses of finite width and a constant detuning error
-/

namespace OpenControls.Spec

/-- the pulse is a π-pulse about an axis -/
def Pulse.IsPi (p : Pulse) (c : Axis) : Prop :=
  p.rabi = c.rabi ∧ p.azimuthal = c.azimuthal ∧ p.detuning = c.detuning

/-- The sequence with every pulse moved to the centre of the window in which the hardware carries it out. Only a
pulse at time 0 or at the end moves. -/
noncomputable def centred (R D m : ℝ) (s : Sequence ℝ) : Sequence ℝ :=
  { s with offsets := (pulseList s).map fun p =>
      ((window s.duration R D m p).1 + (window s.duration R D m p).2) / 2 }

open Classical in
/-- The number of π-pulses about one axis, each counted with the sign that noise along another axis has when the
pulse comes. -/
noncomputable def signedCount (pulse noise : Axis) (s : Sequence ℝ) : ℝ :=
  (((pulseList s).filter fun p => p.IsPi pulse).map fun p => sensitivityAlong noise s p.offset).sum

/-- The families and orders of which the converted control is claimed to be insensitive to a constant detuning
error. For Walsh sequences the number of ones in the binary expansion of the Paley order has to be even. -/
def Family.InsensitiveWhenConverted : Family → Prop
  | .ramsey => False
  | .spinEcho => False
  | .carrPurcell n => Even ⌊n⌋₊
  | .cpmg n => Even ⌊n⌋₊
  | .uhrig n => Even ⌊n⌋₊
  | .periodic _ => False
  | .walsh k => Even (Nat.digits 2 ⌊k⌋₊).sum
  | .quadratic inner outer => Even ⌊inner⌋₊ ∧ Even ⌊outer⌋₊
  | .xConcatenated l => Even ⌊l⌋₊
  | .xyConcatenated l => ⌊l⌋₊ = 2

/-- The families and orders of which the converted control with pre and post rotations is claimed to be insensitive
to a constant detuning error, as long as the hardware can do a π/2 rotation at the full Rabi rate: the ones with an
odd number of X pulses and nothing else, and the quadratic sequences with an even inner and an odd outer order. -/
def Family.InsensitiveWithRotations : Family → Prop
  | .spinEcho => True
  | .carrPurcell n => Odd ⌊n⌋₊
  | .periodic n => Odd ⌊n⌋₊
  | .walsh k => Odd (Nat.digits 2 ⌊k⌋₊).sum
  | .quadratic inner outer => Even ⌊inner⌋₊ ∧ Odd ⌊outer⌋₊
  | .xConcatenated l => Odd ⌊l⌋₊
  | _ => False

end OpenControls.Spec
