import Verif.Spec.Conversion
import Verif.Spec.Families

/-!
# Specification: sequences and controls run backwards or in a rotated frame
-/

namespace OpenControls.Spec

/-- the sequence run backwards: the pulses in opposite order, each as long before the end as it was after
the start -/
noncomputable def backwards (s : Sequence ℝ) : Sequence ℝ where
  duration := s.duration
  offsets := (s.offsets.map (s.duration - ·)).reverse
  rabiRotations := s.rabiRotations.reverse
  azimuthalAngles := s.azimuthalAngles.reverse
  detuningRotations := s.detuningRotations.reverse
  name := s.name

/-- the control with its segments in opposite order -/
def reversed (c : DrivenControl ℝ) : DrivenControl ℝ where
  rabiRates := c.rabiRates.reverse
  azimuthalAngles := c.azimuthalAngles.reverse
  detunings := c.detunings.reverse
  durations := c.durations.reverse
  name := c.name

/-- the sequence with the same angle added to all azimuthal angles -/
noncomputable def turned (φ : ℝ) (s : Sequence ℝ) : Sequence ℝ :=
  { s with azimuthalAngles := s.azimuthalAngles.map (· + φ) }

open Classical in
/-- the control with the same angle added to the azimuthal angles of all segments with a Rabi rate -/
noncomputable def turnedControl (φ : ℝ) (c : DrivenControl ℝ) : DrivenControl ℝ :=
  { c with
    azimuthalAngles :=
      List.zipWith (fun r a => if r = 0 then a else a + φ) c.rabiRates c.azimuthalAngles }

/-- the sequence that undoes all rotations: in opposite order, each with the opposite Rabi axis and the
opposite detuning rotation -/
noncomputable def undoing (s : Sequence ℝ) : Sequence ℝ :=
  { backwards (turned Real.pi s) with
    detuningRotations := (s.detuningRotations.map (-·)).reverse }

/-- the control that undoes all segments: in opposite order, each with the opposite Rabi axis and the
opposite detuning -/
noncomputable def undoingControl (c : DrivenControl ℝ) : DrivenControl ℝ where
  rabiRates := c.rabiRates.reverse
  azimuthalAngles := (c.azimuthalAngles.map (· + Real.pi)).reverse
  detunings := (c.detunings.map (-·)).reverse
  durations := c.durations.reverse
  name := c.name

end OpenControls.Spec
