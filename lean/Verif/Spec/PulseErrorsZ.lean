import Verif.Spec.Noise

/-!
# Specification: Z pulses with wrong rotation angles
-/

namespace OpenControls.Spec

/-- The sequence whose pulses about Z rotate by `(1 + e i) π` instead of `π`, where `i` is the position of the pulse. Nothing
else is changed. -/
noncomputable def miscalibratedZ (e : ℕ → ℝ) (s : Sequence ℝ) : Sequence ℝ :=
  { s with detuningRotations := s.detuningRotations.mapIdx fun i d =>
      if d = Real.pi then (1 + e i) * d else d }

/-- The sum of the relative errors of the Z pulses, each with a sign that flips at every π-pulse about another axis. -/
noncomputable def netErrorZ (e : ℕ → ℝ) (s : Sequence ℝ) : ℝ :=
  ∑ i ∈ Finset.range s.detuningRotations.length,
    if s.detuningRotations[i]? = some Real.pi then
      (-1) ^ (s.rabiRotations.take i).count Real.pi * e i else 0

end OpenControls.Spec
