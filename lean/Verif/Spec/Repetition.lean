import Verif.Spec.Noise
import Verif.Spec.Optimal

/-!
# Specification: a sequence that is played several times
-/

namespace OpenControls.Spec

/-- What a user writes to play the sequence `s` `m` times in a row as a single sequence: all arrays are repeated, and the
offsets of the `j`-th copy are moved by `j` times the duration. -/
noncomputable def playedTimes (m : ℕ) (s : Sequence ℝ) (name : Option String) : Except PyErr (Sequence ℝ) :=
  Sequence.new (m * s.duration) ((List.range m).flatMap fun j : ℕ => s.offsets.map fun t => t + j * s.duration)
    (List.replicate m s.rabiRotations).flatten (List.replicate m s.azimuthalAngles).flatten
    (List.replicate m s.detuningRotations).flatten name

end OpenControls.Spec
