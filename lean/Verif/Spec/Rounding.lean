import Verif.Rounding
import Verif.Model.Sequence

/-!
# Specification: a sequence computed in rounded arithmetic against the exact one
-/

namespace OpenControls.Spec

variable {r : Rounding}

/-- The instants that matter, as computed and exact: the start, the end and the pulses. -/
def instants (s : Sequence (Fl r)) (exact : Sequence ℝ) : List (ℝ × ℝ) :=
  (0, 0) :: (s.duration.val, exact.duration) ::
    List.zipWith (fun t t' => (t.val, t')) s.offsets exact.offsets

/-- The rounded sequence `s` agrees with the exact one: same duration and name, as many pulses, every
pulse moved by at most `ε` times the duration, every angle correctly rounded, and two of the pulses, the start and
the end are in the same temporal order (in particular coincide) in `s` exactly if they are in the exact
sequence. -/
structure Approximates (ε : ℝ) (s : Sequence (Fl r)) (exact : Sequence ℝ) : Prop where
  duration : s.duration.val = exact.duration
  name : s.name = exact.name
  count : s.offsets.length = exact.offsets.length
  offsets : ∀ p ∈ s.offsets.zip exact.offsets, |p.1.val - p.2| ≤ ε * exact.duration
  order : ∀ p ∈ instants s exact, ∀ q ∈ instants s exact, (p.1 < q.1 ↔ p.2 < q.2)
  rabi : s.rabiRotations = exact.rabiRotations.map (Fl.round r)
  azimuthal : s.azimuthalAngles = exact.azimuthalAngles.map (Fl.round r)
  detuning : s.detuningRotations = exact.detuningRotations.map (Fl.round r)

/-- Both calls succeed and the rounded result agrees with the exact one. -/
def Agrees (ε : ℝ) (call : Except PyErr (Sequence (Fl r))) (exact : Except PyErr (Sequence ℝ)) :
    Prop :=
  ∃ s s', call = .ok s ∧ exact = .ok s' ∧ Approximates ε s s'

end OpenControls.Spec
