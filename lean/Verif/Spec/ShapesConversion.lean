import Mathlib.Data.Real.Basic
import Verif.Model.ShapesConversion
import Verif.Spec.Shapes

/-!
# Specification: converting sequences with arrays of any shape
-/

namespace OpenControls.Spec

variable {α : Type}

/-- the sequence with its four arrays flattened -/
def flattened (s : NdSequence α) : Sequence α :=
  ⟨s.duration, s.offsets.data, s.rabiRotations.data, s.azimuthalAngles.data, s.detuningRotations.data,
    s.name⟩

/-- the number of items at each place along the first axis -/
def rowSize (a : NdArray α) : ℕ := a.shape.tail.prod

/-- the attributes are numpy arrays, with first axes of the same length, as the constructor checks -/
def WellShaped (s : NdSequence α) : Prop :=
  Regular s.offsets ∧ Regular s.rabiRotations ∧ Regular s.azimuthalAngles ∧
  Regular s.detuningRotations ∧
  ∃ n, FirstAxis n s.offsets ∧ FirstAxis n s.rabiRotations ∧ FirstAxis n s.azimuthalAngles ∧
    FirstAxis n s.detuningRotations

/-- no place along the first axis has positive rotations of both kinds -/
def NoCommonRow (r d : NdArray ℝ) : Prop :=
  ∀ (i j : ℕ) (x y : ℝ), r.data[i]? = some x → d.data[j]? = some y → 0 < x → 0 < y →
    i / rowSize r ≠ j / rowSize d

end OpenControls.Spec
