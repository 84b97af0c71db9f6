import Verif.Model.Shapes

/-!
# Specification: arguments of any shape
-/

namespace OpenControls.Spec

variable {α : Type}

/-- as many items as the shape says (true of every numpy array) -/
def Regular (a : NdArray α) : Prop := a.data.length = a.shape.prod

/-- `all(p(x) for x in a)` makes sense and holds: an array with no item along the first axis, or one with a single number
at each place along the first axis, all of which satisfy `p` -/
def AllItems (p : α → Prop) (a : NdArray α) : Prop :=
  ∃ n rest, a.shape = n :: rest ∧ (n = 0 ∨ (rest.prod = 1 ∧ ∀ x ∈ a.data, p x))

/-- one number at each place along the first axis: a 1-D array or a column -/
def LineLike (a : NdArray α) : Prop := ∃ n rest, a.shape = n :: rest ∧ rest.prod = 1

/-- the array has `n` places along its first axis -/
def FirstAxis (n : ℕ) (a : NdArray α) : Prop := ∃ rest, a.shape = n :: rest

/-- a control as one with 1-D arrays -/
def flatControl (c : DrivenControl α) : NdControl α :=
  ⟨.vec c.rabiRates, .vec c.azimuthalAngles, .vec c.detunings, .vec c.durations, c.name⟩

/-- a sequence as one with 1-D arrays -/
def flatSequence (s : Sequence α) : NdSequence α :=
  ⟨s.duration, .vec s.offsets, .vec s.rabiRotations, .vec s.azimuthalAngles,
    .vec s.detuningRotations, s.name⟩

/-- the same control with its durations as an `n × 1` array -/
def columnControl (c : DrivenControl α) : NdControl α :=
  { flatControl c with durations := ⟨[c.durations.length, 1], c.durations⟩ }

end OpenControls.Spec
