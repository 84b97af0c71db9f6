import Verif.Model.ArrayCalls
import Verif.Spec.Composite
import Verif.Spec.Shapes

/-!
# Specification: composite pulses called with arrays
-/

namespace OpenControls.Spec

variable {α : Type} [Add α] [Sub α] [Mul α] [Div α] [Neg α] [PyFloat α]

/-- the constructor of a composite pulse on arrays -/
def Scheme.callArrays : Scheme → NdArray α → NdArray α → NdArray α → Option String → Except PyErr (NdControl α)
  | .primitive => newPrimitiveArrays
  | .bb1 => newBB1Arrays
  | .sk1 => newSK1Arrays
  | .scrofulous => newScrofulousArrays
  | .corpse => newCorpseArrays
  | .corpseInBB1 => newCorpseInBB1Arrays
  | .corpseInSK1 => newCorpseInSK1Arrays
  | .corpseInScrofulous => newCorpseInScrofulousArrays
  | .wamf1 => newWamf1Arrays

/-- a control with the same numbers, whose Rabi rates and durations have the shape `rate` at each segment, and whose azimuthal
angles have the shape `azimuth` at each segment -/
def shapedControl (rate azimuth : List ℕ) (c : DrivenControl α) : NdControl α :=
  ⟨⟨c.rabiRates.length :: rate, c.rabiRates⟩, ⟨c.azimuthalAngles.length :: azimuth, c.azimuthalAngles⟩,
    .vec c.detunings, ⟨c.durations.length :: rate, c.durations⟩, c.name⟩

end OpenControls.Spec
