import Verif.Model.ListCalls
import Verif.Spec.ArrayCalls

/-!
# Specification: composite pulses called with lists
-/

namespace OpenControls.Spec

variable {α : Type} [Add α] [Sub α] [Mul α] [Div α] [Neg α] [PyFloat α]

/-- the constructor of a composite pulse on numbers and lists of numbers -/
def Scheme.callFlat : Scheme → FlatArg α → FlatArg α → FlatArg α → Option String → Except PyErr (NdControl α)
  | .primitive => newPrimitiveFlat
  | .bb1 => newBB1Flat
  | .sk1 => newSK1Flat
  | .scrofulous => newScrofulousFlat
  | .corpse => newCorpseFlat
  | .corpseInBB1 => newCorpseInBB1Flat
  | .corpseInSK1 => newCorpseInSK1Flat
  | .corpseInScrofulous => newCorpseInScrofulousFlat
  | .wamf1 => newWamf1Flat

/-- the schemes that add π to the azimuthal angle -/
def Scheme.AddsPi (s : Scheme) : Prop := s = .corpse ∨ s = .corpseInBB1 ∨ s = .corpseInSK1

/-- the schemes for rotations by π, π/2 and π/4 only -/
def Scheme.Tabulated (s : Scheme) : Prop := s = .scrofulous ∨ s = .corpseInScrofulous ∨ s = .wamf1

/-- the axes of an argument: none for a number, one for a list -/
def argumentShape : FlatArg α → List ℕ
  | .number _ => []
  | .list l => [l.length]

end OpenControls.Spec
