import Verif.Model.HeapDriven
import Verif.Spec.Heap
import Verif.Spec.Extended

/-!
# Specification: the predefined driven controls on a heap of arrays
-/

namespace OpenControls.Spec

variable {α : Type} [Add α] [Sub α] [Mul α] [Div α] [Neg α] [PyFloat α]

/-- a call of one of the public functions that create driven controls -/
inductive ControlCall (α : Type) where
  | composite (scheme : Scheme) (rabiRotation maximumRabiRate azimuthalAngle : α) (name : Option String)
  | gaussian (maximumRabiRate minimumSegmentDuration duration modulationFrequency : α)

/-- the call, on values (`Verif/Model/DrivenPredefined.lean`) -/
def ControlCall.result : ControlCall α → Except PyErr (DrivenControl α)
  | .composite scheme θ Ω φ name => scheme.call θ Ω φ name
  | .gaussian Ω d T f => newModulatedGaussianControl Ω d T f

/-- the call, statement by statement (`Verif/Model/HeapDriven.lean`) -/
def ControlCall.run : ControlCall α → PyM α ControlObj
  | .composite .primitive θ Ω φ name => newPrimitiveH θ Ω φ name
  | .composite .bb1 θ Ω φ name => newBB1H θ Ω φ name
  | .composite .sk1 θ Ω φ name => newSK1H θ Ω φ name
  | .composite .scrofulous θ Ω φ name => newScrofulousH θ Ω φ name
  | .composite .corpse θ Ω φ name => newCorpseH θ Ω φ name
  | .composite .corpseInBB1 θ Ω φ name => newCorpseInBB1H θ Ω φ name
  | .composite .corpseInSK1 θ Ω φ name => newCorpseInSK1H θ Ω φ name
  | .composite .corpseInScrofulous θ Ω φ name => newCorpseInScrofulousH θ Ω φ name
  | .composite .wamf1 θ Ω φ name => newWamf1H θ Ω φ name
  | .gaussian Ω d T f => newModulatedGaussianH Ω d T f

end OpenControls.Spec
