import Verif.Model.HeapPredefined
import Verif.Spec.Heap
import Verif.Spec.Extended

/-!
# Specification: the predefined sequences on a heap of arrays
-/

namespace OpenControls

variable {α : Type} [Add α] [Sub α] [Mul α] [Div α] [Neg α] [PyFloat α]

/-- the call of the public function, statement by statement (`Verif/Model/HeapPredefined.lean`) -/
def Spec.Predefined.run (s : Spec.Predefined α) (T : α) (prePost : Bool) (name : Option String) :
    PyM α (SequenceObj α) :=
  match s with
  | .ramsey => newRamseyH T prePost name
  | .spinEcho => newSpinEchoH T prePost name
  | .carrPurcell n => newCarrPurcellH T n prePost name
  | .cpmg n => newCPMGH T n prePost name
  | .uhrig n => newUhrigH T n prePost name
  | .periodic n => newPeriodicH T n prePost name
  | .walsh k => newWalshH T k prePost name
  | .quadratic n m => newQuadraticH T n m prePost name
  | .xConcatenated l => newXConcatenatedH T l prePost name
  | .xyConcatenated l => newXYConcatenatedH T l prePost name

end OpenControls
