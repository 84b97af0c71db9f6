import Verif.Model.ArrayCounts
import Verif.Spec.Extended

/-!
# Specification: predefined sequences called with arrays as counts and orders
-/

namespace OpenControls.Spec

variable {α : Type} [Add α] [Sub α] [Mul α] [Div α] [Neg α] [PyFloat α]

/-- the call of the public function with arrays as counts and orders, and an array as switch for pre and post rotations -/
def Predefined.callCounts (p : Predefined (NdArray α)) (T : α) (prePost : NdArray Bool) (name : Option String) :
    Except PyErr (Sequence α) :=
  match p with
  | .ramsey => newRamseyCounts T prePost name
  | .spinEcho => newSpinEchoCounts T prePost name
  | .carrPurcell n => newCarrPurcellCounts T n prePost name
  | .cpmg n => newCPMGCounts T n prePost name
  | .uhrig n => newUhrigCounts T n prePost name
  | .periodic n => newPeriodicCounts T n prePost name
  | .walsh k => newWalshCounts T k prePost name
  | .quadratic n m => newQuadraticCounts T n m prePost name
  | .xConcatenated l => newXConcatenatedCounts T l prePost name
  | .xyConcatenated l => newXYConcatenatedCounts T l prePost name

/-- The arrays are those of the call `p`, with one item each: the numbers of the call `q`. -/
def Predefined.OneItem (p : Predefined (NdArray α)) (q : Predefined α) : Prop :=
  p.map NdArray.data = q.map fun x => [x]

end OpenControls.Spec
