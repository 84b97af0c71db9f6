import Verif.Model.Shapes
import Verif.Model.DrivenPredefined

/-!
# The composite pulses called with arrays

`Model/ValuesCalls.lean` has the predefined controls on scalar objects.  Here the Rabi rotation, the maximum Rabi rate and the
azimuthal angle are numpy arrays of floats of any shape; a number is an array without axes.

Simplification: a Rabi rotation that is an array with axes and one item counts as this item after the checks (what numpy does
with lists of which only some items are such arrays depends on the version).
-/

namespace OpenControls

open PyFloat Py NdArray

variable {α : Type} [Add α] [Sub α] [Mul α] [Div α] [Neg α] [PyFloat α]

/-- `utils.py:66-79`: `if not condition` for the array of the comparisons `p x`: the truth value of an array with one item is
that of the item, of one without items false, of others ambiguous -/
def NdArray.truth (p : α → Bool) (a : NdArray α) : Except PyErr Bool :=
  match a.data with
  | [] => .ok false
  | [x] => .ok (p x)
  | _ => .error (.valueError "The truth value of an array with more than one element is ambiguous.")

/-- `np.asarray(l)` for a list of arrays that all have the shape `shape`; of each the items are given;
used at `driven_controls/predefined.py:152-158, 219-227` -/
def NdArray.stack (shape : List Nat) (l : List (List α)) : NdArray α := ⟨l.length :: shape, l.flatten⟩

/-- `driven_controls/predefined.py:30-53` `_validate_rabi_parameters`; the result is the item of the Rabi rotation -/
def validateArrays (rabiRotation maximumRabiRate : NdArray α) : Except PyErr α := do
  -- lines 43-47
  let positive ← maximumRabiRate.truth fun r => gt r (lit 0)
  checkArguments positive "Maximum rabi angular frequency should be greater than zero."
  -- lines 49-53
  let nonzero ← rabiRotation.truth fun r => ne r (lit 0)
  checkArguments nonzero "The rabi rotation must be non-zero."
  match rabiRotation.data with
  | x :: _ => return x
  | [] => .error .indexError

/-- the end of the functions with a constant Rabi rate: `rabi_rates = [maximum_rabi_rate] * n`,
`durations = [r / maximum_rabi_rate for r in rabi_rotations]`, `detunings = [0] * n` and the call of the constructor;
used at `driven_controls/predefined.py:219-227, 417-426` -/
def constantRateArrays (rabiRotations : List α) (maximumRabiRate azimuthalAngles : NdArray α)
    (name : Option String) : Except PyErr (NdControl α) :=
  NdControl.new (stack maximumRabiRate.shape (rabiRotations.map fun r => maximumRabiRate.data.map fun x => r / x))
    (some (stack maximumRabiRate.shape (List.replicate rabiRotations.length maximumRabiRate.data)))
    (some azimuthalAngles) (some (vec (List.replicate rabiRotations.length (lit 0)))) name

/-- a list of azimuthal angles that are computed from the array `azimuthal_angle` item by item;
used at `driven_controls/predefined.py:220-225, 418-422` -/
def azimuthArrays (azimuthalAngle : NdArray α) (l : List (α → α)) : NdArray α :=
  stack azimuthalAngle.shape (l.map fun f => azimuthalAngle.data.map f)

/-- `driven_controls/predefined.py:113-158` `new_primitive_control` -/
def newPrimitiveArrays (rabiRotation maximumRabiRate azimuthalAngle : NdArray α) (name : Option String) :
    Except PyErr (NdControl α) := do
  let rotation ← validateArrays rabiRotation maximumRabiRate
  constantRateArrays [rotation] maximumRabiRate (azimuthArrays azimuthalAngle [fun x => x]) name

/-- `driven_controls/predefined.py:161-235` `new_bb1_control` -/
def newBB1Arrays (rabiRotation maximumRabiRate azimuthalAngle : NdArray α) (name : Option String) :
    Except PyErr (NdControl α) := do
  let rotation ← validateArrays rabiRotation maximumRabiRate
  let phiP ← transformedRabiRotationWimperis rotation
  constantRateArrays [rotation, PyFloat.pi, lit 2 * PyFloat.pi, PyFloat.pi] maximumRabiRate
    (azimuthArrays azimuthalAngle [fun x => x, (· + phiP), (· + lit 3 * phiP), (· + phiP)]) name

/-- `driven_controls/predefined.py:238-314` `new_sk1_control` -/
def newSK1Arrays (rabiRotation maximumRabiRate azimuthalAngle : NdArray α) (name : Option String) :
    Except PyErr (NdControl α) := do
  let rotation ← validateArrays rabiRotation maximumRabiRate
  let phiP ← transformedRabiRotationWimperis rotation
  constantRateArrays [rotation, lit 2 * PyFloat.pi, lit 2 * PyFloat.pi] maximumRabiRate
    (azimuthArrays azimuthalAngle [fun x => x, (· - phiP), (· + phiP)]) name

/-- `driven_controls/predefined.py:317-434` `new_scrofulous_control` -/
def newScrofulousArrays (rabiRotation maximumRabiRate azimuthalAngle : NdArray α) (name : Option String) :
    Except PyErr (NdControl α) := do
  let rotation ← validateArrays rabiRotation maximumRabiRate
  checkArguments (isSupportedRotation rotation) "rabi_rotation angle must be either pi, pi/2 or pi/4"
  let theta1 := scrofulousTheta1 rotation
  let phi1 := arccos (scrofulousPhi1Arg theta1 rotation)
  let phi2 := phi1 - arccos (scrofulousPhi2Arg theta1)
  constantRateArrays [theta1, PyFloat.pi, theta1] maximumRabiRate
    (azimuthArrays azimuthalAngle [(· + phi1), (· + phi2), (· + phi1)]) name

/-- `driven_controls/predefined.py:437-516` `new_corpse_control` -/
def newCorpseArrays (rabiRotation maximumRabiRate azimuthalAngle : NdArray α) (name : Option String) :
    Except PyErr (NdControl α) := do
  let rotation ← validateArrays rabiRotation maximumRabiRate
  let k := corpseK rotation
  constantRateArrays [rotation / lit 2 + lit 2 * PyFloat.pi - k, lit 2 * PyFloat.pi - lit 2 * k, rotation / lit 2 - k]
    maximumRabiRate (azimuthArrays azimuthalAngle [fun x => x, (· + PyFloat.pi), fun x => x]) name

/-- `driven_controls/predefined.py:519-621` `new_corpse_in_bb1_control` -/
def newCorpseInBB1Arrays (rabiRotation maximumRabiRate azimuthalAngle : NdArray α) (name : Option String) :
    Except PyErr (NdControl α) := do
  let rotation ← validateArrays rabiRotation maximumRabiRate
  let phiP ← transformedRabiRotationWimperis rotation
  let k := corpseK rotation
  constantRateArrays [lit 2 * PyFloat.pi + rotation / lit 2 - k, lit 2 * PyFloat.pi - lit 2 * k, rotation / lit 2 - k,
      PyFloat.pi, lit 2 * PyFloat.pi, PyFloat.pi] maximumRabiRate
    (azimuthArrays azimuthalAngle [fun x => x, (· + PyFloat.pi), fun x => x, (· + phiP), (· + lit 3 * phiP),
      (· + phiP)]) name

/-- `driven_controls/predefined.py:624-723` `new_corpse_in_sk1_control` -/
def newCorpseInSK1Arrays (rabiRotation maximumRabiRate azimuthalAngle : NdArray α) (name : Option String) :
    Except PyErr (NdControl α) := do
  let rotation ← validateArrays rabiRotation maximumRabiRate
  let phiP ← transformedRabiRotationWimperis rotation
  let k := corpseK rotation
  constantRateArrays [lit 2 * PyFloat.pi + rotation / lit 2 - k, lit 2 * PyFloat.pi - lit 2 * k, rotation / lit 2 - k,
      lit 2 * PyFloat.pi, lit 2 * PyFloat.pi] maximumRabiRate
    (azimuthArrays azimuthalAngle [fun x => x, (· + PyFloat.pi), fun x => x, (· - phiP), (· + phiP)]) name

/-- `driven_controls/predefined.py:726-881` `new_corpse_in_scrofulous_control`.  Lines 858-864 put the azimuthal angle at one
place of a matrix of numbers: an array with one item counts as the item, others cannot be stored (at the latest by the
constructor). -/
def newCorpseInScrofulousArrays (rabiRotation maximumRabiRate azimuthalAngle : NdArray α) (name : Option String) :
    Except PyErr (NdControl α) := do
  let rotation ← validateArrays rabiRotation maximumRabiRate
  checkArguments (isSupportedRotation rotation) "rabi_rotation angle must be either pi, pi/2 or pi/4"
  let theta1 := scrofulousTheta1 rotation
  let phi1 := arccos (scrofulousPhi1Arg theta1 rotation)
  let phi2 := phi1 - arccos (scrofulousPhi2Arg theta1)
  match azimuthalAngle.data with
  | [azimuth] =>
    let totalAngles := corpseBlock azimuth theta1 phi1 ++ corpseBlock azimuth PyFloat.pi phi2 ++
      corpseBlock azimuth theta1 phi1
    constantRateArrays (totalAngles.map Prod.fst) maximumRabiRate (vec (totalAngles.map Prod.snd)) name
  | _ => .error (.valueError "setting an array element with a sequence.")

/-- `driven_controls/predefined.py:884-973` `new_wamf1_control` -/
def newWamf1Arrays (rabiRotation maximumRabiRate azimuthalAngle : NdArray α) (name : Option String) :
    Except PyErr (NdControl α) := do
  let rotation ← validateArrays rabiRotation maximumRabiRate
  checkArguments (isSupportedRotation rotation) "rabi_rotation angle must be either pi, pi/2 or pi/4"
  let thetaPlus := (wamf1Thetas rotation).1
  let thetaMinus := (wamf1Thetas rotation).2
  let segmentDuration := maximumRabiRate.data.map fun x => thetaPlus / x
  NdControl.new (stack maximumRabiRate.shape (List.replicate 4 segmentDuration))
    (some (stack maximumRabiRate.shape ([thetaPlus, thetaMinus, thetaMinus, thetaPlus].map fun r =>
      segmentDuration.map fun x => r / x)))
    (some (azimuthArrays azimuthalAngle (List.replicate 4 fun x => x))) (some (vec (List.replicate 4 (lit 0)))) name

end OpenControls
