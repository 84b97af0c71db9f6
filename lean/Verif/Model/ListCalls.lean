import Verif.Model.ArrayCalls

/-!
# The composite pulses called with lists

`Model/ArrayCalls.lean` has the composite pulses on numpy arrays.  Here the Rabi rotation, the maximum Rabi rate and the azimuthal
angle are numbers, or lists or tuples of numbers.  Python's own floats cannot be divided into or added to lists, numpy's are
added item by item; `np.pi` is one of Python's floats, the result of `np.arccos` one of numpy's.

Simplifications: the lists hold numbers only (no lists of lists); the numbers are Python's own (a list as Rabi rotation could be
divided by one of numpy's as rate).
-/

namespace OpenControls

open PyFloat Py NdArray

variable {α : Type} [Add α] [Sub α] [Mul α] [Div α] [Neg α] [PyFloat α]

/-- An argument: a number, or a list or tuple of numbers; used at `driven_controls/predefined.py:113-118` -/
inductive FlatArg (α : Type) where
  | number (x : α)
  | list (l : List α)

namespace FlatArg

/-- `v > 0`, `-4 * np.pi <= v`, `v / 2.0`, `v / maximum_rabi_rate`: `TypeError` for a list;
used at `driven_controls/predefined.py:44, 74, 156, 395, 496` -/
def real : FlatArg α → Except PyErr α
  | .number x => .ok x
  | .list _ => .error (.typeError "unsupported operand type(s)")

/-- `v != 0`: a list, also an empty one, is not 0; used at `driven_controls/predefined.py:50` -/
def nonzero : FlatArg α → Bool
  | .number x => ne x (lit 0)
  | .list _ => true

/-- `v + np.pi` with Python's float `np.pi`: `TypeError` for a list; used at `driven_controls/predefined.py:504, 604, 707` -/
def plusPi : FlatArg α → Except PyErr Unit
  | .number _ => .ok ()
  | .list _ => .error (.typeError "can only concatenate list (not \"float\") to list")

/-- What `v + x` with one of numpy's floats and `np.asarray` make of the argument: an array without axes, or with one;
used at `driven_controls/predefined.py:153-158, 220-225` -/
def toArray : FlatArg α → NdArray α
  | .number x => ⟨[], [x]⟩
  | .list l => ⟨[l.length], l⟩

/-- `driven_controls/predefined.py:386-392, 821-832, 943-949`: `np.any(np.isclose(v, [np.pi, np.pi / 2, np.pi / 4]))` has to be
true, and `if np.isclose(v, np.pi)` needs a truth value.  A list is compared item by item with the three numbers, or a list
with one item with each of them; others have the wrong length.  The result is the number that is compared; for numbers the
check is left to the function that follows. -/
def tabulated : FlatArg α → Except PyErr α
  | .number x => .ok x
  | .list [x] => do
    checkArguments (isSupportedRotation x) "rabi_rotation angle must be either pi, pi/2 or pi/4"
    return x
  | .list [x, y, z] => do
    checkArguments (isClose x PyFloat.pi || isClose y (PyFloat.pi / lit 2) || isClose z (PyFloat.pi / lit 4))
      "rabi_rotation angle must be either pi, pi/2 or pi/4"
    .error (.valueError "The truth value of an array with more than one element is ambiguous.")
  | .list _ => .error (.valueError "operands could not be broadcast together")

end FlatArg

/-- `driven_controls/predefined.py:30-53` `_validate_rabi_parameters`; the result is the maximum Rabi rate -/
def validateFlat (rabiRotation maximumRabiRate : FlatArg α) : Except PyErr α := do
  let rate ← maximumRabiRate.real
  checkArguments (gt rate (lit 0)) "Maximum rabi angular frequency should be greater than zero."
  checkArguments rabiRotation.nonzero "The rabi rotation must be non-zero."
  return rate

/-- `driven_controls/predefined.py:113-158` `new_primitive_control`.  Here and below, once the objects are known to be numbers, the
function on arrays does the rest (and repeats the checks of numbers). -/
def newPrimitiveFlat (rabiRotation maximumRabiRate azimuthalAngle : FlatArg α) (name : Option String) :
    Except PyErr (NdControl α) := do
  let rate ← validateFlat rabiRotation maximumRabiRate
  let rotation ← rabiRotation.real
  newPrimitiveArrays ⟨[], [rotation]⟩ ⟨[], [rate]⟩ azimuthalAngle.toArray name

/-- `driven_controls/predefined.py:161-235` `new_bb1_control` -/
def newBB1Flat (rabiRotation maximumRabiRate azimuthalAngle : FlatArg α) (name : Option String) :
    Except PyErr (NdControl α) := do
  let rate ← validateFlat rabiRotation maximumRabiRate
  let rotation ← rabiRotation.real
  newBB1Arrays ⟨[], [rotation]⟩ ⟨[], [rate]⟩ azimuthalAngle.toArray name

/-- `driven_controls/predefined.py:238-314` `new_sk1_control` -/
def newSK1Flat (rabiRotation maximumRabiRate azimuthalAngle : FlatArg α) (name : Option String) :
    Except PyErr (NdControl α) := do
  let rate ← validateFlat rabiRotation maximumRabiRate
  let rotation ← rabiRotation.real
  newSK1Arrays ⟨[], [rotation]⟩ ⟨[], [rate]⟩ azimuthalAngle.toArray name

/-- `driven_controls/predefined.py:317-434` `new_scrofulous_control`; `rabi_rotation / 2` (lines 395, 401, 407) fails for a list -/
def newScrofulousFlat (rabiRotation maximumRabiRate azimuthalAngle : FlatArg α) (name : Option String) :
    Except PyErr (NdControl α) := do
  let rate ← validateFlat rabiRotation maximumRabiRate
  let _ ← rabiRotation.tabulated
  let rotation ← rabiRotation.real
  newScrofulousArrays ⟨[], [rotation]⟩ ⟨[], [rate]⟩ azimuthalAngle.toArray name

/-- `driven_controls/predefined.py:437-516` `new_corpse_control` -/
def newCorpseFlat (rabiRotation maximumRabiRate azimuthalAngle : FlatArg α) (name : Option String) :
    Except PyErr (NdControl α) := do
  let rate ← validateFlat rabiRotation maximumRabiRate
  let rotation ← rabiRotation.real
  azimuthalAngle.plusPi
  newCorpseArrays ⟨[], [rotation]⟩ ⟨[], [rate]⟩ azimuthalAngle.toArray name

/-- `driven_controls/predefined.py:519-621` `new_corpse_in_bb1_control` -/
def newCorpseInBB1Flat (rabiRotation maximumRabiRate azimuthalAngle : FlatArg α) (name : Option String) :
    Except PyErr (NdControl α) := do
  let rate ← validateFlat rabiRotation maximumRabiRate
  let rotation ← rabiRotation.real
  let _ ← transformedRabiRotationWimperis rotation
  azimuthalAngle.plusPi
  newCorpseInBB1Arrays ⟨[], [rotation]⟩ ⟨[], [rate]⟩ azimuthalAngle.toArray name

/-- `driven_controls/predefined.py:624-723` `new_corpse_in_sk1_control` -/
def newCorpseInSK1Flat (rabiRotation maximumRabiRate azimuthalAngle : FlatArg α) (name : Option String) :
    Except PyErr (NdControl α) := do
  let rate ← validateFlat rabiRotation maximumRabiRate
  let rotation ← rabiRotation.real
  let _ ← transformedRabiRotationWimperis rotation
  azimuthalAngle.plusPi
  newCorpseInSK1Arrays ⟨[], [rotation]⟩ ⟨[], [rate]⟩ azimuthalAngle.toArray name

/-- `driven_controls/predefined.py:726-881` `new_corpse_in_scrofulous_control`; lines 860-862 add the azimuthal angle to numpy's
floats only -/
def newCorpseInScrofulousFlat (rabiRotation maximumRabiRate azimuthalAngle : FlatArg α) (name : Option String) :
    Except PyErr (NdControl α) := do
  let rate ← validateFlat rabiRotation maximumRabiRate
  let _ ← rabiRotation.tabulated
  let rotation ← rabiRotation.real
  newCorpseInScrofulousArrays ⟨[], [rotation]⟩ ⟨[], [rate]⟩ azimuthalAngle.toArray name

/-- `driven_controls/predefined.py:884-973` `new_wamf1_control`: the rotation is only compared, never computed with.  (The function
on arrays compares it with 0 again, which a supported rotation is not.) -/
def newWamf1Flat (rabiRotation maximumRabiRate azimuthalAngle : FlatArg α) (name : Option String) :
    Except PyErr (NdControl α) := do
  let rate ← validateFlat rabiRotation maximumRabiRate
  let rotation ← rabiRotation.tabulated
  newWamf1Arrays ⟨[], [rotation]⟩ ⟨[], [rate]⟩ azimuthalAngle.toArray name

end OpenControls
