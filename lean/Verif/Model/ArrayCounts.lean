import Verif.Model.ArrayLimits
import Verif.Model.SequencePredefined

/-!
# The predefined sequences called with arrays as counts and orders

The counts and orders are numpy arrays of floats of any shape, and the switch for pre and post rotations is an array of booleans of any shape;
a number or a boolean is an array without axes.  The duration is a number.
-/

namespace OpenControls

open PyFloat Py NdArray

variable {α : Type} [Add α] [Sub α] [Mul α] [Div α] [Neg α] [PyFloat α]

/-- `int(a)` for an array (`dynamic_decoupling_sequences/predefined.py:318, 401, 480, 559, 662, 792-793, 909, 1014`): it must have one item. -/
def NdArray.toInt (a : NdArray α) : Except PyErr Nat := do
  let x ← a.stored
  pyInt x

/-- `check_arguments(count >= 1, ...)` (`dynamic_decoupling_sequences/predefined.py:311-315` and likewise in the others) -/
def checkArrayCount (count : NdArray α) (description : String) : Except PyErr Unit := do
  let enough ← count.truth fun n => ge n (lit 1)
  checkArguments enough description

/-- `if pre_post_rotation:` and the call of the constructor (`dynamic_decoupling_sequences/predefined.py:327-344` and likewise in the others) -/
def finishArrays (duration : α) (prePostRotation : NdArray Bool) (name : Option String) (p : Pulses α) :
    Except PyErr (Sequence α) := do
  let b ← prePostRotation.truth id
  finishSequence duration b name p

/-- `predefined.py:143-198` `new_ramsey_sequence` -/
def newRamseyCounts (duration : α) (prePostRotation : NdArray Bool) (name : Option String) :
    Except PyErr (Sequence α) := do
  checkDuration duration
  let b ← prePostRotation.truth id
  if b then
    Sequence.new duration [duration * lit 0, duration * lit 1]
      [PyFloat.pi / lit 2, PyFloat.pi / lit 2] [lit 0, PyFloat.pi] [lit 0, lit 0] name
  else
    Sequence.new duration [] [] [] [] name

/-- `predefined.py:201-259` `new_spin_echo_sequence` -/
def newSpinEchoCounts (duration : α) (prePostRotation : NdArray Bool) (name : Option String) :
    Except PyErr (Sequence α) := do
  checkDuration duration
  finishArrays duration prePostRotation name {
    offsets := [duration / lit 2]
    rabiRotations := [PyFloat.pi]
    azimuthalAngles := [lit 0]
    detuningRotations := [lit 0] }

/-- `predefined.py:262-344` `new_carr_purcell_sequence` -/
def newCarrPurcellCounts (duration : α) (offsetCount : NdArray α) (prePostRotation : NdArray Bool)
    (name : Option String) : Except PyErr (Sequence α) := do
  checkDuration duration
  checkArrayCount offsetCount "Number of offsets must be greater than zero."
  let n ← offsetCount.toInt
  finishArrays duration prePostRotation name (uniformPulses (cpmgOffsets duration n) (lit 0))

/-- `predefined.py:347-428` `new_cpmg_sequence` -/
def newCPMGCounts (duration : α) (offsetCount : NdArray α) (prePostRotation : NdArray Bool)
    (name : Option String) : Except PyErr (Sequence α) := do
  checkDuration duration
  checkArrayCount offsetCount "Number of offsets must be greater than zero."
  let n ← offsetCount.toInt
  finishArrays duration prePostRotation name (uniformPulses (cpmgOffsets duration n) (PyFloat.pi / lit 2))

/-- `predefined.py:431-507` `new_uhrig_sequence` -/
def newUhrigCounts (duration : α) (offsetCount : NdArray α) (prePostRotation : NdArray Bool)
    (name : Option String) : Except PyErr (Sequence α) := do
  checkDuration duration
  checkArrayCount offsetCount "Number of offsets must be greater than zero."
  let n ← offsetCount.toInt
  finishArrays duration prePostRotation name (uniformPulses (uhrigOffsets duration n) (PyFloat.pi / lit 2))

/-- `predefined.py:510-586` `new_periodic_sequence` -/
def newPeriodicCounts (duration : α) (offsetCount : NdArray α) (prePostRotation : NdArray Bool)
    (name : Option String) : Except PyErr (Sequence α) := do
  checkDuration duration
  checkArrayCount offsetCount "Number of offsets must be greater than zero."
  let n ← offsetCount.toInt
  finishArrays duration prePostRotation name (uniformPulses (periodicOffsets duration n) (lit 0))

/-- `dynamic_decoupling_sequences/predefined.py:655-659`; `1 <= paley_order <= 2000` is `(1 <= paley_order) and (paley_order <= 2000)`: the
truth value of the first comparison is taken, and if it is true the second one is the condition -/
def checkArrayOrder (paleyOrder : NdArray α) : Except PyErr Unit := do
  let atLeast ← paleyOrder.truth fun k => le (lit 1) k
  if atLeast then
    let atMost ← paleyOrder.truth fun k => le k (lit 2000)
    checkArguments atMost "Paley order must be between 1 and 2000."
  else
    checkArguments false "Paley order must be between 1 and 2000."

/-- `predefined.py:589-707` `new_walsh_sequence` -/
def newWalshCounts (duration : α) (paleyOrder : NdArray α) (prePostRotation : NdArray Bool)
    (name : Option String) : Except PyErr (Sequence α) := do
  checkDuration duration
  checkArrayOrder paleyOrder
  let k ← paleyOrder.toInt
  let offsets ← walshOffsets duration k
  finishArrays duration prePostRotation name (uniformPulses offsets (lit 0))

/-- `predefined.py:710-844` `new_quadratic_sequence` -/
def newQuadraticCounts (duration : α) (innerOffsetCount outerOffsetCount : NdArray α) (prePostRotation : NdArray Bool)
    (name : Option String) : Except PyErr (Sequence α) := do
  checkDuration duration
  checkArrayCount innerOffsetCount "Number of offsets of inner pulses must be greater than zero."
  checkArrayCount outerOffsetCount "Number of offsets of outer pulses must be greater than zero."
  let n1 ← innerOffsetCount.toInt
  let n2 ← outerOffsetCount.toInt
  finishArrays duration prePostRotation name (quadraticPulses duration n1 n2)

/-- `predefined.py:847-947` `new_x_concatenated_sequence` -/
def newXConcatenatedCounts (duration : α) (concatenationOrder : NdArray α) (prePostRotation : NdArray Bool)
    (name : Option String) : Except PyErr (Sequence α) := do
  checkDuration duration
  checkArrayCount concatenationOrder "Concatenation oder must be greater than zero."
  let l ← concatenationOrder.toInt
  finishArrays duration prePostRotation name (uniformPulses (xConcatenatedOffsets duration l) (lit 0))

/-- `predefined.py:950-1127` `new_xy_concatenated_sequence` -/
def newXYConcatenatedCounts (duration : α) (concatenationOrder : NdArray α) (prePostRotation : NdArray Bool)
    (name : Option String) : Except PyErr (Sequence α) := do
  checkDuration duration
  checkArrayCount concatenationOrder "Concatenation oder must be greater than zero."
  let l ← concatenationOrder.toInt
  finishArrays duration prePostRotation name (xyConcatenatedPulses duration l)

end OpenControls
