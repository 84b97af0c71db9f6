import Verif.Model.ArrayCalls
import Verif.Model.SequencePredefined

/-!
# The predefined sequences called with an array as duration

The duration is a numpy array of floats of any shape; a number is an array without axes.  Nine of the ten functions, without pre and
post rotation.

Not modelled: `new_quadratic_sequence` and `pre_post_rotation=True`.  Both put the duration into a list of numbers for `np.insert`, and what
this does with an array depends on the version of numpy.
-/

namespace OpenControls

open PyFloat Py NdArray

variable {α : Type} [Add α] [Sub α] [Mul α] [Div α] [Neg α] [PyFloat α]

/-- The attributes of a `DynamicDecouplingSequence` instance whose duration is an array
(`dynamic_decoupling_sequence.py:118-123`). -/
structure ArraySequence (α : Type) where
  duration : NdArray α
  offsets : NdArray α
  rabiRotations : NdArray α
  azimuthalAngles : NdArray α
  detuningRotations : NdArray α
  name : Option String
  deriving DecidableEq, Repr

/-- `dynamic_decoupling_sequence.py:74-123` `DynamicDecouplingSequence.__init__` with an array as duration.  After lines 84-88 the duration
has one item; `duration >= offsets` (line 92) compares this item with all offsets, since axes of length 1 are repeated. -/
def ArraySequence.new (duration offsets rabiRotations azimuthalAngles detuningRotations : NdArray α)
    (name : Option String) : Except PyErr (ArraySequence α) := do
  -- lines 84-88
  let positive ← duration.truth fun t => gt t (lit 0)
  checkArguments positive "Sequence duration must be above zero."
  -- lines 91-96
  checkArguments (offsets.data.all fun t => ge t (lit 0) && duration.data.all fun d => ge d t)
    "Offsets for dynamic decoupling sequence must be between 0 and the sequence duration (inclusive). "
  -- line 98
  let offsetCount ← offsets.len
  -- lines 100-116
  let n ← rabiRotations.len
  checkArguments (n == offsetCount) "rabi rotations must have the same length as offsets. "
  let n ← azimuthalAngles.len
  checkArguments (n == offsetCount) "azimuthal angles must have the same length as offsets. "
  let n ← detuningRotations.len
  checkArguments (n == offsetCount) "detuning rotations must have the same length as offsets. "
  -- lines 118-123
  return { duration, offsets, rabiRotations, azimuthalAngles, detuningRotations, name }

/-- `check_arguments(duration > 0, ...)` at the start of every function
(`dynamic_decoupling_sequences/predefined.py:173-177` and likewise in the others) -/
def checkArrayDuration (duration : NdArray α) : Except PyErr Unit := do
  let positive ← duration.truth fun t => gt t (lit 0)
  checkArguments positive "Sequence duration must be greater than zero."

/-- `np.zeros(shape)` filled with a value, or `np.full(shape, value)`;
used at `dynamic_decoupling_sequences/predefined.py:321-325, 403-409, 686-688` -/
def NdArray.full (shape : List Nat) (value : α) : NdArray α := ⟨shape, List.replicate shape.prod value⟩

/-- rotations of the shape of the offsets, and the call of the constructor
(e.g. `dynamic_decoupling_sequences/predefined.py:321-344`, `403-428`, `482-507`) -/
def uniformArrays (duration offsets : NdArray α) (azimuthal : α) (name : Option String) :
    Except PyErr (ArraySequence α) :=
  ArraySequence.new duration offsets (full offsets.shape PyFloat.pi) (full offsets.shape azimuthal)
    (full offsets.shape (lit 0)) name

/-- the call of the constructor with 1-D arrays, `dynamic_decoupling_sequences/predefined.py:940-947, 1120-1127` -/
def flatArrays (duration : NdArray α) (p : Pulses α) (name : Option String) : Except PyErr (ArraySequence α) :=
  ArraySequence.new duration (vec p.offsets) (vec p.rabiRotations) (vec p.azimuthalAngles)
    (vec p.detuningRotations) name

/-- `predefined.py:143-198` `new_ramsey_sequence` -/
def newRamseyArray (duration : NdArray α) (name : Option String) : Except PyErr (ArraySequence α) := do
  checkArrayDuration duration
  ArraySequence.new duration (vec []) (vec []) (vec []) (vec []) name

/-- `predefined.py:201-259` `new_spin_echo_sequence`; line 236 makes an array of a list with one array -/
def newSpinEchoArray (duration : NdArray α) (name : Option String) : Except PyErr (ArraySequence α) := do
  checkArrayDuration duration
  ArraySequence.new duration (stack duration.shape [duration.data.map fun t => t / lit 2]) (vec [PyFloat.pi])
    (vec [lit 0]) (vec [lit 0]) name

/-- `predefined.py:1130-1157` `_carr_purcell_meiboom_gill_offsets` -/
def cpmgArray (duration : NdArray α) (offsetCount : Nat) : Except PyErr (NdArray α) :=
  let spacing : α := lit 1 / nat offsetCount
  let start := spacing * lit (1 / 2)
  bin (· * ·) (vec ((List.range offsetCount).map fun i => spacing * nat i + start)) duration

/-- `predefined.py:1160-1184` `_uhrig_single_axis_offsets` -/
def uhrigArray (duration : NdArray α) (offsetCount : Nat) : Except PyErr (NdArray α) :=
  let constant : α := lit 1 / nat (2 * offsetCount + 2)
  bin (· * ·) duration (vec ((List.range' 1 offsetCount).map fun k =>
    let s := sin (PyFloat.pi * nat k * constant)
    s * s))

/-- `predefined.py:262-344` `new_carr_purcell_sequence` -/
def newCarrPurcellArray (duration : NdArray α) (offsetCount : α) (name : Option String) :
    Except PyErr (ArraySequence α) := do
  checkArrayDuration duration
  checkArguments (ge offsetCount (lit 1)) "Number of offsets must be greater than zero."
  let n ← pyInt offsetCount
  let offsets ← cpmgArray duration n
  uniformArrays duration offsets (lit 0) name

/-- `predefined.py:347-428` `new_cpmg_sequence` -/
def newCPMGArray (duration : NdArray α) (offsetCount : α) (name : Option String) :
    Except PyErr (ArraySequence α) := do
  checkArrayDuration duration
  checkArguments (ge offsetCount (lit 1)) "Number of offsets must be greater than zero."
  let n ← pyInt offsetCount
  let offsets ← cpmgArray duration n
  uniformArrays duration offsets (PyFloat.pi / lit 2) name

/-- `predefined.py:431-507` `new_uhrig_sequence` -/
def newUhrigArray (duration : NdArray α) (offsetCount : α) (name : Option String) :
    Except PyErr (ArraySequence α) := do
  checkArrayDuration duration
  checkArguments (ge offsetCount (lit 1)) "Number of offsets must be greater than zero."
  let n ← pyInt offsetCount
  let offsets ← uhrigArray duration n
  uniformArrays duration offsets (PyFloat.pi / lit 2) name

/-- `predefined.py:510-586` `new_periodic_sequence` -/
def newPeriodicArray (duration : NdArray α) (offsetCount : α) (name : Option String) :
    Except PyErr (ArraySequence α) := do
  checkArrayDuration duration
  checkArguments (ge offsetCount (lit 1)) "Number of offsets must be greater than zero."
  let n ← pyInt offsetCount
  -- lines 561-563
  let spacing : α := lit 1 / nat (n + 1)
  let offsets ← bin (· * ·) duration (vec ((List.range' 1 n).map fun k => nat k * spacing))
  uniformArrays duration offsets (lit 0) name

/-- `predefined.py:589-707` `new_walsh_sequence` -/
def newWalshArray (duration : NdArray α) (paleyOrder : α) (name : Option String) :
    Except PyErr (ArraySequence α) := do
  checkArrayDuration duration
  checkArguments (le (lit 1) paleyOrder && le paleyOrder (lit 2000))
    "Paley order must be between 1 and 2000."
  let k ← pyInt paleyOrder
  -- lines 664-683
  let hammingWeight ← walshHammingWeight α k
  let samples := 2 ^ hammingWeight
  let relativeOffset ← walshRelativeOffsets (α := α) samples
  let binaryOrder ← walshBinaryOrder k hammingWeight
  let array ← walshArray hammingWeight samples relativeOffset binaryOrder
  -- line 685
  let offsets ← bin (· * ·) duration (vec (walshSwitches samples 0 array))
  uniformArrays duration offsets (lit 0) name

/-- `predefined.py:847-947` `new_x_concatenated_sequence`; `np.cumsum` (line 914) flattens -/
def newXConcatenatedArray (duration : NdArray α) (concatenationOrder : α) (name : Option String) :
    Except PyErr (ArraySequence α) := do
  checkArrayDuration duration
  checkArguments (ge concatenationOrder (lit 1)) "Concatenation oder must be greater than zero."
  let l ← pyInt concatenationOrder
  -- lines 910-914
  let unitSpacing := duration.un fun t => t / nat (2 ^ l)
  let posCum ← bin (· * ·) (vec ((concatenationX l).map fun c => nat c)) unitSpacing
  -- lines 916-923
  let offsets := evenlyRepeated (npCumsum posCum.data)
  flatArrays duration (uniformPulses (if l % 2 == 1 then offsets.dropLast else offsets) (lit 0)) name

/-- `predefined.py:1019-1049`: the positions of one kind of pulse; `np.cumsum` flattens -/
def xyOffsetsArray (unitSpacing : NdArray α) (op other other' : Int) (cumulations : List Int) :
    Except PyErr (List α) := do
  let operations := (cumulations.filter fun c => c != other).filter fun c => c != other'
  let positions ← bin (· * ·) (vec (operations.map fun c => if c != op then lit 1 else lit 0)) unitSpacing
  return evenlyRepeated (npCumsum positions.data)

/-- `predefined.py:1054-1108`: the pulses of the three kinds put together -/
def xyPulsesOf (rabiOffsets azimuthalOffsets detuningOffsets : List α) : Pulses α :=
  let rows := xyMerge rabiOffsets azimuthalOffsets
  let zeros := List.replicate detuningOffsets.length (lit 0 : α)
  let p : Pulses α := {
    offsets := rows.map (fun r => r.1) ++ zeros
    rabiRotations := rows.map (fun r => r.2.1) ++ zeros
    azimuthalAngles := rows.map (fun r => r.2.2) ++ zeros
    detuningRotations := List.replicate (rows.length + detuningOffsets.length) (lit 0) }
  insertZ (List.range p.offsets.length) detuningOffsets p

/-- `predefined.py:950-1127` `new_xy_concatenated_sequence` -/
def newXYConcatenatedArray (duration : NdArray α) (concatenationOrder : α) (name : Option String) :
    Except PyErr (ArraySequence α) := do
  checkArrayDuration duration
  checkArguments (ge concatenationOrder (lit 1)) "Concatenation oder must be greater than zero."
  let l ← pyInt concatenationOrder
  let unitSpacing := duration.un fun t => t / nat (2 ^ (l * 2))
  let cumulations := concatenationXY l
  let rabiOffsets ← xyOffsetsArray unitSpacing (-1) (-2) (-3) cumulations
  let azimuthalOffsets ← xyOffsetsArray unitSpacing (-2) (-1) (-3) cumulations
  let detuningOffsets ← xyOffsetsArray unitSpacing (-3) (-2) (-1) cumulations
  flatArrays duration (xyPulsesOf rabiOffsets azimuthalOffsets detuningOffsets) name

end OpenControls
