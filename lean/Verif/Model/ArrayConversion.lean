import Verif.Model.ArraySequences
import Verif.Model.ShapesConversion

/-!
# `convert_dds_to_driven_control` on a sequence whose duration is an array

The constructor of a sequence accepts an array with one item as duration (`Model/ArraySequences.lean`).  Here such a sequence is
converted.

Simplifications: arrays with one number stand for that number when they are compared or stored, as in `Model/ShapesConversion.lean`;
for sequences without offsets `np.array([0, sequence_duration])` (line 376) then counts as an array with two numbers (it is an array of
objects in the versions of numpy that have `np.float`, if the duration has axes).
-/

namespace OpenControls

open PyFloat Py NdArray

variable {α : Type} [Add α] [Sub α] [Mul α] [Div α] [Neg α] [PyFloat α]

/-- `dynamic_decoupling_sequence.py:411-520`: the conversion from the array `operations` on; `item` is the item of the duration.
Line 473 makes an array of a list with the array `sequence_duration` in it. -/
def convertArrayOperations (sequenceDuration : NdArray α) (item : α) (operations : List (Operation α))
    (maximumRabiRate maximumDetuningRate minimumSegmentDuration : α) (name : Option String) :
    Except PyErr (NdControl α) := do
  -- lines 411-439
  let startEnds := shiftLast item (shiftFirst (operations.map
    (pulseStartEnd maximumRabiRate maximumDetuningRate minimumSegmentDuration)))
  -- lines 441-465
  if !(gapDurations startEnds).all (fun g =>
      gt g minimumSegmentDuration || isClose g minimumSegmentDuration) then
    throw (.arguments "Distance between pulses does not respect minimum_segment_duration.")
  -- lines 467-475
  if startEnds.all (fun p => isClose p.1 (lit 0) && isClose p.2 (lit 0)) then
    NdControl.new (durations := stack sequenceDuration.shape [sequenceDuration.data]) (rabiRates := some (vec [lit 0]))
      (azimuthalAngles := some (vec [lit 0])) (detunings := some (vec [lit 0])) (name := name)
  else
    -- lines 477-512
    let segments := (buildSegments (operations.zip startEnds)).filter
      fun g => gt g.duration (lit 0)
    -- lines 514-520
    NdControl.new (durations := vec (segments.map Segment.duration))
      (rabiRates := some (vec (segments.map Segment.rabi)))
      (azimuthalAngles := some (vec (segments.map Segment.azimuthal)))
      (detunings := some (vec (segments.map Segment.detuning))) (name := name)

/-- `dynamic_decoupling_sequence.py:267-520` `convert_dds_to_driven_control`.  The constructor has checked that the duration has
one item; other durations (the attribute can be assigned later) are not modelled further: the truth value at line 386 or 437 is
ambiguous. -/
def convertArray (s : ArraySequence α)
    (maximumRabiRate maximumDetuningRate minimumSegmentDuration : α) (name : Option String) :
    Except PyErr (NdControl α) := do
  -- lines 331-346
  checkArguments (gt maximumDetuningRate (lit 0)) "Maximum detuning rate must be positive."
  checkArguments (gt maximumRabiRate (lit 0)) "Maximum rabi rate must be positive."
  checkArguments (ge minimumSegmentDuration (lit 0))
    "Minimum segment duration must be greater than or equal to 0."
  -- lines 354-359
  checkArguments (s.rabiRotations.data.all fun r => ge r (lit 0))
    "Sequence contains negative values for Rabi rotations."
  -- lines 361-373
  checkArguments (checkValidOperationNd s.rabiRotations s.detuningRotations)
    "Sequence operation includes rabi rotation and detuning rotation at the same instance."
  match s.duration.data with
  | [item] =>
    -- lines 375-390
    let a ← padNd item ⟨s.offsets, s.rabiRotations, s.azimuthalAngles, s.detuningRotations⟩
    -- lines 392-400
    if a.offsets.someDiffNonpositive then
      throw (.arguments "Pulse timing could not be properly deduced from the sequence offsets.")
    -- lines 402-409: `np.concatenate` along the new first axis
    if !(a.rabi.shape == a.offsets.shape && a.azimuthal.shape == a.offsets.shape &&
        a.detuning.shape == a.offsets.shape) then
      throw (.valueError "all the input array dimensions except for the concatenation axis must match exactly")
    -- lines 411-520
    convertArrayOperations s.duration item
      (operationsOf a.offsets.data a.rabi.data a.azimuthal.data a.detuning.data)
      maximumRabiRate maximumDetuningRate minimumSegmentDuration name
  | _ => throw (.valueError "The truth value of an array with more than one element is ambiguous.")

end OpenControls
