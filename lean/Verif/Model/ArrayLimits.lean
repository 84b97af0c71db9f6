import Verif.Model.ArrayCalls
import Verif.Model.Sequence

/-!
# The conversion called with arrays as limits

`convert_dds_to_driven_control` and `export_to_file` where the maximum rates and the minimum segment duration are numpy arrays of floats of any
shape; a number is an array without axes.  The sequence has 1-D arrays and a number as duration.

As in `Model/ShapesConversion.lean`, storing an array with one item in a place of another array stores the item.
-/

namespace OpenControls

open PyFloat Py NdArray

variable {α : Type} [Add α] [Sub α] [Mul α] [Div α] [Neg α] [PyFloat α]

/-- a number stored in a place of an array (`dynamic_decoupling_sequence.py:428-429`): the item of an array with one item -/
def NdArray.stored (a : NdArray α) : Except PyErr α :=
  match a.data with
  | [x] => .ok x
  | _ => .error (.typeError "only size-1 arrays can be converted to Python scalars")

/-- `max(a, b)` for two arrays (`dynamic_decoupling_sequence.py:417-426`): the first one unless the truth value of `b > a` is true.  If both
have one item, so does `b > a`; otherwise it has several or none (simplification: broadcasting is not followed further). -/
def maxArrays (a b : NdArray α) : Except PyErr (NdArray α) :=
  match a.data, b.data with
  | [x], [y] => .ok (if gt y x then b else a)
  | _, _ => .error (.valueError "The truth value of an array with more than one element is ambiguous.")

/-- `dynamic_decoupling_sequence.py:413-426`: `half_pulse_duration` -/
def halfPulseArray (maximumRabiRate maximumDetuningRate minimumSegmentDuration : NdArray α) (o : Operation α) :
    Except PyErr (NdArray α) := do
  if !isClose o.rabi (lit 0) then
    let longer ← maxArrays (un (fun r => o.rabi / r) maximumRabiRate) minimumSegmentDuration
    return un (fun t => lit (1 / 2) * t) longer
  else if !isClose o.detuning (lit 0) then
    let longer ← maxArrays (un (fun d => PyFloat.abs o.detuning / d) maximumDetuningRate) minimumSegmentDuration
    return un (fun t => lit (1 / 2) * t) longer
  else return ⟨[], [lit 0]⟩

/-- `dynamic_decoupling_sequence.py:428-429` -/
def pulseStartEndArray (maximumRabiRate maximumDetuningRate minimumSegmentDuration : NdArray α) (o : Operation α) :
    Except PyErr (α × α) := do
  let h ← halfPulseArray maximumRabiRate maximumDetuningRate minimumSegmentDuration o
  let start ← (un (fun t => o.offset - t) h).stored
  let stop ← (un (fun t => o.offset + t) h).stored
  return (start, stop)

/-- `dynamic_decoupling_sequence.py:267-520` `convert_dds_to_driven_control` -/
def convertArrays (s : Sequence α) (maximumRabiRate maximumDetuningRate minimumSegmentDuration : NdArray α)
    (name : Option String) : Except PyErr (DrivenControl α) := do
  -- lines 331-346
  let positive ← maximumDetuningRate.truth fun d => gt d (lit 0)
  checkArguments positive "Maximum detuning rate must be positive."
  let positive ← maximumRabiRate.truth fun r => gt r (lit 0)
  checkArguments positive "Maximum rabi rate must be positive."
  let nonnegative ← minimumSegmentDuration.truth fun m => ge m (lit 0)
  checkArguments nonnegative "Minimum segment duration must be greater than or equal to 0."
  -- lines 354-359
  checkArguments (s.rabiRotations.all fun r => ge r (lit 0))
    "Sequence contains negative values for Rabi rotations."
  -- lines 361-373
  checkArguments (checkValidOperation s.rabiRotations s.detuningRotations)
    "Sequence operation includes rabi rotation and detuning rotation at the same instance."
  -- lines 375-390 and 402-409
  let operations := padOperations s.duration
    (operationsOf s.offsets s.rabiRotations s.azimuthalAngles s.detuningRotations)
  -- lines 392-400
  checkArguments (!(npDiff (operations.map Operation.offset)).any fun d => le d (lit 0))
    "Pulse timing could not be properly deduced from the sequence offsets."
  -- lines 411-439
  let pulses ← operations.mapM (pulseStartEndArray maximumRabiRate maximumDetuningRate minimumSegmentDuration)
  let startEnds := shiftLast s.duration (shiftFirst pulses)
  -- lines 441-465: every gap is compared with every item of the minimum segment duration
  checkArguments ((gapDurations startEnds).all fun g =>
      minimumSegmentDuration.data.all fun m => gt g m || isClose g m)
    "Distance between pulses does not respect minimum_segment_duration."
  -- lines 467-475
  if startEnds.all (fun p => isClose p.1 (lit 0) && isClose p.2 (lit 0)) then
    DrivenControl.new (durations := [s.duration]) (rabiRates := some [lit 0])
      (azimuthalAngles := some [lit 0]) (detunings := some [lit 0]) (name := name)
  else
    -- lines 477-512
    let segments := (buildSegments (operations.zip startEnds)).filter fun g => gt g.duration (lit 0)
    -- lines 514-520
    DrivenControl.new (durations := segments.map Segment.duration)
      (rabiRates := some (segments.map Segment.rabi))
      (azimuthalAngles := some (segments.map Segment.azimuthal))
      (detunings := some (segments.map Segment.detuning)) (name := name)

/-- `dynamic_decoupling_sequence.py:211-264` `DynamicDecouplingSequence.export_to_file`; the minimum segment duration is the default `0.` -/
def Sequence.exportToFileArrays (s : Sequence α) (fs : FileSystem α) (filename fileFormat fileType coordinates : String)
    (maximumRabiRate maximumDetuningRate : NdArray α) : Except PyErr Unit × FileSystem α :=
  match convertArrays s maximumRabiRate maximumDetuningRate ⟨[], [lit 0]⟩ s.name with
  | .error e => (.error e, fs)
  | .ok c => c.exportToFile fs filename fileFormat fileType coordinates

end OpenControls
