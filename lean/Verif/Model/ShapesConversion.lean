import Verif.Model.Shapes

/-!
# `convert_dds_to_driven_control` on sequences with arrays of any shape

The constructor of `DynamicDecouplingSequence` accepts arrays with any number of axes, if their first axes
have the same length (`Model/Shapes.lean`).  Here the conversion of such a sequence is modelled.
-/

namespace OpenControls

open PyFloat Py NdArray

variable {α : Type} [Add α] [Sub α] [Mul α] [Div α] [Neg α] [PyFloat α]

namespace NdArray

/-- `np.where(a > 0.0)[0]`: the places along the first axis of the positive items;
used at `dynamic_decoupling_sequence.py:531-532` -/
def positiveRows (a : NdArray α) : List Nat :=
  ((List.range a.data.length).filter fun j => (a.data[j]?).any fun x => gt x (lit 0)).map
    (· / a.shape.tail.prod)

/-- the truth value of `a[i] != v`, where `item` is the first number of `a[i]`: `a[i]` has to be a number
or an array with one number; the truth value of an array with none is false;
used at `dynamic_decoupling_sequence.py:381, 386` -/
def itemDiffers (a : NdArray α) (item : Option α) (v : α) : Except PyErr Bool :=
  match a.shape, item with
  | [], _ => .error .indexError
  | _ :: _, none => .error .indexError
  | _ :: rest, some x =>
    if rest.prod = 1 then .ok (ne x v)
    else if rest.prod = 0 then .ok false
    else .error (.valueError "The truth value of an array with more than one element is ambiguous.")

/-- `np.append([v], a)`: flattens; used at `dynamic_decoupling_sequence.py:382-385` -/
def appendFront (v : α) (a : NdArray α) : NdArray α := vec (v :: a.data)

/-- `np.append(a, [v])`: flattens; used at `dynamic_decoupling_sequence.py:387-390` -/
def appendBack (a : NdArray α) (v : α) : NdArray α := vec (a.data ++ [v])

/-- `any(np.diff(a) <= 0.0)`.  `np.diff` takes differences along the last axis.  If there are further axes
the array reaches this statement only with one number at each place of the first axis (the items `a[0]` and
`a[-1]` have been compared before), so that there are no differences: every row is empty, thus false.
Used at `dynamic_decoupling_sequence.py:393` -/
def someDiffNonpositive (a : NdArray α) : Bool :=
  match a.shape with
  | [_] => (npDiff a.data).any fun d => le d (lit 0)
  | _ => false

end NdArray

/-- `dynamic_decoupling_sequence.py:523-534` `_check_valid_operation` -/
def checkValidOperationNd (rabiRotations detuningRotations : NdArray α) : Bool :=
  !rabiRotations.positiveRows.any fun i => detuningRotations.positiveRows.contains i

/-- `dynamic_decoupling_sequence.py:411-520`: the conversion from the array `operations` on.  With further
axes (of length 1) its items are arrays with one number, which numpy treats as that number in the tests,
in `max`, in the arithmetic and in the assignments to items. -/
def convertOperations (sequenceDuration : α) (operations : List (Operation α))
    (maximumRabiRate maximumDetuningRate minimumSegmentDuration : α) (name : Option String) :
    Except PyErr (DrivenControl α) := do
  -- lines 411-439
  let startEnds := shiftLast sequenceDuration (shiftFirst (operations.map
    (pulseStartEnd maximumRabiRate maximumDetuningRate minimumSegmentDuration)))
  -- lines 441-465
  if !(gapDurations startEnds).all (fun g =>
      gt g minimumSegmentDuration || isClose g minimumSegmentDuration) then
    throw (.arguments "Distance between pulses does not respect minimum_segment_duration.")
  -- lines 467-475
  if startEnds.all (fun p => isClose p.1 (lit 0) && isClose p.2 (lit 0)) then
    DrivenControl.new (durations := [sequenceDuration]) (rabiRates := some [lit 0])
      (azimuthalAngles := some [lit 0]) (detunings := some [lit 0]) (name := name)
  else
    -- lines 477-512
    let segments := (buildSegments (operations.zip startEnds)).filter
      fun g => gt g.duration (lit 0)
    -- lines 514-520
    DrivenControl.new (durations := segments.map Segment.duration)
      (rabiRates := some (segments.map Segment.rabi))
      (azimuthalAngles := some (segments.map Segment.azimuthal))
      (detunings := some (segments.map Segment.detuning)) (name := name)

/-- The four arrays of the conversion (`dynamic_decoupling_sequence.py:349-352`). -/
structure NdOps (α : Type) where
  offsets : NdArray α
  rabi : NdArray α
  azimuthal : NdArray α
  detuning : NdArray α
  deriving DecidableEq, Repr

/-- `dynamic_decoupling_sequence.py:375-390` -/
def padNd (sequenceDuration : α) (a : NdOps α) : Except PyErr (NdOps α) := do
  -- lines 375-379
  let zeros := vec [lit 0, lit 0]
  let a := if a.offsets.size = 0 then ⟨vec [lit 0, sequenceDuration], zeros, zeros, zeros⟩ else a
  -- lines 381-385
  let front ← itemDiffers a.offsets a.offsets.data.head? (lit 0)
  let a := if front then ⟨appendFront (lit 0) a.offsets, appendFront (lit 0) a.rabi,
    appendFront (lit 0) a.azimuthal, appendFront (lit 0) a.detuning⟩ else a
  -- lines 386-390
  let back ← itemDiffers a.offsets a.offsets.data.getLast? sequenceDuration
  return if back then ⟨appendBack a.offsets sequenceDuration, appendBack a.rabi (lit 0),
    appendBack a.azimuthal (lit 0), appendBack a.detuning (lit 0)⟩ else a

/-- `dynamic_decoupling_sequence.py:267-520` `convert_dds_to_driven_control` -/
def convertNd (s : NdSequence α)
    (maximumRabiRate maximumDetuningRate minimumSegmentDuration : α) (name : Option String) :
    Except PyErr (DrivenControl α) := do
  -- lines 331-346
  checkArguments (gt maximumDetuningRate (lit 0)) "Maximum detuning rate must be positive."
  checkArguments (gt maximumRabiRate (lit 0)) "Maximum rabi rate must be positive."
  checkArguments (ge minimumSegmentDuration (lit 0))
    "Minimum segment duration must be greater than or equal to 0."
  -- lines 354-359
  checkArguments (s.rabiRotations.data.all fun r => ge r (lit 0))
    "Sequence contains negative values for Rabi rotations."
  -- lines 361-373
  checkArguments (checkValidOperationNd s.rabiRotations s.detuningRotations)
    "Sequence operation includes rabi rotation and detuning rotation at the same instance."
  -- lines 375-390
  let a ← padNd s.duration ⟨s.offsets, s.rabiRotations, s.azimuthalAngles, s.detuningRotations⟩
  -- lines 392-400
  if a.offsets.someDiffNonpositive then
    throw (.arguments "Pulse timing could not be properly deduced from the sequence offsets.")
  -- lines 402-409: `np.concatenate` along the new first axis
  if !(a.rabi.shape == a.offsets.shape && a.azimuthal.shape == a.offsets.shape &&
      a.detuning.shape == a.offsets.shape) then
    throw (.valueError "all the input array dimensions except for the concatenation axis must match exactly")
  -- lines 411-520
  convertOperations s.duration
    (operationsOf a.offsets.data a.rabi.data a.azimuthal.data a.detuning.data)
    maximumRabiRate maximumDetuningRate minimumSegmentDuration name

end OpenControls
