import Verif.Model.DrivenControl

/-!
# Model of `qctrlopencontrols/dynamic_decoupling_sequences/dynamic_decoupling_sequence.py`
-/

namespace OpenControls

open PyFloat Py

variable {α : Type} [Add α] [Sub α] [Mul α] [Div α] [Neg α] [PyFloat α]

/-- `dynamic_decoupling_sequence.py:37`: the attributes of a `DynamicDecouplingSequence`
(lines 118-123). -/
structure Sequence (α : Type) where
  duration : α
  offsets : List α
  rabiRotations : List α
  azimuthalAngles : List α
  detuningRotations : List α
  name : Option String
  deriving DecidableEq, Repr

/-- One `{"rotation": .., "offset": ..}` entry of `DynamicDecouplingSequence.export`.
Used at `dynamic_decoupling_sequence.py:139, 145` -/
structure PulsePoint (α V : Type) where
  rotation : V
  offset : α
  deriving DecidableEq, Repr

/-- The dictionary returned by `DynamicDecouplingSequence.export`.
Used at `dynamic_decoupling_sequence.py:137-148` -/
structure SequencePlot (α : Type) where
  rabi : List (PulsePoint α (Cplx α))
  detuning : List (PulsePoint α α)
  deriving DecidableEq, Repr

namespace Sequence

/-- `dynamic_decoupling_sequence.py:74-123` `DynamicDecouplingSequence.__init__` -/
def new (duration : α) (offsets rabiRotations azimuthalAngles detuningRotations : List α)
    (name : Option String) : Except PyErr (Sequence α) := do
  -- lines 84-88
  checkArguments (gt duration (lit 0)) "Sequence duration must be above zero."
  -- lines 90-96
  checkArguments (offsets.all fun t => ge t (lit 0) && ge duration t)
    "Offsets for dynamic decoupling sequence must be between 0 and the sequence duration (inclusive). "
  -- lines 98-116
  checkArguments (rabiRotations.length == offsets.length)
    "rabi rotations must have the same length as offsets. "
  checkArguments (azimuthalAngles.length == offsets.length)
    "azimuthal angles must have the same length as offsets. "
  checkArguments (detuningRotations.length == offsets.length)
    "detuning rotations must have the same length as offsets. "
  -- lines 118-123
  return { duration, offsets, rabiRotations, azimuthalAngles, detuningRotations, name }

/-- `dynamic_decoupling_sequence.py:125-148` `export` -/
def exportPlot (s : Sequence α) : SequencePlot α where
  rabi := List.zipWith (fun v t => ⟨v, t⟩)
    (List.zipWith (fun r theta => cis r theta) s.rabiRotations s.azimuthalAngles) s.offsets
  detuning := List.zipWith (fun v t => ⟨v, t⟩) s.detuningRotations s.offsets

/-- `dynamic_decoupling_sequence.py:150-172` `__repr__` -/
def toRepr (reprNum : α → String) (reprArr : List α → String) (reprName : Option String → String)
    (s : Sequence α) : Except PyErr String :=
  createRepr
    (some ("DynamicDecouplingSequence", fun attr =>
      if attr == "duration" then reprNum s.duration
      else if attr == "offsets" then reprArr s.offsets
      else if attr == "rabi_rotations" then reprArr s.rabiRotations
      else if attr == "azimuthal_angles" then reprArr s.azimuthalAngles
      else if attr == "detuning_rotations" then reprArr s.detuningRotations
      else reprName s.name))
    (some [.str "duration", .str "offsets", .str "rabi_rotations", .str "azimuthal_angles",
      .str "detuning_rotations", .str "name"])

/-- `dynamic_decoupling_sequence.py:174-209` `__str__`: the printed numbers, line by line
(offsets relative to the duration, angles in units of pi). -/
def textData (s : Sequence α) : List α × List α × List α × List α :=
  (s.offsets.map (fun t => t / s.duration), s.rabiRotations.map (fun r => r / PyFloat.pi),
   s.azimuthalAngles.map (fun a => a / PyFloat.pi),
   s.detuningRotations.map (fun d => d / PyFloat.pi))

/-- `dynamic_decoupling_sequence.py:174-209` `__str__`, with `fmt` the formatting of a float. -/
def toStr (fmt : α → String) (s : Sequence α) : String :=
  let (o, r, a, d) := s.textData
  let show' := fun (l : List α) => joinWith ", " (l.map fmt)
  let head := match s.name with
    | some n => [n ++ ":"]
    | none => []
  joinWith "\n" (head ++ [
    "Duration = " ++ fmt s.duration,
    "Offsets = [" ++ show' o ++ "] x " ++ fmt s.duration,
    "Rabi Rotations = [" ++ show' r ++ "] x pi",
    "Azimuthal Angles = [" ++ show' a ++ "] x pi",
    "Detuning Rotations = [" ++ show' d ++ "] x pi"])

end Sequence

/-- One column of the `operations` array (`dynamic_decoupling_sequence.py:407-409`). -/
structure Operation (α : Type) where
  offset : α
  rabi : α
  azimuthal : α
  detuning : α
  deriving DecidableEq, Repr

/-- `dynamic_decoupling_sequence.py:523-534` `_check_valid_operation`: no index has both a positive
Rabi and a positive detuning rotation. -/
def checkValidOperation (rabiRotations detuningRotations : List α) : Bool :=
  !(List.zipWith (fun r d => gt r (lit 0) && gt d (lit 0)) rabiRotations detuningRotations).any id

/-- The four columns of the sequence as a list of operations
(`dynamic_decoupling_sequence.py:402-409`). -/
def operationsOf : List α → List α → List α → List α → List (Operation α)
  | t :: ts, r :: rs, a :: as, d :: ds => ⟨t, r, a, d⟩ :: operationsOf ts rs as ds
  | _, _, _, _ => []

/-- An operation without rotation at a given time
(`dynamic_decoupling_sequence.py:375-390`). -/
def idleAt (t : α) : Operation α := ⟨t, lit 0, lit 0, lit 0⟩

/-- `dynamic_decoupling_sequence.py:375-390`: pad with idle operations at `0` and at the sequence
duration.  Simplification: the four parallel arrays are handled as one list of operations. -/
def padOperations (sequenceDuration : α) (ops : List (Operation α)) : List (Operation α) :=
  -- lines 375-379
  let ops := if ops.isEmpty then [idleAt (lit 0), idleAt sequenceDuration] else ops
  -- lines 381-385
  let ops := match ops with
    | o :: _ => if ne o.offset (lit 0) then idleAt (lit 0) :: ops else ops
    | [] => ops
  -- lines 386-390
  match ops.getLast? with
  | some o => if ne o.offset sequenceDuration then ops ++ [idleAt sequenceDuration] else ops
  | none => ops

/-- `dynamic_decoupling_sequence.py:415-426`: `half_pulse_duration` -/
def halfPulseDuration (maximumRabiRate maximumDetuningRate minimumSegmentDuration : α)
    (o : Operation α) : α :=
  if !isClose o.rabi (lit 0) then
    lit (1 / 2) * pyMax (o.rabi / maximumRabiRate) minimumSegmentDuration
  else if !isClose o.detuning (lit 0) then
    lit (1 / 2) * pyMax (PyFloat.abs o.detuning / maximumDetuningRate) minimumSegmentDuration
  else lit 0

/-- `dynamic_decoupling_sequence.py:428-429`: start and end of the pulse centred on its offset. -/
def pulseStartEnd (maximumRabiRate maximumDetuningRate minimumSegmentDuration : α)
    (o : Operation α) : α × α :=
  let h := halfPulseDuration maximumRabiRate maximumDetuningRate minimumSegmentDuration o
  (o.offset - h, o.offset + h)

/-- `dynamic_decoupling_sequence.py:433-435`: shift the first pulse into `[0, ..)`. -/
def shiftFirst : List (α × α) → List (α × α)
  | [] => []
  | (s, e) :: r =>
    if lt s (lit 0) then
      let translation := lit 0 - s
      (s + translation, e + translation) :: r
    else (s, e) :: r

/-- `dynamic_decoupling_sequence.py:437-439`: shift the last pulse into `(.., duration]`. -/
def shiftLast (sequenceDuration : α) : List (α × α) → List (α × α)
  | [] => []
  | [(s, e)] =>
    if gt e sequenceDuration then
      let translation := e - sequenceDuration
      [(s - translation, e - translation)]
    else [(s, e)]
  | p :: q :: r => p :: shiftLast sequenceDuration (q :: r)

/-- `dynamic_decoupling_sequence.py:443`: `pulse_start_ends[1:, 0] - pulse_start_ends[:-1, 1]` -/
def gapDurations : List (α × α) → List α
  | p :: q :: r => (q.1 - p.2) :: gapDurations (q :: r)
  | _ => []

/-- One segment of the control under construction
(`dynamic_decoupling_sequence.py:477-480`). -/
structure Segment (α : Type) where
  rabi : α
  azimuthal : α
  detuning : α
  duration : α
  deriving DecidableEq, Repr

/-- `dynamic_decoupling_sequence.py:484-496`: the segment realising one pulse. -/
def pulseSegment (o : Operation α) (p : α × α) : Segment α :=
  let pulseWidth := p.2 - p.1
  if gt pulseWidth (lit 0) then
    if !isClose o.rabi (lit 0) then ⟨o.rabi / pulseWidth, o.azimuthal, lit 0, pulseWidth⟩
    else if !isClose o.detuning (lit 0) then
      ⟨lit 0, lit 0, o.detuning / pulseWidth, pulseWidth⟩
    else ⟨lit 0, lit 0, lit 0, pulseWidth⟩
  else ⟨lit 0, lit 0, lit 0, pulseWidth⟩

/-- `dynamic_decoupling_sequence.py:482-506`: pulse and gap segments in order.  The loop writes slot
`2*i` (pulse) and `2*i+1` (gap) of zero-initialised arrays; the very last slot stays zero. -/
def buildSegments : List (Operation α × (α × α)) → List (Segment α)
  | [] => []
  | [(o, p)] => [pulseSegment o p, ⟨lit 0, lit 0, lit 0, lit 0⟩]
  | (o, p) :: (o', p') :: r =>
    pulseSegment o p :: ⟨lit 0, lit 0, lit 0, p'.1 - p.2⟩ :: buildSegments ((o', p') :: r)

/-- `dynamic_decoupling_sequence.py:267-520` `convert_dds_to_driven_control` -/
def convertDDS (s : Sequence α)
    (maximumRabiRate maximumDetuningRate minimumSegmentDuration : α) (name : Option String) :
    Except PyErr (DrivenControl α) := do
  -- lines 331-346
  checkArguments (gt maximumDetuningRate (lit 0)) "Maximum detuning rate must be positive."
  checkArguments (gt maximumRabiRate (lit 0)) "Maximum rabi rate must be positive."
  checkArguments (ge minimumSegmentDuration (lit 0))
    "Minimum segment duration must be greater than or equal to 0."
  -- lines 354-359
  checkArguments (s.rabiRotations.all fun r => ge r (lit 0))
    "Sequence contains negative values for Rabi rotations."
  -- lines 361-373
  checkArguments (checkValidOperation s.rabiRotations s.detuningRotations)
    "Sequence operation includes rabi rotation and detuning rotation at the same instance."
  -- lines 375-390 and 402-409
  let operations := padOperations s.duration
    (operationsOf s.offsets s.rabiRotations s.azimuthalAngles s.detuningRotations)
  -- lines 392-400
  if (npDiff (operations.map Operation.offset)).any (fun d => le d (lit 0)) then
    throw (.arguments "Pulse timing could not be properly deduced from the sequence offsets.")
  -- lines 411-439
  let startEnds := shiftLast s.duration (shiftFirst (operations.map
    (pulseStartEnd maximumRabiRate maximumDetuningRate minimumSegmentDuration)))
  -- lines 441-465
  if !(gapDurations startEnds).all (fun g =>
      gt g minimumSegmentDuration || isClose g minimumSegmentDuration) then
    throw (.arguments "Distance between pulses does not respect minimum_segment_duration.")
  -- lines 467-475
  if startEnds.all (fun p => isClose p.1 (lit 0) && isClose p.2 (lit 0)) then
    DrivenControl.new (durations := [s.duration]) (rabiRates := some [lit 0])
      (azimuthalAngles := some [lit 0]) (detunings := some [lit 0]) (name := name)
  else
    -- lines 477-512
    let segments := (buildSegments (operations.zip startEnds)).filter
      fun g => gt g.duration (lit 0)
    -- lines 514-520
    DrivenControl.new (durations := segments.map Segment.duration)
      (rabiRates := some (segments.map Segment.rabi))
      (azimuthalAngles := some (segments.map Segment.azimuthal))
      (detunings := some (segments.map Segment.detuning)) (name := name)

/-- `dynamic_decoupling_sequence.py:211-264` `DynamicDecouplingSequence.export_to_file` -/
def Sequence.exportToFile (s : Sequence α) (fs : FileSystem α)
    (filename fileFormat fileType coordinates : String)
    (maximumRabiRate maximumDetuningRate : α) : Except PyErr Unit × FileSystem α :=
  match convertDDS s maximumRabiRate maximumDetuningRate (lit 0) s.name with
  | .error e => (.error e, fs)
  | .ok c => c.exportToFile fs filename fileFormat fileType coordinates

end OpenControls
