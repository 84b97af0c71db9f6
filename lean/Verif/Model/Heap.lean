import Verif.Model.Sequence

/-!
# Statement-level model with a heap of numpy arrays

`Verif/Model/DrivenControl.lean` and `Verif/Model/Sequence.lean` treat arrays as values.  In the code they
are mutable objects that can be shared: `np.asarray` of a float array returns the same array, and
`convert_dds_to_driven_control` fills arrays by item assignment in loops.  Here the two constructors
and the conversion are modelled statement by statement over a heap of arrays, with the index arithmetic
of the code.

Simplifications: all arrays have dtype float64; a 2-D array is one row-major heap cell; the arrays
allocated by temporary expressions that are not bound to a variable (`operations[1, :] > 0`, ...) are not
put on the heap.
-/

namespace OpenControls

open PyFloat Py

/-- The heap: the array objects created so far; the address of an array is its index.
Used at `driven_control.py:153-156` -/
abbrev Heap (α : Type) := List (List α)

/-- address of an array -/
scoped macro "Ref" : term => `(Nat)

/-- A Python computation: from a heap to a result or exception and a heap (which keeps the changes made
before an exception). Used at `driven_control.py:94-156` -/
def PyM (α β : Type) := Heap α → Except PyErr β × Heap α

namespace PyM

variable {α β γ : Type}

/-- a computation without effect; used at `driven_control.py:94-156` -/
def ret (x : β) : PyM α β := fun h => (.ok x, h)

/-- sequencing; used at `driven_control.py:94-156` -/
def andThen (m : PyM α β) (f : β → PyM α γ) : PyM α γ := fun h =>
  match m h with
  | (.ok x, h') => f x h'
  | (.error e, h') => (.error e, h')

/-- statements one after the other; used at `driven_control.py:94-156` -/
instance : Monad (PyM α) where
  pure := ret
  bind := andThen

/-- `raise e`; used at `utils.py:115` -/
def raise (e : PyErr) : PyM α β := fun h => (.error e, h)

/-- a new array object with the given items; used at `driven_control.py:135-144` -/
def alloc (xs : List α) : PyM α Ref := fun h => (.ok h.length, h ++ [xs])

/-- the items of an array; used at `driven_control.py:108-151` -/
def load (r : Ref) : PyM α (List α) := fun h => (.ok (h[r]?.getD []), h)

/-- `a[i]`; used at `dynamic_decoupling_sequence.py:381-386, 414-439` -/
def getItem (r : Ref) (i : Nat) : PyM α α := fun h =>
  match (h[r]?.getD [])[i]? with
  | some x => (.ok x, h)
  | none => (.error .indexError, h)

/-- `a[i] = v`; used at `dynamic_decoupling_sequence.py:428-429, 485-504` -/
def setItem (r : Ref) (i : Nat) (v : α) : PyM α Unit := fun h =>
  if i < (h[r]?.getD []).length then (.ok (), h.set r ((h[r]?.getD []).set i v))
  else (.error .indexError, h)

/-- `utils.py:84-115` `check_arguments` -/
def check (condition : Bool) (description : String) : PyM α Unit := fun h =>
  (checkArguments condition description, h)

end PyM

open PyM

variable {α : Type} [Add α] [Sub α] [Mul α] [Div α] [Neg α] [PyFloat α]

/-- An array argument: an existing numpy array (of dtype float64), or a list or tuple.
Used at `driven_control.py:94-101` -/
inductive Arg (α : Type) where
  | array (r : Ref)
  | list (xs : List α)

/-- `np.asarray(a, dtype=float)`: the same object for a float array, a new array for a list;
used at `driven_control.py:105, 142-144` -/
def asarray : Arg α → PyM α Ref
  | .array r => pure r
  | .list xs => alloc xs

/-- `np.array(a).size` / `len(a)`; used at `driven_control.py:115-119` -/
def argSize : Arg α → PyM α Nat
  | .array r => do let xs ← load r; pure xs.length
  | .list xs => pure xs.length

/-- A `DrivenControl` instance: addresses of its arrays (`driven_control.py:153-156`). -/
structure ControlObj where
  rabiRates : Ref
  azimuthalAngles : Ref
  detunings : Ref
  durations : Ref
  name : Option String

/-- A `DynamicDecouplingSequence` instance (`dynamic_decoupling_sequence.py:118-123`). -/
structure SequenceObj (α : Type) where
  duration : α
  offsets : Ref
  rabiRotations : Ref
  azimuthalAngles : Ref
  detuningRotations : Ref
  name : Option String

/-- `np.array(v).size for v in [...] if v is not None` for one `v`; used at `driven_control.py:115-119` -/
def optSize : Option (Arg α) → PyM α (Option Nat)
  | none => pure none
  | some a => do let n ← argSize a; pure (some n)

/-- `driven_control.py:133-144`: `np.zeros(duration_count)` for a `None`, `np.asarray` otherwise -/
def defaultArray (n : Nat) : Option (Arg α) → PyM α Ref
  | none => alloc (List.replicate n (lit 0))
  | some a => asarray a

/-- `driven_control.py:94-156` `DrivenControl.__init__` -/
def newControlH (durations : Arg α) (rabiRates azimuthalAngles detunings : Option (Arg α))
    (name : Option String) : PyM α ControlObj := do
  -- line 105
  let durations ← asarray durations
  let d ← load durations
  -- lines 107-112
  check (d.all fun d => gt d (lit 0))
    "Duration of driven control segments must all be greater than zero."
  -- lines 114-119
  let n1 ← optSize rabiRates
  let n2 ← optSize azimuthalAngles
  let n3 ← optSize detunings
  let inputLengths := pySet ([n1, n2, n3, some d.length].filterMap id)
  -- lines 121-131
  check (inputLengths.length == 1)
    "If set, rabi rates, azimuthal angles, detunings and durations must be of same length"
  -- lines 133-144
  let rabiRates ← defaultArray d.length rabiRates
  let azimuthalAngles ← defaultArray d.length azimuthalAngles
  let detunings ← defaultArray d.length detunings
  -- lines 146-151
  let r ← load rabiRates
  check (r.all fun r => ge r (lit 0)) "All rabi rates must be greater than zero."
  -- lines 153-156
  pure { rabiRates, azimuthalAngles, detunings, durations, name }

/-- `dynamic_decoupling_sequence.py:74-123` `DynamicDecouplingSequence.__init__` -/
def newSequenceH (duration : α) (offsets rabiRotations azimuthalAngles detuningRotations : Arg α)
    (name : Option String) : PyM α (SequenceObj α) := do
  -- lines 84-88
  check (gt duration (lit 0)) "Sequence duration must be above zero."
  -- line 90
  let offsets ← asarray offsets
  let o ← load offsets
  -- lines 91-96
  check (o.all fun t => ge t (lit 0) && ge duration t)
    "Offsets for dynamic decoupling sequence must be between 0 and the sequence duration (inclusive). "
  -- lines 98-116
  let n1 ← argSize rabiRotations
  check (n1 == o.length) "rabi rotations must have the same length as offsets. "
  let n2 ← argSize azimuthalAngles
  check (n2 == o.length) "azimuthal angles must have the same length as offsets. "
  let n3 ← argSize detuningRotations
  check (n3 == o.length) "detuning rotations must have the same length as offsets. "
  -- lines 118-123
  let rabiRotations ← asarray rabiRotations
  let azimuthalAngles ← asarray azimuthalAngles
  let detuningRotations ← asarray detuningRotations
  pure { duration, offsets, rabiRotations, azimuthalAngles, detuningRotations, name }

/-- the four local variables `offsets, rabi_rotations, azimuthal_angles, detuning_rotations` of
`convert_dds_to_driven_control`; used at `dynamic_decoupling_sequence.py:349-352` -/
structure OpArrays where
  offsets : Ref
  rabi : Ref
  azimuthal : Ref
  detuning : Ref

/-- `np.append([x], a)`; used at `dynamic_decoupling_sequence.py:382-385` -/
def appendFront (x : α) (r : Ref) : PyM α Ref := do
  let xs ← load r
  alloc (x :: xs)

/-- `np.append(a, [x])`; used at `dynamic_decoupling_sequence.py:387-390` -/
def appendBack (r : Ref) (x : α) : PyM α Ref := do
  let xs ← load r
  alloc (xs ++ [x])

/-- `dynamic_decoupling_sequence.py:375-379` -/
def padEmptyH (sequenceDuration : α) (a : OpArrays) : PyM α OpArrays := do
  let o ← load a.offsets
  if o.length == 0 then do
    let offsets ← alloc [lit 0, sequenceDuration]
    let rabi ← alloc [lit 0, lit 0]
    let azimuthal ← alloc [lit 0, lit 0]
    let detuning ← alloc [lit 0, lit 0]
    pure { offsets, rabi, azimuthal, detuning }
  else pure a

/-- `dynamic_decoupling_sequence.py:381-385` -/
def padFrontH (a : OpArrays) : PyM α OpArrays := do
  let first ← getItem a.offsets 0
  if ne first (lit 0) then do
    let offsets ← appendFront (lit 0) a.offsets
    let rabi ← appendFront (lit 0) a.rabi
    let azimuthal ← appendFront (lit 0) a.azimuthal
    let detuning ← appendFront (lit 0) a.detuning
    pure { offsets, rabi, azimuthal, detuning }
  else pure a

/-- `dynamic_decoupling_sequence.py:386-390` -/
def padBackH (sequenceDuration : α) (a : OpArrays) : PyM α OpArrays := do
  let o ← load a.offsets
  let last ← getItem a.offsets (o.length - 1)
  if ne last sequenceDuration then do
    let offsets ← appendBack a.offsets sequenceDuration
    let rabi ← appendBack a.rabi (lit 0)
    let azimuthal ← appendBack a.azimuthal (lit 0)
    let detuning ← appendBack a.detuning (lit 0)
    pure { offsets, rabi, azimuthal, detuning }
  else pure a

/-- `dynamic_decoupling_sequence.py:402-409`: `operations`, a 4 × n array; `np.concatenate` raises
`ValueError` if the rows differ in length. -/
def concatenateH (a : OpArrays) : PyM α Ref := do
  let o ← load a.offsets
  let r ← load a.rabi
  let p ← load a.azimuthal
  let d ← load a.detuning
  if r.length == o.length && p.length == o.length && d.length == o.length then
    alloc (o ++ r ++ p ++ d)
  else raise (.valueError
    "all the input array dimensions for the concatenation axis must match exactly")

/-- `for op_idx in range(i, i + k): body(op_idx)`; used at `dynamic_decoupling_sequence.py:414, 483` -/
def forFrom (body : Nat → PyM α Unit) : Nat → Nat → PyM α Unit
  | _, 0 => pure ()
  | i, k + 1 => do body i; forFrom body (i + 1) k

/-- `dynamic_decoupling_sequence.py:415-426`: `half_pulse_duration` for column `i` of the `4 × n`
array `operations` -/
def halfPulseH (maximumRabiRate maximumDetuningRate minimumSegmentDuration : α) (operations : Ref)
    (n i : Nat) : PyM α α := do
  let rabi ← getItem operations (1 * n + i)
  if !isClose rabi (lit 0) then
    pure (lit (1 / 2) * pyMax (rabi / maximumRabiRate) minimumSegmentDuration)
  else do
    let detuning ← getItem operations (3 * n + i)
    if !isClose detuning (lit 0) then
      pure (lit (1 / 2) *
        pyMax (PyFloat.abs detuning / maximumDetuningRate) minimumSegmentDuration)
    else pure (lit 0)

/-- `dynamic_decoupling_sequence.py:414-429`: the body of the first loop; `pulse_mid_points` is the
view `operations[0, :]`, `pulse_start_ends` is an `n × 2` array -/
def startEndBody (maximumRabiRate maximumDetuningRate minimumSegmentDuration : α)
    (operations startEnds : Ref) (n i : Nat) : PyM α Unit := do
  let half ← halfPulseH maximumRabiRate maximumDetuningRate minimumSegmentDuration operations n i
  let mid ← getItem operations (0 * n + i)
  setItem startEnds (2 * i) (mid - half)
  setItem startEnds (2 * i + 1) (mid + half)

/-- `dynamic_decoupling_sequence.py:433-435` -/
def shiftFirstH (startEnds : Ref) : PyM α Unit := do
  let s ← getItem startEnds 0
  if lt s (lit 0) then do
    let translation := lit 0 - s
    let e ← getItem startEnds 1
    setItem startEnds 0 (s + translation)
    setItem startEnds 1 (e + translation)
  else pure ()

/-- `dynamic_decoupling_sequence.py:437-439` -/
def shiftLastH (startEnds : Ref) (n : Nat) (sequenceDuration : α) : PyM α Unit := do
  let e ← getItem startEnds (2 * (n - 1) + 1)
  if gt e sequenceDuration then do
    let translation := e - sequenceDuration
    let s ← getItem startEnds (2 * (n - 1))
    setItem startEnds (2 * (n - 1)) (s - translation)
    setItem startEnds (2 * (n - 1) + 1) (e - translation)
  else pure ()

/-- column `j` of a row-major `n × 2` array; used at `dynamic_decoupling_sequence.py:413-443` -/
def column2 (j n : Nat) (flat : List α) : List α :=
  (List.range n).filterMap fun i => flat[2 * i + j]?

/-- `dynamic_decoupling_sequence.py:443`: `pulse_start_ends[1:, 0] - pulse_start_ends[:-1, 1]` -/
def gapsOf (n : Nat) (flat : List α) : List α :=
  List.zipWith (· - ·) ((column2 0 n flat).drop 1) ((column2 1 n flat).dropLast)

/-- the four arrays `control_rabi_rates, control_azimuthal_angles, control_detunings,
control_durations`; used at `dynamic_decoupling_sequence.py:477-480` -/
structure ControlArrays where
  rabi : Ref
  azimuthal : Ref
  detuning : Ref
  duration : Ref

/-- `dynamic_decoupling_sequence.py:484-496`: the pulse part of the body of the second loop for
`op_idx = i` and `pulse_segment_idx = j` -/
def segmentPulseH (operations startEnds : Ref) (c : ControlArrays) (n i j : Nat) :
    PyM α Unit := do
  let e ← getItem startEnds (2 * i + 1)
  let s ← getItem startEnds (2 * i)
  let pulseWidth := e - s
  setItem c.duration j pulseWidth
  if gt pulseWidth (lit 0) then do
    let rabi ← getItem operations (1 * n + i)
    if !isClose rabi (lit 0) then do
      setItem c.rabi j (rabi / pulseWidth)
      let azimuthal ← getItem operations (2 * n + i)
      setItem c.azimuthal j azimuthal
    else do
      let detuning ← getItem operations (3 * n + i)
      if !isClose detuning (lit 0) then
        setItem c.detuning j (detuning / pulseWidth)
      else pure ()
  else pure ()

/-- `dynamic_decoupling_sequence.py:498-504`: the gap part of the body of the second loop -/
def segmentGapH (startEnds : Ref) (c : ControlArrays) (n i j : Nat) : PyM α Unit := do
  if i != n - 1 then do
    setItem c.rabi (j + 1) (lit 0)
    setItem c.azimuthal (j + 1) (lit 0)
    setItem c.detuning (j + 1) (lit 0)
    let s' ← getItem startEnds (2 * (i + 1))
    let e' ← getItem startEnds (2 * i + 1)
    setItem c.duration (j + 1) (s' - e')
  else pure ()

/-- `dynamic_decoupling_sequence.py:482-508`: the second loop, from `op_idx = i` and
`pulse_segment_idx = j` for `k` iterations -/
def segmentLoop (operations startEnds : Ref) (c : ControlArrays) (n : Nat) :
    Nat → Nat → Nat → PyM α Unit
  | _, _, 0 => pure ()
  | i, j, k + 1 => do
    segmentPulseH operations startEnds c n i j
    segmentGapH startEnds c n i j
    segmentLoop operations startEnds c n (i + 1) (j + 2) k

/-- `a[mask > 0.0]`; used at `dynamic_decoupling_sequence.py:509-512` -/
def selectPositive (xs mask : List α) : List α :=
  ((xs.zip mask).filter fun p => gt p.2 (lit 0)).map Prod.fst

/-- `dynamic_decoupling_sequence.py:509-512`, one line -/
def maskH (a durations : Ref) : PyM α Ref := do
  let xs ← load a
  let m ← load durations
  alloc (selectPositive xs m)

/-- `dynamic_decoupling_sequence.py:477-520`: allocate and fill the arrays, drop the empty segments and
construct the control -/
def fillControlH (operations startEnds : Ref) (n : Nat) (name : Option String) :
    PyM α ControlObj := do
  let rabi ← alloc (List.replicate (n * 2) (lit 0))
  let azimuthal ← alloc (List.replicate (n * 2) (lit 0))
  let detuning ← alloc (List.replicate (n * 2) (lit 0))
  let duration ← alloc (List.replicate (n * 2) (lit 0))
  segmentLoop operations startEnds { rabi, azimuthal, detuning, duration } n 0 0 n
  let rabi ← maskH rabi duration
  let azimuthal ← maskH azimuthal duration
  let detuning ← maskH detuning duration
  let duration ← maskH duration duration
  newControlH (durations := .array duration) (rabiRates := some (.array rabi))
    (azimuthalAngles := some (.array azimuthal)) (detunings := some (.array detuning))
    (name := name)

/-- `dynamic_decoupling_sequence.py:402-520`: everything after the offsets have been checked -/
def convertOperationsH (sequenceDuration : α) (a : OpArrays) (n : Nat)
    (maximumRabiRate maximumDetuningRate minimumSegmentDuration : α) (name : Option String) :
    PyM α ControlObj := do
  -- lines 402-409
  let operations ← concatenateH a
  -- lines 413-429
  let startEnds ← alloc (List.replicate (n * 2) (lit 0))
  forFrom (startEndBody maximumRabiRate maximumDetuningRate minimumSegmentDuration operations
    startEnds n) 0 n
  -- lines 433-439
  shiftFirstH startEnds
  shiftLastH startEnds n sequenceDuration
  -- lines 443-465
  let se ← load startEnds
  let gapDurations ← alloc (gapsOf n se)
  let gaps ← load gapDurations
  if !gaps.all (fun g => gt g minimumSegmentDuration || isClose g minimumSegmentDuration) then
    raise (.arguments "Distance between pulses does not respect minimum_segment_duration.")
  -- lines 467-475
  else if se.all (fun t => isClose t (lit 0)) then
    newControlH (durations := .list [sequenceDuration]) (rabiRates := some (.list [lit 0]))
      (azimuthalAngles := some (.list [lit 0])) (detunings := some (.list [lit 0])) (name := name)
  -- lines 477-520
  else fillControlH operations startEnds n name

/-- `dynamic_decoupling_sequence.py:267-520` `convert_dds_to_driven_control` -/
def convertH (s : SequenceObj α)
    (maximumRabiRate maximumDetuningRate minimumSegmentDuration : α) (name : Option String) :
    PyM α ControlObj := do
  -- lines 331-346
  check (gt maximumDetuningRate (lit 0)) "Maximum detuning rate must be positive."
  check (gt maximumRabiRate (lit 0)) "Maximum rabi rate must be positive."
  check (ge minimumSegmentDuration (lit 0))
    "Minimum segment duration must be greater than or equal to 0."
  -- lines 348-359
  let rabi ← load s.rabiRotations
  check (rabi.all fun r => ge r (lit 0)) "Sequence contains negative values for Rabi rotations."
  -- lines 361-373
  let detuning ← load s.detuningRotations
  check (checkValidOperation rabi detuning)
    "Sequence operation includes rabi rotation and detuning rotation at the same instance."
  -- lines 375-390
  let a ← padEmptyH s.duration
    { offsets := s.offsets, rabi := s.rabiRotations, azimuthal := s.azimuthalAngles,
      detuning := s.detuningRotations }
  let a ← padFrontH a
  let a ← padBackH s.duration a
  -- lines 392-400
  let o ← load a.offsets
  if (npDiff o).any (fun d => le d (lit 0)) then
    raise (.arguments "Pulse timing could not be properly deduced from the sequence offsets.")
  else
    convertOperationsH s.duration a o.length maximumRabiRate maximumDetuningRate
      minimumSegmentDuration name

end OpenControls
