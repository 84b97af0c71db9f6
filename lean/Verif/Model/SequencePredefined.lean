import Verif.Model.Sequence
import Mathlib.Data.Nat.Digits.Defs

/-!
# Model of `qctrlopencontrols/dynamic_decoupling_sequences/predefined.py`
-/

namespace OpenControls

open PyFloat Py

variable {α : Type} [Add α] [Sub α] [Mul α] [Div α] [Neg α] [PyFloat α]

/-- Number of indices at which all three conditions hold, `np.count_nonzero` of
`np.logical_and.reduce` in `predefined.py:65-91`. -/
def countPulses (p q r : α → Bool) : List α → List α → List α → Nat
  | x :: xs, y :: ys, z :: zs => (if p x && q y && r z then 1 else 0) + countPulses p q r xs ys zs
  | _, _, _ => 0

/-- The four arrays of a sequence. Used at `dynamic_decoupling_sequences/predefined.py:140, 685-688` -/
structure Pulses (α : Type) where
  offsets : List α
  rabiRotations : List α
  azimuthalAngles : List α
  detuningRotations : List α
  deriving DecidableEq, Repr

/-- `predefined.py:27-140` `_add_pre_post_rotations` -/
def addPrePostRotations (duration : α) (p : Pulses α) : Except PyErr (Pulses α) := do
  -- lines 64-91
  let x := countPulses (fun v => isClose v PyFloat.pi) (fun v => isClose v (lit 0))
    (fun v => isClose v (lit 0)) p.rabiRotations p.azimuthalAngles p.detuningRotations
  let y := countPulses (fun v => isClose v PyFloat.pi)
    (fun v => isClose v (PyFloat.pi / lit 2)) (fun v => isClose v (lit 0))
    p.rabiRotations p.azimuthalAngles p.detuningRotations
  let z := countPulses (fun v => isClose v (lit 0)) (fun v => isClose v (lit 0))
    (fun v => isClose v PyFloat.pi) p.rabiRotations p.azimuthalAngles p.detuningRotations
  -- lines 93-102
  checkArguments (p.offsets.length == x + y + z)
    "Sequence contains pulses that are not X, Y, or Z pi-pulses."
  -- lines 104-123
  let rabiValue : α := PyFloat.pi / lit 2
  let preserves10 := (x + y) % 2 == 0
  let preserves11 := (y + z) % 2 == 0
  let finalAzimuthal : α :=
    if (preserves10 && preserves11) || (!preserves10 && !preserves11) then PyFloat.pi else lit 0
  -- lines 125-140: np.insert at the first and after the last position
  return {
    offsets := [lit 0] ++ p.offsets ++ [duration]
    rabiRotations := [rabiValue] ++ p.rabiRotations ++ [rabiValue]
    azimuthalAngles := [lit 0] ++ p.azimuthalAngles ++ [finalAzimuthal]
    detuningRotations := [lit 0] ++ p.detuningRotations ++ [lit 0] }

/-- The common tail of the predefined constructors (e.g. `predefined.py:242-259`): optional pre/post
rotations, then `DynamicDecouplingSequence(...)`. -/
def finishSequence (duration : α) (prePostRotation : Bool) (name : Option String) (p : Pulses α) :
    Except PyErr (Sequence α) := do
  let p ← if prePostRotation then addPrePostRotations duration p else pure p
  Sequence.new duration p.offsets p.rabiRotations p.azimuthalAngles p.detuningRotations name

/-- `check_arguments(duration > 0, ...)` at the start of every constructor.
Used at `dynamic_decoupling_sequences/predefined.py:650-654 and likewise in the others` -/
def checkDuration (duration : α) : Except PyErr Unit :=
  checkArguments (gt duration (lit 0)) "Sequence duration must be greater than zero."

/-- `predefined.py:143-198` `new_ramsey_sequence` -/
def newRamseySequence (duration : α) (prePostRotation : Bool) (name : Option String) :
    Except PyErr (Sequence α) := do
  checkDuration duration
  if prePostRotation then
    -- lines 185-189
    Sequence.new duration [duration * lit 0, duration * lit 1]
      [PyFloat.pi / lit 2, PyFloat.pi / lit 2] [lit 0, PyFloat.pi] [lit 0, lit 0] name
  else
    Sequence.new duration [] [] [] [] name

/-- `predefined.py:201-259` `new_spin_echo_sequence` -/
def newSpinEchoSequence (duration : α) (prePostRotation : Bool) (name : Option String) :
    Except PyErr (Sequence α) := do
  checkDuration duration
  finishSequence duration prePostRotation name {
    offsets := [duration / lit 2]
    rabiRotations := [PyFloat.pi]
    azimuthalAngles := [lit 0]
    detuningRotations := [lit 0] }

/-- `predefined.py:1130-1157` `_carr_purcell_meiboom_gill_offsets` -/
def cpmgOffsets (duration : α) (offsetCount : Nat) : List α :=
  let spacing := lit 1 / nat offsetCount
  let start := spacing * lit (1 / 2)
  (List.range offsetCount).map fun i => (spacing * nat i + start) * duration

/-- `predefined.py:1160-1184` `_uhrig_single_axis_offsets` -/
def uhrigOffsets (duration : α) (offsetCount : Nat) : List α :=
  let constant := lit 1 / nat (2 * offsetCount + 2)
  (List.range' 1 offsetCount).map fun k =>
    let s := sin (PyFloat.pi * nat k * constant)
    duration * (s * s)

/-- `n` equal pulses at the given offsets (e.g. `predefined.py:321-325`, `403-409`). -/
def uniformPulses (offsets : List α) (azimuthal : α) : Pulses α where
  offsets := offsets
  rabiRotations := List.replicate offsets.length PyFloat.pi
  azimuthalAngles := List.replicate offsets.length azimuthal
  detuningRotations := List.replicate offsets.length (lit 0)

/-- `predefined.py:262-344` `new_carr_purcell_sequence` -/
def newCarrPurcellSequence (duration offsetCount : α) (prePostRotation : Bool)
    (name : Option String) : Except PyErr (Sequence α) := do
  checkDuration duration
  checkArguments (ge offsetCount (lit 1)) "Number of offsets must be greater than zero."
  let n ← pyInt offsetCount
  finishSequence duration prePostRotation name (uniformPulses (cpmgOffsets duration n) (lit 0))

/-- `predefined.py:347-428` `new_cpmg_sequence` -/
def newCPMGSequence (duration offsetCount : α) (prePostRotation : Bool)
    (name : Option String) : Except PyErr (Sequence α) := do
  checkDuration duration
  checkArguments (ge offsetCount (lit 1)) "Number of offsets must be greater than zero."
  let n ← pyInt offsetCount
  finishSequence duration prePostRotation name
    (uniformPulses (cpmgOffsets duration n) (PyFloat.pi / lit 2))

/-- `predefined.py:431-507` `new_uhrig_sequence` -/
def newUhrigSequence (duration offsetCount : α) (prePostRotation : Bool)
    (name : Option String) : Except PyErr (Sequence α) := do
  checkDuration duration
  checkArguments (ge offsetCount (lit 1)) "Number of offsets must be greater than zero."
  let n ← pyInt offsetCount
  finishSequence duration prePostRotation name
    (uniformPulses (uhrigOffsets duration n) (PyFloat.pi / lit 2))

/-- `predefined.py:561-563`: the offsets of the periodic sequence -/
def periodicOffsets (duration : α) (offsetCount : Nat) : List α :=
  let spacing := lit 1 / nat (offsetCount + 1)
  (List.range' 1 offsetCount).map fun k => duration * (nat k * spacing)

/-- `predefined.py:510-586` `new_periodic_sequence` -/
def newPeriodicSequence (duration offsetCount : α) (prePostRotation : Bool)
    (name : Option String) : Except PyErr (Sequence α) := do
  checkDuration duration
  checkArguments (ge offsetCount (lit 1)) "Number of offsets must be greater than zero."
  let n ← pyInt offsetCount
  finishSequence duration prePostRotation name (uniformPulses (periodicOffsets duration n) (lit 0))

/-- `predefined.py:664`: `int(np.floor(np.log2(paley_order))) + 1`.  The order is at least 1 here, so that
`int` of the floor is `int` of the logarithm. -/
def walshHammingWeight (α : Type) [PyFloat α] (paleyOrder : Nat) : Except PyErr Nat := do
  let n ← pyInt (log2 (nat paleyOrder : α))
  return n + 1

/-- `predefined.py:668`: the midpoints `np.arange(1.0 / (2 * samples), 1.0, 1.0 / samples)` -/
def walshRelativeOffsets (samples : Nat) : Except PyErr (List α) :=
  npArange (lit 1 / nat (2 * samples)) (lit 1) (lit 1 / nat samples)

/-- `predefined.py:670-671`: the binary digits of the order, most significant first
(`np.binary_repr`), the first `hamming_weight` of them. -/
def walshBinaryOrder (paleyOrder hammingWeight : Nat) : Except PyErr (List Nat) :=
  let digits := (Nat.digits 2 paleyOrder).reverse
  if digits.length < hammingWeight then .error .indexError else .ok (digits.take hammingWeight)

/-- `x ** b` for a float `x` and a binary digit `b`;
used at `dynamic_decoupling_sequences/predefined.py:674-677` -/
def powBit (x : α) (b : Nat) : α := if b = 0 then lit 1 else x

/-- `predefined.py:672-677`: the sampled Walsh function.  Simplification: numpy would also broadcast a
`relative_offset` of one element. -/
def walshArray (hammingWeight samples : Nat) (relativeOffset : List α) (binaryOrder : List Nat) :
    Except PyErr (List α) :=
  if relativeOffset.length != samples then
    .error (.valueError "operands could not be broadcast together")
  else .ok <|
    (List.range hammingWeight).foldl (fun arr i =>
      List.zipWith (fun w x =>
        w * powBit (sign (sin (nat (2 ^ (i + 1)) * PyFloat.pi * x)))
          (binaryOrder.getD (hammingWeight - 1 - i) 0)) arr relativeOffset)
      (List.replicate samples (lit 1))

/-- `predefined.py:679-682`: positions of the sign changes, `(i + 1) * (1.0 / samples)` -/
def walshSwitches (samples : Nat) : Nat → List α → List α
  | i, w :: w' :: r =>
    if ne w w' then (nat (i + 1) * (lit 1 / nat samples)) :: walshSwitches samples (i + 1) (w' :: r)
    else walshSwitches samples (i + 1) (w' :: r)
  | _, _ => []

/-- `predefined.py:661-685`: the offsets of the Walsh sequence -/
def walshOffsets (duration : α) (paleyOrder : Nat) : Except PyErr (List α) := do
  let hammingWeight ← walshHammingWeight α paleyOrder
  let samples := 2 ^ hammingWeight
  let relativeOffset ← walshRelativeOffsets (α := α) samples
  let binaryOrder ← walshBinaryOrder paleyOrder hammingWeight
  let array ← walshArray hammingWeight samples relativeOffset binaryOrder
  return (walshSwitches samples 0 array).map fun x => duration * x

/-- `predefined.py:589-707` `new_walsh_sequence` -/
def newWalshSequence (duration paleyOrder : α) (prePostRotation : Bool)
    (name : Option String) : Except PyErr (Sequence α) := do
  checkDuration duration
  checkArguments (le (lit 1) paleyOrder && le paleyOrder (lit 2000))
    "Paley order must be between 1 and 2000."
  let k ← pyInt paleyOrder
  let offsets ← walshOffsets duration k
  finishSequence duration prePostRotation name (uniformPulses offsets (lit 0))

/-- `predefined.py:797-808`: the rows of the two-dimensional `offsets` array: on each sub-interval
the inner Uhrig offsets followed by the end of the sub-interval. -/
def quadraticRows (innerOffsetCount : Nat) : List α → List (List α)
  | a :: b :: r =>
    ((uhrigOffsets (b - a) innerOffsetCount).map (fun t => t + a) ++ [b]) ::
      quadraticRows innerOffsetCount (b :: r)
  | _ => []

/-- `predefined.py:794-825`: the pulses of the quadratic sequence -/
def quadraticPulses (duration : α) (innerOffsetCount outerOffsetCount : Nat) : Pulses α :=
  let outerOffsets := [lit 0] ++ uhrigOffsets duration outerOffsetCount ++ [duration]
  let offsets := (quadraticRows innerOffsetCount outerOffsets).flatten
  -- lines 810-814
  let rabiRow := fun i => List.replicate innerOffsetCount (lit 0 : α) ++
    [if i < outerOffsetCount then PyFloat.pi else lit 0]
  let detuningRow := List.replicate innerOffsetCount (PyFloat.pi : α) ++ [lit 0]
  let rabi := ((List.range (outerOffsetCount + 1)).map rabiRow).flatten
  let detuning := ((List.range (outerOffsetCount + 1)).map fun _ => detuningRow).flatten
  -- lines 820-825
  { offsets := offsets.dropLast
    rabiRotations := rabi.dropLast
    azimuthalAngles := List.replicate offsets.dropLast.length (lit 0)
    detuningRotations := detuning.dropLast }

/-- `predefined.py:710-844` `new_quadratic_sequence` -/
def newQuadraticSequence (duration innerOffsetCount outerOffsetCount : α) (prePostRotation : Bool)
    (name : Option String) : Except PyErr (Sequence α) := do
  checkDuration duration
  checkArguments (ge innerOffsetCount (lit 1))
    "Number of offsets of inner pulses must be greater than zero."
  checkArguments (ge outerOffsetCount (lit 1))
    "Number of offsets of outer pulses must be greater than zero."
  let n1 ← pyInt innerOffsetCount
  let n2 ← pyInt outerOffsetCount
  finishSequence duration prePostRotation name (quadraticPulses duration n1 n2)

/-- `predefined.py:1187-1214` `_concatenation_x`.  (Order 0 does not terminate in Python and is
excluded by the callers.) -/
def concatenationX : Nat → List Nat
  | 0 => []
  | 1 => [1, 0, 1, 0]
  | n + 2 => concatenationX (n + 1) ++ [0] ++ concatenationX (n + 1) ++ [0]

/-- `[value for value, count in zip(*np.unique(l, return_counts=True)) if count % 2 == 0]`
(`predefined.py:916-920`, `1026-1027`, `1036-1039`, `1048-1049`) -/
def evenlyRepeated (l : List α) : List α :=
  ((npUnique l).filter fun vc => vc.2 % 2 == 0).map Prod.fst

/-- `predefined.py:909-923`: the offsets of the X-concatenated sequence -/
def xConcatenatedOffsets (duration : α) (order : Nat) : List α :=
  let unitSpacing := duration / nat (2 ^ order)
  let posCum := (concatenationX order).map fun c => nat c * unitSpacing
  let offsets := evenlyRepeated (npCumsum posCum)
  if order % 2 == 1 then offsets.dropLast else offsets

/-- `predefined.py:847-947` `new_x_concatenated_sequence` -/
def newXConcatenatedSequence (duration concatenationOrder : α) (prePostRotation : Bool)
    (name : Option String) : Except PyErr (Sequence α) := do
  checkDuration duration
  checkArguments (ge concatenationOrder (lit 1)) "Concatenation oder must be greater than zero."
  let l ← pyInt concatenationOrder
  finishSequence duration prePostRotation name
    (uniformPulses (xConcatenatedOffsets duration l) (lit 0))

/-- Last-element assignment `a[-1] = v`. Used at `dynamic_decoupling_sequences/predefined.py:1239, 1250` -/
def setLast (l : List Int) (v : Int) : List Int :=
  match l with
  | [] => []
  | _ => l.dropLast ++ [v]

/-- `predefined.py:1217-1257` `_concatenation_xy`: `1` is a unit of free evolution, `-1`, `-2`, `-3`
are X, Y and Z pulses. -/
def concatenationXY : Nat → List Int
  | 0 => []
  | 1 => [1, -1, 1, -2, 1, -1, 1, -2]
  | n + 2 =>
    let c := concatenationXY (n + 1)
    -- lines 1235-1239
    let cumulations := c ++ [-1]
    let cumulations := cumulations.dropLast
    let cumulations := setLast cumulations (-3)
    -- lines 1240-1244
    let cumulations := cumulations ++ c ++ [-2]
    let cumulations := cumulations.dropLast.dropLast
    -- lines 1245-1250
    let cumulations := cumulations ++ c ++ [-1]
    let cumulations := cumulations.dropLast
    let cumulations := setLast cumulations (-3)
    -- lines 1251-1257
    let cumulations := cumulations ++ c ++ [-2]
    if cumulations.getLast? = some (-2) ∧ cumulations.dropLast.getLast? = some (-2) then
      cumulations.dropLast.dropLast
    else cumulations

/-- `predefined.py:1019-1049`: the positions of one kind of pulse: drop the two other
kinds of pulses, let every entry but `op` take one unit, accumulate the time, and keep the values that occur an even number of
times. -/
def xyOffsetsOf (unitSpacing : α) (op other other' : Int) (cumulations : List Int) : List α :=
  let operations := (cumulations.filter fun c => c != other).filter fun c => c != other'
  let positions := operations.map fun c => (if c != op then lit 1 else lit 0) * unitSpacing
  evenlyRepeated (npCumsum positions)

/-- `predefined.py:1066-1092`: merge of the X and Y offsets into
`(offset, rabi_rotation, azimuthal_angle)` rows. -/
def xyMerge : List α → List α → List (α × α × α)
  | [], [] => []
  | x :: xs, [] => (x, PyFloat.pi, lit 0) :: xyMerge xs []
  | [], y :: ys => (y, PyFloat.pi, PyFloat.pi / lit 2) :: xyMerge [] ys
  | x :: xs, y :: ys =>
    if lt x y then (x, PyFloat.pi, lit 0) :: xyMerge xs (y :: ys)
    else (y, PyFloat.pi, PyFloat.pi / lit 2) :: xyMerge (x :: xs) ys
  termination_by x y => x.length + y.length

/-- `a[i+1:] = a[i:-1]; a[i] = v` on an array, `predefined.py:1099-1105` -/
def shiftInsert (l : List α) (i : Nat) (v : α) : List α :=
  l.take i ++ [v] ++ (l.drop i).dropLast

/-- `predefined.py:1096-1108`: the loop inserting the Z pulses, over the indices `carr_idx` still to
visit; `zs` are the Z offsets not inserted yet. -/
def insertZ : List Nat → List α → Pulses α → Pulses α
  | [], _, p => p
  | _, [], p => p
  | i :: is, z :: zs, p =>
    if (match p.offsets[i]? with | some t => gt t z | none => false) then
      insertZ is zs {
        offsets := shiftInsert p.offsets i z
        rabiRotations := shiftInsert p.rabiRotations i (lit 0)
        azimuthalAngles := shiftInsert p.azimuthalAngles i (lit 0)
        detuningRotations := p.detuningRotations.set i PyFloat.pi }
    else insertZ is (z :: zs) p

/-- `predefined.py:1014-1108`: the pulses of the XY-concatenated sequence.  The arrays are
allocated with room for all pulses; the Z slots at the end are zero until filled. -/
def xyConcatenatedPulses (duration : α) (order : Nat) : Pulses α :=
  let unitSpacing := duration / nat (2 ^ (order * 2))
  let cumulations := concatenationXY order
  let rabiOffsets := xyOffsetsOf unitSpacing (-1) (-2) (-3) cumulations
  let azimuthalOffsets := xyOffsetsOf unitSpacing (-2) (-1) (-3) cumulations
  let detuningOffsets := xyOffsetsOf unitSpacing (-3) (-2) (-1) cumulations
  let rows := xyMerge rabiOffsets azimuthalOffsets
  let zeros := List.replicate detuningOffsets.length (lit 0 : α)
  let p : Pulses α := {
    offsets := rows.map (fun r => r.1) ++ zeros
    rabiRotations := rows.map (fun r => r.2.1) ++ zeros
    azimuthalAngles := rows.map (fun r => r.2.2) ++ zeros
    detuningRotations := List.replicate (rows.length + detuningOffsets.length) (lit 0) }
  insertZ (List.range p.offsets.length) detuningOffsets p

/-- `predefined.py:950-1127` `new_xy_concatenated_sequence` -/
def newXYConcatenatedSequence (duration concatenationOrder : α) (prePostRotation : Bool)
    (name : Option String) : Except PyErr (Sequence α) := do
  checkDuration duration
  checkArguments (ge concatenationOrder (lit 1)) "Concatenation oder must be greater than zero."
  let l ← pyInt concatenationOrder
  finishSequence duration prePostRotation name (xyConcatenatedPulses duration l)

end OpenControls
