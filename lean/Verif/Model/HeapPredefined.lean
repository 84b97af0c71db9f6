import Verif.Model.Heap
import Verif.Model.SequencePredefined

/-!
# Statement-level model of `qctrlopencontrols/dynamic_decoupling_sequences/predefined.py`

`Verif/Model/SequencePredefined.lean` treats the arrays built by the predefined sequences as values.  Here the
constructors are modelled statement by statement over the heap of `Verif/Model/Heap.lean`: which
arrays are created, which item and slice assignments fill them, in which order, and with which indices.

Simplifications: as in `Verif/Model/Heap.lean`; Python lists of numbers are values; a slice `a[:-1]` bound to
a variable (a view in numpy, of an array no other variable refers to any more) is a new array; the arrays
of integers `cumulations`, `rabi_operations`, ... and the floating-point arrays computed from them by whole-array
operations up to `np.unique` are values.
-/

namespace OpenControls

open PyFloat Py PyM

namespace PyM

variable {α β : Type}

/-- a computation without effect that may raise;
used at `dynamic_decoupling_sequences/predefined.py:662-671` -/
def lift (m : Except PyErr β) : PyM α β := fun h => (m, h)

/-- `l[i]` of a Python list; used at `dynamic_decoupling_sequences/predefined.py:1066-1092` -/
def listItem (l : List β) (i : Nat) : PyM α β :=
  match l[i]? with
  | some x => pure x
  | none => raise .indexError

/-- `a[i : i + len(ys)] = ys`; used at `dynamic_decoupling_sequences/predefined.py:807, 1099-1101` -/
def setSlice (r : Ref) (i : Nat) (ys : List α) : PyM α Unit := fun h =>
  if i + ys.length ≤ (h[r]?.getD []).length then
    (.ok (), h.set r ((h[r]?.getD []).take i ++ ys ++ (h[r]?.getD []).drop (i + ys.length)))
  else (.error (.valueError "could not broadcast input array"), h)

/-- `a[0:] = v`; used at `dynamic_decoupling_sequences/predefined.py:813-814` -/
def fill (r : Ref) (v : α) : PyM α Unit := do
  let xs ← load r
  setSlice r 0 (List.replicate xs.length v)

/-- `a[i + 1:] = a[i:-1]`; used at `dynamic_decoupling_sequences/predefined.py:1099-1101` -/
def shiftRight (r : Ref) (i : Nat) : PyM α Unit := do
  let xs ← load r
  setSlice r (i + 1) (xs.drop i).dropLast

end PyM

variable {α : Type} [Add α] [Sub α] [Mul α] [Div α] [Neg α] [PyFloat α]

/-- `predefined.py:27-140` `_add_pre_post_rotations` -/
def addPrePostH (duration : α) (a : OpArrays) : PyM α OpArrays := do
  let offsets ← load a.offsets
  let rabi ← load a.rabi
  let azimuthal ← load a.azimuthal
  let detuning ← load a.detuning
  -- lines 64-91
  let x := countPulses (fun v => isClose v PyFloat.pi) (fun v => isClose v (lit 0))
    (fun v => isClose v (lit 0)) rabi azimuthal detuning
  let y := countPulses (fun v => isClose v PyFloat.pi)
    (fun v => isClose v (PyFloat.pi / lit 2)) (fun v => isClose v (lit 0)) rabi azimuthal detuning
  let z := countPulses (fun v => isClose v (lit 0)) (fun v => isClose v (lit 0))
    (fun v => isClose v PyFloat.pi) rabi azimuthal detuning
  -- lines 93-102
  check (offsets.length == x + y + z)
    "Sequence contains pulses that are not X, Y, or Z pi-pulses."
  -- lines 104-123
  let rabiValue : α := PyFloat.pi / lit 2
  let preserves10 := (x + y) % 2 == 0
  let preserves11 := (y + z) % 2 == 0
  let finalAzimuthal : α :=
    if (preserves10 && preserves11) || (!preserves10 && !preserves11) then PyFloat.pi else lit 0
  -- lines 125-140: np.insert returns new arrays
  let offsets ← alloc ([lit 0] ++ offsets ++ [duration])
  let rabi ← alloc ([rabiValue] ++ rabi ++ [rabiValue])
  let azimuthal ← alloc ([lit 0] ++ azimuthal ++ [finalAzimuthal])
  let detuning ← alloc ([lit 0] ++ detuning ++ [lit 0])
  pure { offsets, rabi, azimuthal, detuning }

/-- The common tail of the predefined constructors (e.g. `predefined.py:242-259`). -/
def finishH (duration : α) (prePostRotation : Bool) (name : Option String) (a : OpArrays) :
    PyM α (SequenceObj α) := do
  let a ← if prePostRotation then addPrePostH duration a else pure a
  newSequenceH duration (.array a.offsets) (.array a.rabi) (.array a.azimuthal) (.array a.detuning)
    name

/-- `check_arguments(duration > 0, ...)` at the start of every constructor.
Used at `dynamic_decoupling_sequences/predefined.py:650-654 and likewise in the others` -/
def checkDurationH (duration : α) : PyM α Unit :=
  check (gt duration (lit 0)) "Sequence duration must be greater than zero."

/-- `predefined.py:143-198` `new_ramsey_sequence`; without pre/post rotation the constructor is given four
empty lists -/
def newRamseyH (duration : α) (prePostRotation : Bool) (name : Option String) :
    PyM α (SequenceObj α) := do
  checkDurationH duration
  if prePostRotation then do
    -- lines 186-189
    let offsets ← alloc [duration * lit 0, duration * lit 1]
    let rabi ← alloc [PyFloat.pi / lit 2, PyFloat.pi / lit 2]
    let azimuthal ← alloc [lit 0, PyFloat.pi]
    let detuning ← alloc [lit 0, lit 0]
    newSequenceH duration (.array offsets) (.array rabi) (.array azimuthal) (.array detuning) name
  else
    newSequenceH duration (.list []) (.list []) (.list []) (.list []) name

/-- `predefined.py:201-259` `new_spin_echo_sequence` -/
def newSpinEchoH (duration : α) (prePostRotation : Bool) (name : Option String) :
    PyM α (SequenceObj α) := do
  checkDurationH duration
  let offsets ← alloc [duration / lit 2]
  let rabi ← alloc [PyFloat.pi]
  let azimuthal ← alloc [lit 0]
  let detuning ← alloc [lit 0]
  finishH duration prePostRotation name { offsets, rabi, azimuthal, detuning }

/-- `predefined.py:1149-1157` `_carr_purcell_meiboom_gill_offsets`: `deltas` is changed in place by `+=` -/
def cpmgOffsetsH (duration : α) (offsetCount : Nat) : PyM α Ref := do
  let spacing := lit 1 / nat offsetCount
  let start := spacing * lit (1 / 2)
  let deltas ← alloc ((List.range offsetCount).map fun i => spacing * nat i)
  let d ← load deltas
  setSlice deltas 0 (d.map fun x => x + start)
  let d ← load deltas
  alloc (d.map fun x => x * duration)

/-- `predefined.py:1177-1184` `_uhrig_single_axis_offsets` -/
def uhrigOffsetsH (duration : α) (offsetCount : Nat) : PyM α Ref := do
  let constant := lit 1 / nat (2 * offsetCount + 2)
  let deltas ← alloc ((List.range' 1 offsetCount).map fun k =>
    let s := sin (PyFloat.pi * nat k * constant)
    s * s)
  let d ← load deltas
  alloc (d.map fun x => duration * x)

/-- `predefined.py:323-327` and similar: X pulses at the given offsets -/
def xPulsesH (offsets : Ref) : PyM α OpArrays := do
  let o ← load offsets
  let rabi ← alloc (List.replicate o.length (lit 0))
  fill rabi PyFloat.pi
  let azimuthal ← alloc (List.replicate o.length (lit 0))
  let detuning ← alloc (List.replicate o.length (lit 0))
  pure { offsets, rabi, azimuthal, detuning }

/-- `predefined.py:403-409`, `482-488`: Y pulses at the given offsets -/
def yPulsesH (offsets : Ref) : PyM α OpArrays := do
  let o ← load offsets
  let rabi ← alloc (List.replicate o.length (lit 0))
  let azimuthal ← alloc (List.replicate o.length (lit 0))
  fill rabi PyFloat.pi
  fill azimuthal (PyFloat.pi / lit 2)
  let detuning ← alloc (List.replicate o.length (lit 0))
  pure { offsets, rabi, azimuthal, detuning }

/-- `predefined.py:262-344` `new_carr_purcell_sequence` -/
def newCarrPurcellH (duration offsetCount : α) (prePostRotation : Bool) (name : Option String) :
    PyM α (SequenceObj α) := do
  checkDurationH duration
  check (ge offsetCount (lit 1)) "Number of offsets must be greater than zero."
  let n ← lift (pyInt offsetCount)
  let offsets ← cpmgOffsetsH duration n
  let a ← xPulsesH offsets
  finishH duration prePostRotation name a

/-- `predefined.py:347-428` `new_cpmg_sequence` -/
def newCPMGH (duration offsetCount : α) (prePostRotation : Bool) (name : Option String) :
    PyM α (SequenceObj α) := do
  checkDurationH duration
  check (ge offsetCount (lit 1)) "Number of offsets must be greater than zero."
  let n ← lift (pyInt offsetCount)
  let offsets ← cpmgOffsetsH duration n
  let a ← yPulsesH offsets
  finishH duration prePostRotation name a

/-- `predefined.py:431-507` `new_uhrig_sequence` -/
def newUhrigH (duration offsetCount : α) (prePostRotation : Bool) (name : Option String) :
    PyM α (SequenceObj α) := do
  checkDurationH duration
  check (ge offsetCount (lit 1)) "Number of offsets must be greater than zero."
  let n ← lift (pyInt offsetCount)
  let offsets ← uhrigOffsetsH duration n
  let a ← yPulsesH offsets
  finishH duration prePostRotation name a

/-- `predefined.py:510-586` `new_periodic_sequence` -/
def newPeriodicH (duration offsetCount : α) (prePostRotation : Bool) (name : Option String) :
    PyM α (SequenceObj α) := do
  checkDurationH duration
  check (ge offsetCount (lit 1)) "Number of offsets must be greater than zero."
  let n ← lift (pyInt offsetCount)
  -- lines 561-563
  let spacing := lit 1 / nat (n + 1)
  let deltas ← alloc ((List.range' 1 n).map fun k => nat k * spacing)
  let d ← load deltas
  let offsets ← alloc (d.map fun x => duration * x)
  let a ← xPulsesH offsets
  finishH duration prePostRotation name a

/-- `predefined.py:674-677`: one pass of the loop `walsh_array *= sign(...) ** binary_order[...]`;
numpy raises `ValueError` if the arrays differ in length (simplification as in `walshArray`) -/
def walshBody (hammingWeight : Nat) (relativeOffset walsh : Ref) (binaryOrder : List Nat) (i : Nat) :
    PyM α Unit := do
  let x ← load relativeOffset
  let b ← listItem binaryOrder (hammingWeight - 1 - i)
  let w ← load walsh
  if x.length != w.length then
    raise (.valueError "operands could not be broadcast together")
  else
    setSlice walsh 0 (List.zipWith (fun w x =>
      w * powBit (sign (sin (nat (2 ^ (i + 1)) * PyFloat.pi * x))) b) w x)

/-- `predefined.py:680-682`: `for i in range(i, i + k)`, appending to the list of switching times -/
def walshSwitchesH (samples : Nat) (walsh : Ref) : Nat → Nat → List α → PyM α (List α)
  | _, 0, acc => pure acc
  | i, k + 1, acc => do
    let a ← getItem walsh i
    let b ← getItem walsh (i + 1)
    walshSwitchesH samples walsh (i + 1) k
      (if ne a b then acc ++ [nat (i + 1) * (lit 1 / nat samples)] else acc)

/-- `predefined.py:661-688`: the arrays of the Walsh sequence -/
def walshH (duration : α) (paleyOrder : Nat) : PyM α OpArrays := do
  let hammingWeight ← lift (walshHammingWeight α paleyOrder)
  let samples := 2 ^ hammingWeight
  let relative ← lift (walshRelativeOffsets (α := α) samples)
  let relativeOffset ← alloc relative
  let binaryOrder ← lift (walshBinaryOrder paleyOrder hammingWeight)
  let walsh ← alloc (List.replicate samples (lit 1))
  forFrom (walshBody hammingWeight relativeOffset walsh binaryOrder) 0 hammingWeight
  let switches ← walshSwitchesH samples walsh 0 (samples - 1) []
  let walshRelative ← alloc switches
  let w ← load walshRelative
  let offsets ← alloc (w.map fun x => duration * x)
  let rabi ← alloc (List.replicate w.length PyFloat.pi)
  let azimuthal ← alloc (List.replicate w.length (lit 0))
  let detuning ← alloc (List.replicate w.length (lit 0))
  pure { offsets, rabi, azimuthal, detuning }

/-- `predefined.py:589-707` `new_walsh_sequence` -/
def newWalshH (duration paleyOrder : α) (prePostRotation : Bool) (name : Option String) :
    PyM α (SequenceObj α) := do
  checkDurationH duration
  check (le (lit 1) paleyOrder && le paleyOrder (lit 2000))
    "Paley order must be between 1 and 2000."
  let k ← lift (pyInt paleyOrder)
  let a ← walshH duration k
  finishH duration prePostRotation name a

/-- `predefined.py:801-807`: one pass of the loop over `enumerate(inner_durations)`; `offsets` is
a row-major array with rows of length `inner_offset_count + 1` -/
def quadraticBody (innerOffsetCount : Nat) (innerDurations outerOffsets offsets : Ref) (i : Nat) :
    PyM α Unit := do
  let innerDuration ← getItem innerDurations i
  let uhrig ← uhrigOffsetsH innerDuration innerOffsetCount
  let u ← load uhrig
  let start ← getItem outerOffsets i
  let innerOffset ← alloc (u.map fun t => t + start)
  let t ← load innerOffset
  setSlice offsets (i * (innerOffsetCount + 1)) t

/-- `np.diff`; used at `dynamic_decoupling_sequences/predefined.py:797` -/
def npDiff : List α → List α
  | a :: b :: r => (b - a) :: npDiff (b :: r)
  | _ => []

/-- `predefined.py:791-825`: the arrays of the quadratic sequence -/
def quadraticH (duration : α) (n1 n2 : Nat) : PyM α OpArrays := do
  -- lines 791-794
  let outer ← uhrigOffsetsH duration n2
  let o ← load outer
  let outerOffsets ← alloc ([lit 0] ++ o ++ [duration])
  let o ← load outerOffsets
  let innerDurations ← alloc (npDiff o)
  let d ← load innerDurations
  -- lines 798-808
  let offsets ← alloc (List.replicate (d.length * (n1 + 1)) (lit 0))
  forFrom (quadraticBody n1 innerDurations outerOffsets offsets) 0 d.length
  forFrom (fun i => do
    let t ← getItem outerOffsets (i + 1)
    setItem offsets (i * (n1 + 1) + n1) t) 0 d.length
  -- lines 810-814
  let rabi ← alloc (List.replicate (d.length * (n1 + 1)) (lit 0))
  let detuning ← alloc (List.replicate (d.length * (n1 + 1)) (lit 0))
  forFrom (fun i => setItem rabi (i * (n1 + 1) + n1) PyFloat.pi) 0 n2
  forFrom (fun i => setSlice detuning (i * (n1 + 1)) (List.replicate n1 PyFloat.pi)) 0 (n2 + 1)
  -- lines 816-818: `flatten` copies
  let o ← load offsets
  let offsets ← alloc o
  let r ← load rabi
  let rabi ← alloc r
  let t ← load detuning
  let detuning ← alloc t
  -- lines 821-825
  let o ← load offsets
  let offsets ← alloc o.dropLast
  let r ← load rabi
  let rabi ← alloc r.dropLast
  let t ← load detuning
  let detuning ← alloc t.dropLast
  let azimuthal ← alloc (List.replicate o.dropLast.length (lit 0))
  pure { offsets, rabi, azimuthal, detuning }

/-- `predefined.py:710-844` `new_quadratic_sequence` -/
def newQuadraticH (duration innerOffsetCount outerOffsetCount : α) (prePostRotation : Bool)
    (name : Option String) : PyM α (SequenceObj α) := do
  checkDurationH duration
  check (ge innerOffsetCount (lit 1))
    "Number of offsets of inner pulses must be greater than zero."
  check (ge outerOffsetCount (lit 1))
    "Number of offsets of outer pulses must be greater than zero."
  let n1 ← lift (pyInt innerOffsetCount)
  let n2 ← lift (pyInt outerOffsetCount)
  let a ← quadraticH duration n1 n2
  finishH duration prePostRotation name a

/-- `predefined.py:847-947` `new_x_concatenated_sequence` -/
def newXConcatenatedH (duration concatenationOrder : α) (prePostRotation : Bool)
    (name : Option String) : PyM α (SequenceObj α) := do
  checkDurationH duration
  check (ge concatenationOrder (lit 1)) "Concatenation oder must be greater than zero."
  let order ← lift (pyInt concatenationOrder)
  -- lines 909-920
  let unitSpacing := duration / nat (2 ^ order)
  let posCum := (concatenationX order).map fun c => nat c * unitSpacing
  let offsets ← alloc (evenlyRepeated (npCumsum posCum))
  -- lines 922-923
  let o ← load offsets
  let offsets ← if order % 2 == 1 then alloc o.dropLast else pure offsets
  let a ← xPulsesH offsets
  finishH duration prePostRotation name a

/-- `predefined.py:1066-1077`: `while rabi_idx < len(rabi_offsets) and azimuthal_idx <
len(azimuthal_offsets)`; returns the final `rabi_idx, azimuthal_idx, carr_idx` -/
def mergeLoopH (X Y : List α) (a : OpArrays) (rabiIdx azimuthalIdx carrIdx : Nat) :
    PyM α (Nat × Nat × Nat) :=
  if _h : rabiIdx < X.length ∧ azimuthalIdx < Y.length then do
    let x ← listItem X rabiIdx
    let y ← listItem Y azimuthalIdx
    if lt x y then do
      setItem a.rabi carrIdx PyFloat.pi
      setItem a.offsets carrIdx x
      mergeLoopH X Y a (rabiIdx + 1) azimuthalIdx (carrIdx + 1)
    else do
      setItem a.azimuthal carrIdx (PyFloat.pi / lit 2)
      setItem a.rabi carrIdx PyFloat.pi
      setItem a.offsets carrIdx y
      mergeLoopH X Y a rabiIdx (azimuthalIdx + 1) (carrIdx + 1)
  else pure (rabiIdx, azimuthalIdx, carrIdx)
  termination_by (X.length - rabiIdx) + (Y.length - azimuthalIdx)

/-- `predefined.py:1081-1085`: the remaining X pulses; returns the final `carr_idx` -/
def restXH (X : List α) (a : OpArrays) (rabiIdx carrIdx : Nat) : PyM α Nat :=
  if _h : rabiIdx < X.length then do
    let x ← listItem X rabiIdx
    setItem a.rabi carrIdx PyFloat.pi
    setItem a.offsets carrIdx x
    restXH X a (rabiIdx + 1) (carrIdx + 1)
  else pure carrIdx
  termination_by X.length - rabiIdx

/-- `predefined.py:1087-1092`: the remaining Y pulses -/
def restYH (Y : List α) (a : OpArrays) (azimuthalIdx carrIdx : Nat) : PyM α Nat :=
  if _h : azimuthalIdx < Y.length then do
    let y ← listItem Y azimuthalIdx
    setItem a.azimuthal carrIdx (PyFloat.pi / lit 2)
    setItem a.rabi carrIdx PyFloat.pi
    setItem a.offsets carrIdx y
    restYH Y a (azimuthalIdx + 1) (carrIdx + 1)
  else pure carrIdx
  termination_by Y.length - azimuthalIdx

/-- `predefined.py:1062-1092`: the X and Y pulses are filled in; returns the final `carr_idx` -/
def fillXYH (X Y : List α) (a : OpArrays) : PyM α Nat := do
  let idx ← mergeLoopH X Y a 0 0 0
  let carrIdx ← restXH X a idx.1 idx.2.2
  restYH Y a idx.2.1 carrIdx

/-- `predefined.py:1097-1108`: `for carr_idx, offset in enumerate(offsets)` from `carr_idx` on, with the
given number of items left; the items are read from the array while it is being changed -/
def insertZH (Z : List α) (a : OpArrays) : Nat → Nat → Nat → PyM α Unit
  | _, 0, _ => pure ()
  | carrIdx, k + 1, zIdx => do
    let offset ← getItem a.offsets carrIdx
    let z ← listItem Z zIdx
    let zIdx ← if gt offset z then do
        shiftRight a.offsets carrIdx
        shiftRight a.rabi carrIdx
        shiftRight a.azimuthal carrIdx
        setItem a.detuning carrIdx PyFloat.pi
        setItem a.rabi carrIdx (lit 0)
        setItem a.azimuthal carrIdx (lit 0)
        setItem a.offsets carrIdx z
        pure (zIdx + 1)
      else pure zIdx
    if Z.length ≤ zIdx then pure () else insertZH Z a (carrIdx + 1) k zIdx

/-- `predefined.py:1014-1108`: the arrays of the XY-concatenated sequence -/
def xyConcatenatedH (duration : α) (order : Nat) : PyM α OpArrays := do
  -- lines 1016-1049
  let unitSpacing := duration / nat (2 ^ (order * 2))
  let cumulations := concatenationXY order
  let X := xyOffsetsOf unitSpacing (-1) (-2) (-3) cumulations
  let Y := xyOffsetsOf unitSpacing (-2) (-1) (-3) cumulations
  let Z := xyOffsetsOf unitSpacing (-3) (-2) (-1) cumulations
  -- lines 1054-1060
  let n := X.length + Y.length + Z.length
  let offsets ← alloc (List.replicate n (lit 0))
  let rabi ← alloc (List.replicate n (lit 0))
  let azimuthal ← alloc (List.replicate n (lit 0))
  let detuning ← alloc (List.replicate n (lit 0))
  let a : OpArrays := { offsets, rabi, azimuthal, detuning }
  -- lines 1062-1092
  let _ ← fillXYH X Y a
  -- lines 1095-1108
  if Z.isEmpty then pure a else do
    insertZH Z a 0 n 0
    pure a

/-- `predefined.py:950-1127` `new_xy_concatenated_sequence` -/
def newXYConcatenatedH (duration concatenationOrder : α) (prePostRotation : Bool)
    (name : Option String) : PyM α (SequenceObj α) := do
  checkDurationH duration
  check (ge concatenationOrder (lit 1)) "Concatenation oder must be greater than zero."
  let order ← lift (pyInt concatenationOrder)
  let a ← xyConcatenatedH duration order
  finishH duration prePostRotation name a

end OpenControls
