import Verif.Model.Values
import Verif.Model.DrivenPredefined
import Verif.Model.SequencePredefined

/-!
# The functions of the package on arbitrary scalar Python objects

`Model/Values.lean` has the constructors on arbitrary objects.  Here are the predefined controls and sequences,
the conversion and the exports, called with any objects in place of numbers, flags and keywords.

Simplifications: neither lists and arrays nor complex numbers (numpy's arithmetic applies to them item by item,
and depends on the version); integers are converted to floats before arithmetic; the arithmetic after the last line
where an object can be refused is that of the functions on numbers, which repeat the checks already passed.
-/

namespace OpenControls

open PyFloat Py NdArray

variable {α : Type} [Add α] [Sub α] [Mul α] [Div α] [Neg α] [PyFloat α]

/-- A scalar Python object given as an argument.  `other` is an object without arithmetic, order or conversion to a
number and not equal to any number or string, such as a function, a dictionary or the member of an enumeration, with
its truth value. Used at `driven_controls/predefined.py:30-53, 113-158` -/
inductive PyScalar (α : Type) where
  | none
  | bool (b : Bool)
  | int (n : Int)
  | float (x : α)
  | str (s : String)
  | other (truth : Bool)

namespace PyScalar

/-- the object as an item for the constructor; used at `driven_controls/predefined.py:152-158` -/
def toValue : PyScalar α → PyValue α
  | .none => .none
  | .bool b => .bool b
  | .int n => .int n
  | .float x => .float x
  | .str s => .str s
  | .other _ => .other Option.none

/-- Order (`v > 0`, `v >= 1`, `1 <= v`) and arithmetic (`v / 2.0`, `v + phi`, `np.isclose(v, ...)`) with floats ask for a
real number and raise `TypeError` for everything else.
Used at `driven_controls/predefined.py:30-53; dynamic_decoupling_sequences/predefined.py:650-659` -/
def real : PyScalar α → Except PyErr α
  | .bool b => .ok (lit (if b then 1 else 0))
  | .int n => .ok (lit n)
  | .float x => .ok x
  | _ => .error (.typeError "unsupported operand type(s)")

/-- `v != 0`; used at `driven_controls/predefined.py:1056` -/
def neZero : PyScalar α → Bool
  | .bool b => ne (lit (if b then 1 else 0)) (lit 0 : α)
  | .int n => ne (lit n) (lit 0 : α)
  | .float x => ne x (lit 0)
  | _ => true

/-- `if v:`; used at `dynamic_decoupling_sequences/predefined.py:690` -/
def truth : PyScalar α → Bool
  | .none => false
  | .bool b => b
  | .int n => n != 0
  | .float x => ne x (lit 0)
  | .str s => s != ""
  | .other b => b

/-- `v in [...]` for a list of strings: the string, if it is one of them;
used at `driven_control.py:484-502` -/
def keyword (l : List String) : PyScalar α → Option String
  | .str s => if l.contains s then some s else Option.none
  | _ => Option.none

end PyScalar

/-- `driven_controls/predefined.py:30-53` `_validate_rabi_parameters` -/
def validateValues (rabiRotation maximumRabiRate : PyScalar α) : Except PyErr α := do
  -- lines 43-47
  let rate ← maximumRabiRate.real
  checkArguments (gt rate (lit 0)) "Maximum rabi angular frequency should be greater than zero."
  -- lines 49-53
  checkArguments rabiRotation.neZero "The rabi rotation must be non-zero."
  return rate

/-- `driven_controls/predefined.py:113-158` `new_primitive_control` -/
def newPrimitiveValues (np : Numpy α) (rabiRotation maximumRabiRate azimuthalAngle : PyScalar α)
    (name : Option String) : Except PyErr (NdControl α) := do
  let rate ← validateValues rabiRotation maximumRabiRate
  -- lines 151-158
  let rotation ← rabiRotation.real
  NdControl.ofValues np (.list [.float (rotation / rate)]) (.list [maximumRabiRate.toValue])
    (.list [azimuthalAngle.toValue]) (.list [.int 0]) name

/-- The functions that compute with the azimuthal angle: the Rabi rotation is used first (`check`), then the
azimuthal angle; the rest is as for numbers. Used at `driven_controls/predefined.py:212-235` -/
def compositeValues (check : α → Except PyErr Unit)
    (f : α → α → α → Option String → Except PyErr (DrivenControl α))
    (rabiRotation maximumRabiRate azimuthalAngle : PyScalar α)
    (name : Option String) : Except PyErr (NdControl α) := do
  let rate ← validateValues rabiRotation maximumRabiRate
  let rotation ← rabiRotation.real
  check rotation
  let azimuth ← azimuthalAngle.real
  let c ← f rotation rate azimuth name
  return ⟨vec c.rabiRates, vec c.azimuthalAngles, vec c.detunings, vec c.durations, c.name⟩

/-- lines 74-79: the check of `_get_transformed_rabi_rotation_wimperis`;
used at `driven_controls/predefined.py:74-79` -/
def checkWimperis (rotation : α) : Except PyErr Unit := do
  let _ ← transformedRabiRotationWimperis rotation

/-- lines 386-390, 821-825 and 943-947; used at `driven_controls/predefined.py:386-390, 821-825, 943-947` -/
def checkSupported (rotation : α) : Except PyErr Unit :=
  checkArguments (isSupportedRotation rotation) "rabi_rotation angle must be either pi, pi/2 or pi/4"

/-- `driven_controls/predefined.py:161-235` `new_bb1_control` -/
def newBB1Values : PyScalar α → PyScalar α → PyScalar α → Option String → Except PyErr (NdControl α) :=
  compositeValues checkWimperis newBB1Control

/-- `driven_controls/predefined.py:238-314` `new_sk1_control` -/
def newSK1Values : PyScalar α → PyScalar α → PyScalar α → Option String → Except PyErr (NdControl α) :=
  compositeValues checkWimperis newSK1Control

/-- `driven_controls/predefined.py:317-434` `new_scrofulous_control` -/
def newScrofulousValues :
    PyScalar α → PyScalar α → PyScalar α → Option String → Except PyErr (NdControl α) :=
  compositeValues checkSupported newScrofulousControl

/-- `driven_controls/predefined.py:437-516` `new_corpse_control` -/
def newCorpseValues :
    PyScalar α → PyScalar α → PyScalar α → Option String → Except PyErr (NdControl α) :=
  compositeValues (fun _ => .ok ()) newCorpseControl

/-- `driven_controls/predefined.py:519-621` `new_corpse_in_bb1_control` -/
def newCorpseInBB1Values :
    PyScalar α → PyScalar α → PyScalar α → Option String → Except PyErr (NdControl α) :=
  compositeValues checkWimperis newCorpseInBB1Control

/-- `driven_controls/predefined.py:624-723` `new_corpse_in_sk1_control` -/
def newCorpseInSK1Values :
    PyScalar α → PyScalar α → PyScalar α → Option String → Except PyErr (NdControl α) :=
  compositeValues checkWimperis newCorpseInSK1Control

/-- `driven_controls/predefined.py:726-881` `new_corpse_in_scrofulous_control` -/
def newCorpseInScrofulousValues :
    PyScalar α → PyScalar α → PyScalar α → Option String → Except PyErr (NdControl α) :=
  compositeValues checkSupported newCorpseInScrofulousControl

/-- `driven_controls/predefined.py:884-973` `new_wamf1_control` -/
def newWamf1Values (np : Numpy α) (rabiRotation maximumRabiRate azimuthalAngle : PyScalar α)
    (name : Option String) : Except PyErr (NdControl α) := do
  let rate ← validateValues rabiRotation maximumRabiRate
  -- lines 943-947
  let rotation ← rabiRotation.real
  checkSupported rotation
  -- lines 949-973
  let thetaPlus := (wamf1Thetas rotation).1
  let thetaMinus := (wamf1Thetas rotation).2
  let segmentDuration := thetaPlus / rate
  let rabiRates := [thetaPlus, thetaMinus, thetaMinus, thetaPlus].map fun r => r / segmentDuration
  NdControl.ofValues np (.list (List.replicate 4 (.float segmentDuration)))
    (.list (rabiRates.map .float)) (.list (List.replicate 4 azimuthalAngle.toValue))
    (.list (List.replicate 4 (.int 0))) name

/-- `driven_controls/predefined.py:976-1099` `new_modulated_gaussian_control` -/
def newModulatedGaussianValues
    (maximumRabiRate minimumSegmentDuration duration modulationFrequency : PyScalar α) :
    Except PyErr (DrivenControl α) := do
  -- lines 1008-1012
  let rate ← maximumRabiRate.real
  checkArguments (gt rate (lit 0)) "Maximum Rabi rate must be greater than zero."
  -- lines 1014-1018
  let minimum ← minimumSegmentDuration.real
  checkArguments (gt minimum (lit 0)) "Minimum segment duration must be greater than zero."
  -- lines 1020-1024
  let duration ← duration.real
  checkArguments (gt duration minimum) "Total duration must be greater than minimum segment duration."
  -- lines 1026-1041
  checkArguments (ge rate (sqrt (lit 2 * PyFloat.pi) / (lit (1 / 10) * duration)))
    "Maximum Rabi rate must be large enough to permit a 2Pi rotation."
  -- line 1044
  let _ ← pyCeil (duration / minimum)
  -- lines 1056-1062: what is not a number is not 0 and cannot be multiplied
  let frequency ← modulationFrequency.real
  newModulatedGaussianControl rate minimum duration frequency

/-- `dynamic_decoupling_sequences/predefined.py:143-198` `new_ramsey_sequence` -/
def newRamseyValues (duration prePostRotation : PyScalar α) (name : Option String) :
    Except PyErr (Sequence α) := do
  let duration ← duration.real
  newRamseySequence duration prePostRotation.truth name

/-- `dynamic_decoupling_sequences/predefined.py:201-259` `new_spin_echo_sequence` -/
def newSpinEchoValues (duration prePostRotation : PyScalar α) (name : Option String) :
    Except PyErr (Sequence α) := do
  let duration ← duration.real
  newSpinEchoSequence duration prePostRotation.truth name

/-- The functions with one number besides the duration: `duration > 0` is asked first, then the order of the number.
Used at `dynamic_decoupling_sequences/predefined.py:650-659 and likewise in the others` -/
def countedValues (f : α → α → Bool → Option String → Except PyErr (Sequence α))
    (duration count prePostRotation : PyScalar α) (name : Option String) : Except PyErr (Sequence α) := do
  let duration ← duration.real
  checkDuration duration
  let count ← count.real
  f duration count prePostRotation.truth name

/-- `dynamic_decoupling_sequences/predefined.py:262-344` `new_carr_purcell_sequence` -/
def newCarrPurcellValues : PyScalar α → PyScalar α → PyScalar α → Option String → Except PyErr (Sequence α) :=
  countedValues newCarrPurcellSequence

/-- `dynamic_decoupling_sequences/predefined.py:347-428` `new_cpmg_sequence` -/
def newCPMGValues : PyScalar α → PyScalar α → PyScalar α → Option String → Except PyErr (Sequence α) :=
  countedValues newCPMGSequence

/-- `dynamic_decoupling_sequences/predefined.py:431-507` `new_uhrig_sequence` -/
def newUhrigValues : PyScalar α → PyScalar α → PyScalar α → Option String → Except PyErr (Sequence α) :=
  countedValues newUhrigSequence

/-- `dynamic_decoupling_sequences/predefined.py:510-586` `new_periodic_sequence` -/
def newPeriodicValues : PyScalar α → PyScalar α → PyScalar α → Option String → Except PyErr (Sequence α) :=
  countedValues newPeriodicSequence

/-- `dynamic_decoupling_sequences/predefined.py:589-707` `new_walsh_sequence` -/
def newWalshValues : PyScalar α → PyScalar α → PyScalar α → Option String → Except PyErr (Sequence α) :=
  countedValues newWalshSequence

/-- `dynamic_decoupling_sequences/predefined.py:710-844` `new_quadratic_sequence` -/
def newQuadraticValues (duration inner outer prePostRotation : PyScalar α) (name : Option String) :
    Except PyErr (Sequence α) := do
  let duration ← duration.real
  checkDuration duration
  let inner ← inner.real
  checkArguments (ge inner (lit 1)) "Number of offsets of inner pulses must be greater than zero."
  let outer ← outer.real
  newQuadraticSequence duration inner outer prePostRotation.truth name

/-- `dynamic_decoupling_sequences/predefined.py:847-947` `new_x_concatenated_sequence` -/
def newXConcatenatedValues :
    PyScalar α → PyScalar α → PyScalar α → Option String → Except PyErr (Sequence α) :=
  countedValues newXConcatenatedSequence

/-- `dynamic_decoupling_sequences/predefined.py:950-1127` `new_xy_concatenated_sequence` -/
def newXYConcatenatedValues :
    PyScalar α → PyScalar α → PyScalar α → Option String → Except PyErr (Sequence α) :=
  countedValues newXYConcatenatedSequence

/-- `dynamic_decoupling_sequence.py:331-346` and the rest of `convert_dds_to_driven_control` -/
def convertValues (s : Sequence α)
    (maximumRabiRate maximumDetuningRate minimumSegmentDuration : PyScalar α) (name : Option String) :
    Except PyErr (DrivenControl α) := do
  let detuningRate ← maximumDetuningRate.real
  checkArguments (gt detuningRate (lit 0)) "Maximum detuning rate must be positive."
  let rabiRate ← maximumRabiRate.real
  checkArguments (gt rabiRate (lit 0)) "Maximum rabi rate must be positive."
  let minimum ← minimumSegmentDuration.real
  convertDDS s rabiRate detuningRate minimum name

/-- `driven_control.py:509-572` `DrivenControl.export` -/
def exportPlotValues (c : DrivenControl α) (coordinates dimensionless : PyScalar α) :
    Except PyErr (PlotData α) := do
  match coordinates.keyword coordinateSystems with
  -- lines 540-572
  | some s => c.exportPlot s dimensionless.truth
  -- lines 534-538
  | none => .error (.arguments "Unsupported coordinates provided: ")

/-- `driven_control.py:412-507` `DrivenControl.export_to_file`; the file name is a string -/
def exportToFileValues (c : DrivenControl α) (fs : FileSystem α) (filename : String)
    (fileFormat fileType coordinates : PyScalar α) : Except PyErr Unit × FileSystem α :=
  match fileFormat.keyword fileFormats with
  | none => (.error (.arguments "Requested file format is not supported."), fs)
  | some format =>
    match fileType.keyword fileTypes with
    | none => (.error (.arguments "Requested file type is not supported."), fs)
    | some type =>
      match coordinates.keyword coordinateSystems with
      | none => (.error (.arguments "Requested coordinate type is not supported."), fs)
      | some system => c.exportToFile fs filename format type system

/-- `dynamic_decoupling_sequence.py:211-264` `DynamicDecouplingSequence.export_to_file` -/
def sequenceToFileValues (s : Sequence α) (fs : FileSystem α) (filename : String)
    (fileFormat fileType coordinates maximumRabiRate maximumDetuningRate : PyScalar α) :
    Except PyErr Unit × FileSystem α :=
  match convertValues s maximumRabiRate maximumDetuningRate (.int 0) s.name with
  | .error e => (.error e, fs)
  | .ok c => exportToFileValues c fs filename fileFormat fileType coordinates

end OpenControls
