import Verif.Model.ValuesCalls

/-!
# Lists, tuples and complex numbers as arguments

`Model/ValuesCalls.lean` has the functions on scalar objects without complex numbers.  Here the predefined sequences, the
Gaussian control, the conversion and the exports are called with lists, tuples and complex numbers as well.

Simplifications: those of `Model/ValuesCalls.lean`; the modulation frequency is no complex number (numpy orders complex numbers
in some versions only).  The composite pulses are in `Model/ListCalls.lean`: numpy adds its own numbers to lists item by item.
-/

namespace OpenControls

open PyFloat Py

variable {α : Type} [Add α] [Sub α] [Mul α] [Div α] [Neg α] [PyFloat α]

/-- An argument: a scalar object, a complex number, or a list or tuple, of which only the length matters.
Used at `dynamic_decoupling_sequences/predefined.py:174-178, 650-659` -/
inductive PyArgument (α : Type) where
  | scalar (v : PyScalar α)
  | complex (re im : α)
  | list (length : Nat)

namespace PyArgument

/-- Order (`v > 0`, `v >= 1`, `1 <= v`) with numbers and the product of a float and the object: `TypeError` for complex
numbers, lists and tuples, too (the product of a list is only defined for integers).
Used at `dynamic_decoupling_sequences/predefined.py:174-178; driven_controls/predefined.py:1008-1062` -/
def real : PyArgument α → Except PyErr α
  | .scalar v => v.real
  | .complex _ _ => .error (.typeError "unsupported operand type(s)")
  | .list _ => .error (.typeError "unsupported operand type(s)")

/-- `if v:`; complex numbers count as true unless they are zero, lists unless they are empty;
used at `dynamic_decoupling_sequences/predefined.py:690` -/
def truth : PyArgument α → Bool
  | .scalar v => v.truth
  | .complex re im => ne re (lit 0) || ne im (lit 0)
  | .list n => n != 0

/-- `v in [...]` for a list of strings; used at `driven_control.py:484-502` -/
def keyword (l : List String) : PyArgument α → Option String
  | .scalar v => v.keyword l
  | .complex _ _ => none
  | .list _ => none

end PyArgument

/-- `dynamic_decoupling_sequences/predefined.py:143-198` `new_ramsey_sequence` -/
def newRamseyLists (duration prePostRotation : PyArgument α) (name : Option String) : Except PyErr (Sequence α) := do
  let duration ← duration.real
  newRamseySequence duration prePostRotation.truth name

/-- `dynamic_decoupling_sequences/predefined.py:201-259` `new_spin_echo_sequence` -/
def newSpinEchoLists (duration prePostRotation : PyArgument α) (name : Option String) : Except PyErr (Sequence α) := do
  let duration ← duration.real
  newSpinEchoSequence duration prePostRotation.truth name

/-- The functions with one number besides the duration: `duration > 0` is asked first, then the order of the number.
Used at `dynamic_decoupling_sequences/predefined.py:650-659 and likewise in the others` -/
def countedLists (f : α → α → Bool → Option String → Except PyErr (Sequence α))
    (duration count prePostRotation : PyArgument α) (name : Option String) : Except PyErr (Sequence α) := do
  let duration ← duration.real
  checkDuration duration
  let count ← count.real
  f duration count prePostRotation.truth name

/-- `dynamic_decoupling_sequences/predefined.py:262-344` `new_carr_purcell_sequence` -/
def newCarrPurcellLists : PyArgument α → PyArgument α → PyArgument α → Option String → Except PyErr (Sequence α) :=
  countedLists newCarrPurcellSequence

/-- `dynamic_decoupling_sequences/predefined.py:347-428` `new_cpmg_sequence` -/
def newCPMGLists : PyArgument α → PyArgument α → PyArgument α → Option String → Except PyErr (Sequence α) :=
  countedLists newCPMGSequence

/-- `dynamic_decoupling_sequences/predefined.py:431-507` `new_uhrig_sequence` -/
def newUhrigLists : PyArgument α → PyArgument α → PyArgument α → Option String → Except PyErr (Sequence α) :=
  countedLists newUhrigSequence

/-- `dynamic_decoupling_sequences/predefined.py:510-586` `new_periodic_sequence` -/
def newPeriodicLists : PyArgument α → PyArgument α → PyArgument α → Option String → Except PyErr (Sequence α) :=
  countedLists newPeriodicSequence

/-- `dynamic_decoupling_sequences/predefined.py:589-707` `new_walsh_sequence` -/
def newWalshLists : PyArgument α → PyArgument α → PyArgument α → Option String → Except PyErr (Sequence α) :=
  countedLists newWalshSequence

/-- `dynamic_decoupling_sequences/predefined.py:710-844` `new_quadratic_sequence` -/
def newQuadraticLists (duration inner outer prePostRotation : PyArgument α) (name : Option String) :
    Except PyErr (Sequence α) := do
  let duration ← duration.real
  checkDuration duration
  let inner ← inner.real
  checkArguments (ge inner (lit 1)) "Number of offsets of inner pulses must be greater than zero."
  let outer ← outer.real
  newQuadraticSequence duration inner outer prePostRotation.truth name

/-- `dynamic_decoupling_sequences/predefined.py:847-947` `new_x_concatenated_sequence` -/
def newXConcatenatedLists : PyArgument α → PyArgument α → PyArgument α → Option String → Except PyErr (Sequence α) :=
  countedLists newXConcatenatedSequence

/-- `dynamic_decoupling_sequences/predefined.py:950-1127` `new_xy_concatenated_sequence` -/
def newXYConcatenatedLists : PyArgument α → PyArgument α → PyArgument α → Option String → Except PyErr (Sequence α) :=
  countedLists newXYConcatenatedSequence

/-- `driven_controls/predefined.py:976-1099` `new_modulated_gaussian_control`; the frequency is a scalar object or a list
of the given length -/
def newModulatedGaussianLists (maximumRabiRate minimumSegmentDuration duration : PyArgument α)
    (modulationFrequency : PyScalar α ⊕ Nat) : Except PyErr (DrivenControl α) := do
  -- lines 1008-1012
  let rate ← maximumRabiRate.real
  checkArguments (gt rate (lit 0)) "Maximum Rabi rate must be greater than zero."
  -- lines 1014-1018
  let minimum ← minimumSegmentDuration.real
  checkArguments (gt minimum (lit 0)) "Minimum segment duration must be greater than zero."
  -- lines 1020-1024
  let duration ← duration.real
  checkArguments (gt duration minimum) "Total duration must be greater than minimum segment duration."
  -- lines 1026-1041
  checkArguments (ge rate (sqrt (lit 2 * PyFloat.pi) / (lit (1 / 10) * duration)))
    "Maximum Rabi rate must be large enough to permit a 2Pi rotation."
  -- line 1044
  let _ ← pyCeil (duration / minimum)
  -- lines 1056-1062: a list, also an empty one, is not 0 and cannot be multiplied with `2.0 * np.pi`
  let frequency ← match modulationFrequency with
    | .inl v => v.real
    | .inr n => (PyArgument.list n).real
  newModulatedGaussianControl rate minimum duration frequency

/-- `dynamic_decoupling_sequence.py:331-346` and the rest of `convert_dds_to_driven_control` -/
def convertLists (s : Sequence α) (maximumRabiRate maximumDetuningRate minimumSegmentDuration : PyArgument α)
    (name : Option String) : Except PyErr (DrivenControl α) := do
  let detuningRate ← maximumDetuningRate.real
  checkArguments (gt detuningRate (lit 0)) "Maximum detuning rate must be positive."
  let rabiRate ← maximumRabiRate.real
  checkArguments (gt rabiRate (lit 0)) "Maximum rabi rate must be positive."
  let minimum ← minimumSegmentDuration.real
  convertDDS s rabiRate detuningRate minimum name

/-- `driven_control.py:509-572` `DrivenControl.export` -/
def exportPlotLists (c : DrivenControl α) (coordinates dimensionless : PyArgument α) : Except PyErr (PlotData α) := do
  match coordinates.keyword coordinateSystems with
  -- lines 540-572
  | some s => c.exportPlot s dimensionless.truth
  -- lines 534-538
  | none => .error (.arguments "Unsupported coordinates provided: ")

/-- `driven_control.py:412-507` `DrivenControl.export_to_file`; the file name is a string -/
def exportToFileLists (c : DrivenControl α) (fs : FileSystem α) (filename : String)
    (fileFormat fileType coordinates : PyArgument α) : Except PyErr Unit × FileSystem α :=
  match fileFormat.keyword fileFormats with
  | none => (.error (.arguments "Requested file format is not supported."), fs)
  | some format =>
    match fileType.keyword fileTypes with
    | none => (.error (.arguments "Requested file type is not supported."), fs)
    | some type =>
      match coordinates.keyword coordinateSystems with
      | none => (.error (.arguments "Requested coordinate type is not supported."), fs)
      | some system => c.exportToFile fs filename format type system

end OpenControls
