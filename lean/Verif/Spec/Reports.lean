import Verif.Model.Reports
import Verif.Spec.Extended
import Verif.Spec.Reachable

/-!
# Specification: what an `ArgumentsValueError` reports
-/

namespace OpenControls.Spec

variable {α : Type} [Add α] [Sub α] [Mul α] [Div α] [Neg α] [PyFloat α] {A β : Type}

/-- The same result; or `ArgumentsValueError` on both sides, where the one with the report gives the whole text;
or the same other exception. -/
def SameCall (x : Except (Raised α) β) (y : Except PyErr β) : Prop :=
  match x, y with
  | .ok b, .ok c => b = c
  | .error (.report r), .error (.arguments d) => ∃ rest, r.description = d ++ rest
  | .error (.other e), .error e' => e = e' ∧ e.isArguments = false
  | _, _ => False

/-- If the call with the arguments `a` raises `ArgumentsValueError`, then the report names at least one argument, it
names nothing but parameters of the function, each with the value given by the caller, and these values are the
reason: every call of the function with the same values for the named parameters, whatever the others are, raises
`ArgumentsValueError` too.  `parameters` lists the parameters of the function with their values. -/
def Explained (parameters : A → List (String × Reported α)) (call : A → Except (Raised α) β) (a : A) : Prop :=
  ∀ r, call a = .error (.report r) →
    r.arguments ≠ [] ∧ (∀ kv ∈ r.arguments, kv ∈ parameters a) ∧
    ∀ b, (∀ kv ∈ r.arguments, kv ∈ parameters b) → ∃ r', call b = .error (.report r')

/-- the names of the arguments in a report -/
def namedIn (r : Report α) : List String := r.arguments.map Prod.fst

/-- the arguments of the constructor of a control -/
structure ControlInit (α : Type) where
  durations : List α
  rabiRates : Option (List α)
  azimuthalAngles : Option (List α)
  detunings : Option (List α)
  name : Option String

def ControlInit.parameters (a : ControlInit α) : List (String × Reported α) :=
  [("durations", .arr a.durations), ("rabi_rates", .optArr a.rabiRates),
   ("azimuthal_angles", .optArr a.azimuthalAngles), ("detunings", .optArr a.detunings), ("name", .optStr a.name)]

def ControlInit.call (a : ControlInit α) : Except (Raised α) (DrivenControl α) :=
  DrivenControl.newR a.durations a.rabiRates a.azimuthalAngles a.detunings a.name

/-- the arguments of the constructor of a sequence -/
structure SequenceInit (α : Type) where
  duration : α
  offsets : List α
  rabiRotations : List α
  azimuthalAngles : List α
  detuningRotations : List α
  name : Option String

def SequenceInit.parameters (a : SequenceInit α) : List (String × Reported α) :=
  [("duration", .num a.duration), ("offsets", .arr a.offsets), ("rabi_rotations", .arr a.rabiRotations),
   ("azimuthal_angles", .arr a.azimuthalAngles), ("detuning_rotations", .arr a.detuningRotations),
   ("name", .optStr a.name)]

def SequenceInit.call (a : SequenceInit α) : Except (Raised α) (Sequence α) :=
  Sequence.newR a.duration a.offsets a.rabiRotations a.azimuthalAngles a.detuningRotations a.name

/-- the arguments of the predefined controls other than the modulated Gaussian -/
structure PulseArgs (α : Type) where
  rabiRotation : α
  maximumRabiRate : α
  azimuthalAngle : α
  name : Option String

def PulseArgs.parameters (a : PulseArgs α) : List (String × Reported α) :=
  [("rabi_rotation", .num a.rabiRotation), ("maximum_rabi_rate", .num a.maximumRabiRate),
   ("azimuthal_angle", .num a.azimuthalAngle), ("name", .optStr a.name)]

/-- the predefined controls, with their reports -/
def Scheme.callR : Scheme → α → α → α → Option String → Except (Raised α) (DrivenControl α)
  | .primitive => newPrimitiveControlR
  | .bb1 => newBB1ControlR
  | .sk1 => newSK1ControlR
  | .scrofulous => newScrofulousControlR
  | .corpse => newCorpseControlR
  | .corpseInBB1 => newCorpseInBB1ControlR
  | .corpseInSK1 => newCorpseInSK1ControlR
  | .corpseInScrofulous => newCorpseInScrofulousControlR
  | .wamf1 => newWamf1ControlR

def PulseArgs.call (s : Scheme) (a : PulseArgs α) : Except (Raised α) (DrivenControl α) :=
  s.callR a.rabiRotation a.maximumRabiRate a.azimuthalAngle a.name

/-- the schemes with a table for three rotation angles -/
def Scheme.HasTable : Scheme → Prop
  | .scrofulous | .corpseInScrofulous | .wamf1 => True
  | _ => False

/-- the schemes that ask for a rotation between -4π and 4π -/
def Scheme.Wimperis : Scheme → Prop
  | .bb1 | .sk1 | .corpseInBB1 | .corpseInSK1 => True
  | _ => False

/-- the arguments of the modulated Gaussian -/
structure GaussianInit (α : Type) where
  maximumRabiRate : α
  minimumSegmentDuration : α
  duration : α
  modulationFrequency : α

def GaussianInit.parameters (a : GaussianInit α) : List (String × Reported α) :=
  [("maximum_rabi_rate", .num a.maximumRabiRate), ("minimum_segment_duration", .num a.minimumSegmentDuration),
   ("duration", .num a.duration), ("modulation_frequency", .num a.modulationFrequency)]

def GaussianInit.call (a : GaussianInit α) : Except (Raised α) (DrivenControl α) :=
  newModulatedGaussianControlR a.maximumRabiRate a.minimumSegmentDuration a.duration a.modulationFrequency

/-- the arguments of a predefined sequence: the duration, the numbers that follow it, and the two options -/
structure SequenceArgs (α N : Type) where
  duration : α
  numbers : N
  prePostRotation : Bool
  name : Option String

def SequenceArgs.parameters {N : Type} (numbers : N → List (String × Reported α)) (a : SequenceArgs α N) :
    List (String × Reported α) :=
  ("duration", .num a.duration) :: numbers a.numbers ++
    [("pre_post_rotation", .flag a.prePostRotation), ("name", .optStr a.name)]

def SequenceArgs.call {N : Type} (f : α → N → Bool → Option String → Except (Raised α) (Sequence α))
    (a : SequenceArgs α N) : Except (Raised α) (Sequence α) :=
  f a.duration a.numbers a.prePostRotation a.name

/-- the arguments of the conversion; a sequence is one returned by its constructor -/
structure ConvertArgs (α : Type) [Add α] [Sub α] [Mul α] [Div α] [Neg α] [PyFloat α] where
  sequence : {s : Sequence α // s.Constructed}
  maximumRabiRate : α
  maximumDetuningRate : α
  minimumSegmentDuration : α
  name : Option String

def ConvertArgs.parameters (a : ConvertArgs α) : List (String × Reported α) :=
  [("dynamic_decoupling_sequence", .sequence a.sequence.1), ("maximum_rabi_rate", .num a.maximumRabiRate),
   ("maximum_detuning_rate", .num a.maximumDetuningRate),
   ("minimum_segment_duration", .num a.minimumSegmentDuration), ("name", .optStr a.name)]

def ConvertArgs.call (a : ConvertArgs α) : Except (Raised α) (DrivenControl α) :=
  convertDDSR a.sequence.1 a.maximumRabiRate a.maximumDetuningRate a.minimumSegmentDuration a.name

/-- the arguments of `DrivenControl.export_to_file` -/
structure FileArgs where
  filename : String
  fileFormat : String
  fileType : String
  coordinates : String

def FileArgs.parameters (a : FileArgs) : List (String × Reported α) :=
  [("filename", .str a.filename), ("file_format", .str a.fileFormat), ("file_type", .str a.fileType),
   ("coordinates", .str a.coordinates)]

/-- the arguments of `DrivenControl.export` -/
structure PlotArgs where
  coordinates : String
  dimensionless : Bool

def PlotArgs.parameters (a : PlotArgs) : List (String × Reported α) :=
  [("coordinates", .str a.coordinates), ("dimensionless_rabi_rate", .flag a.dimensionless)]

/-- the names of the parameters of `DynamicDecouplingSequence.export_to_file` -/
def sequenceFileParameters : List String :=
  ["filename", "file_format", "file_type", "coordinates", "maximum_rabi_rate", "maximum_detuning_rate"]

end OpenControls.Spec
