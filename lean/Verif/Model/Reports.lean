import Verif.Model.DrivenPredefined
import Verif.Model.SequencePredefined

/-!
# What an `ArgumentsValueError` reports

The functions of the package that raise `ArgumentsValueError`, once more, with the dictionaries `arguments` and
`extras` of every check.  `Verif/Model/Utils.lean` leaves these out.  The values in them are numbers,
arrays, `None`, texts, truth values and sequences.  The code reports some arrays after and some before `np.asarray`; that conversion is not told apart
here, `.arr` is an argument that is a list of numbers.
-/

namespace OpenControls

open PyFloat Py

variable {α : Type} [Add α] [Sub α] [Mul α] [Div α] [Neg α] [PyFloat α]

/-- A value in the dictionaries of a report. Used at `utils.py:84-115` -/
inductive Reported (α : Type) where
  | none
  | num (x : α)
  | arr (xs : List α)
  | str (s : String)
  | flag (b : Bool)
  | sequence (s : Sequence α)
  deriving DecidableEq, Repr

/-- an argument whose default is `None`; used at `driven_control.py:125-130` -/
def Reported.optArr : Option (List α) → Reported α
  | .none => .none
  | some xs => .arr xs

/-- the argument `name`; used at `utils.py:84-115` -/
def Reported.optStr : Option String → Reported α
  | .none => .none
  | some s => .str s

/-- `exceptions.py:24-56` `ArgumentsValueError`: what it is raised with. -/
structure Report (α : Type) where
  description : String
  arguments : List (String × Reported α)
  extras : Option (List (String × Reported α))
  deriving DecidableEq, Repr

/-- What a call can raise: `ArgumentsValueError` with its report, or some other exception.
Used at `utils.py:115` -/
inductive Raised (α : Type) where
  | report (r : Report α)
  | other (e : PyErr)
  deriving DecidableEq, Repr

/-- `exceptions.py:46-56`: the message of the exception, with `repr` the (abstract) `repr` of a value. -/
def Report.message (repr : Reported α → String) (r : Report α) : String :=
  argumentsMessage r.description (r.arguments.map fun kv => (kv.1, repr kv.2))
    (r.extras.map fun ex => ex.map fun kv => (kv.1, repr kv.2))

/-- `utils.py:84-115` `check_arguments` -/
def checkR (condition : Bool) (description : String) (arguments : List (String × Reported α))
    (extras : Option (List (String × Reported α))) : Except (Raised α) Unit :=
  if condition then .ok () else .error (.report ⟨description, arguments, extras⟩)

/-- a step that raises no `ArgumentsValueError`; used at `utils.py:113-115` -/
def liftR {β : Type} : Except PyErr β → Except (Raised α) β
  | .ok b => .ok b
  | .error e => .error (.other e)

/-- `driven_control.py:94-156` `DrivenControl.__init__`, with its reports.  `none` models the default `None`.
Simplification: 1-D numeric arrays only. -/
def DrivenControl.newR (durations : List α) (rabiRates azimuthalAngles detunings : Option (List α))
    (name : Option String) : Except (Raised α) (DrivenControl α) := do
  -- lines 107-112
  checkR (durations.all fun d => gt d (lit 0))
    "Duration of driven control segments must all be greater than zero."
    [("durations", .arr durations)] none
  -- lines 114-119
  let inputLengths := pySet
    ([rabiRates, azimuthalAngles, detunings, some durations].filterMap (Option.map List.length))
  -- lines 121-131
  checkR (inputLengths.length == 1)
    "If set, rabi rates, azimuthal angles, detunings and durations must be of same length"
    [("rabi_rates", .optArr rabiRates), ("azimuthal_angles", .optArr azimuthalAngles),
      ("detunings", .optArr detunings), ("durations", .arr durations)] none
  -- lines 133-144
  let durationCount := durations.length
  let rabiRates := rabiRates.getD (List.replicate durationCount (lit 0))
  let azimuthalAngles := azimuthalAngles.getD (List.replicate durationCount (lit 0))
  let detunings := detunings.getD (List.replicate durationCount (lit 0))
  -- lines 146-151
  checkR (rabiRates.all fun r => ge r (lit 0))
    "All rabi rates must be greater than zero."
    [("rabi_rates", .arr rabiRates)] none
  -- lines 153-156
  return { rabiRates, azimuthalAngles, detunings, durations, name }

/-- `dynamic_decoupling_sequence.py:74-123` `DynamicDecouplingSequence.__init__` -/
def Sequence.newR (duration : α) (offsets rabiRotations azimuthalAngles detuningRotations : List α)
    (name : Option String) : Except (Raised α) (Sequence α) := do
  -- lines 84-88
  checkR (gt duration (lit 0)) "Sequence duration must be above zero."
    [("duration", .num duration)] none
  -- lines 90-96
  checkR (offsets.all fun t => ge t (lit 0) && ge duration t)
    "Offsets for dynamic decoupling sequence must be between 0 and the sequence duration (inclusive). "
    [("offsets", .arr offsets), ("duration", .num duration)] none
  -- lines 98-116
  checkR (rabiRotations.length == offsets.length)
    "rabi rotations must have the same length as offsets. "
    [("offsets", .arr offsets), ("rabi_rotations", .arr rabiRotations)] none
  checkR (azimuthalAngles.length == offsets.length)
    "azimuthal angles must have the same length as offsets. "
    [("offsets", .arr offsets), ("azimuthal_angles", .arr azimuthalAngles)] none
  checkR (detuningRotations.length == offsets.length)
    "detuning rotations must have the same length as offsets. "
    [("offsets", .arr offsets), ("detuning_rotations", .arr detuningRotations)] none
  -- lines 118-123
  return { duration, offsets, rabiRotations, azimuthalAngles, detuningRotations, name }

/-- `predefined.py:30-53` `_validate_rabi_parameters` -/
def validateRabiParametersR (rabiRotation maximumRabiRate : α) : Except (Raised α) Unit := do
  checkR (gt maximumRabiRate (lit 0))
    "Maximum rabi angular frequency should be greater than zero."
    [("maximum_rabi_rate", .num maximumRabiRate)] none
  checkR (ne rabiRotation (lit 0)) "The rabi rotation must be non-zero."
    [("rabi_rotation", .num rabiRotation)] none

/-- `predefined.py:56-79` `_get_transformed_rabi_rotation_wimperis` -/
def transformedRabiRotationWimperisR (rabiRotation : α) : Except (Raised α) α := do
  checkR (le (lit (-4) * PyFloat.pi) rabiRotation && le rabiRotation (lit 4 * PyFloat.pi))
    "The polar angle must be between -4 pi and 4 pi (inclusive)."
    [("rabi_rotation", .num rabiRotation)] none
  return arccos (-rabiRotation / (lit 4 * PyFloat.pi))

/-- `predefined.py:113-158` `new_primitive_control` -/
def newPrimitiveControlR (rabiRotation maximumRabiRate azimuthalAngle : α) (name : Option String) :
    Except (Raised α) (DrivenControl α) := do
  validateRabiParametersR rabiRotation maximumRabiRate
  DrivenControl.newR (durations := [rabiRotation / maximumRabiRate])
    (rabiRates := some [maximumRabiRate]) (azimuthalAngles := some [azimuthalAngle])
    (detunings := some [lit 0]) (name := name)

/-- `predefined.py:161-235` `new_bb1_control` -/
def newBB1ControlR (rabiRotation maximumRabiRate azimuthalAngle : α) (name : Option String) :
    Except (Raised α) (DrivenControl α) := do
  validateRabiParametersR rabiRotation maximumRabiRate
  let phiP ← transformedRabiRotationWimperisR rabiRotation
  let rabiRotations := [rabiRotation, PyFloat.pi, lit 2 * PyFloat.pi, PyFloat.pi]
  let rabiRates := List.replicate 4 maximumRabiRate
  let azimuthalAngles := [azimuthalAngle, azimuthalAngle + phiP, azimuthalAngle + lit 3 * phiP,
    azimuthalAngle + phiP]
  let detunings := List.replicate 4 (lit 0)
  let durations := rabiRotations.map fun r => r / maximumRabiRate
  DrivenControl.newR (durations := durations) (rabiRates := some rabiRates)
    (azimuthalAngles := some azimuthalAngles) (detunings := some detunings) (name := name)

/-- `predefined.py:238-314` `new_sk1_control` -/
def newSK1ControlR (rabiRotation maximumRabiRate azimuthalAngle : α) (name : Option String) :
    Except (Raised α) (DrivenControl α) := do
  validateRabiParametersR rabiRotation maximumRabiRate
  let phiP ← transformedRabiRotationWimperisR rabiRotation
  let rabiRotations := [rabiRotation, lit 2 * PyFloat.pi, lit 2 * PyFloat.pi]
  let rabiRates := List.replicate 3 maximumRabiRate
  let azimuthalAngles := [azimuthalAngle, azimuthalAngle - phiP, azimuthalAngle + phiP]
  let detunings := List.replicate 3 (lit 0)
  let durations := rabiRotations.map fun r => r / maximumRabiRate
  DrivenControl.newR (durations := durations) (rabiRates := some rabiRates)
    (azimuthalAngles := some azimuthalAngles) (detunings := some detunings) (name := name)

/-- `predefined.py:317-434` `new_scrofulous_control`.  The three branches of lines 392-409 differ
only in `theta_1`. -/
def newScrofulousControlR (rabiRotation maximumRabiRate azimuthalAngle : α) (name : Option String) :
    Except (Raised α) (DrivenControl α) := do
  validateRabiParametersR rabiRotation maximumRabiRate
  checkR (isSupportedRotation rabiRotation)
    "rabi_rotation angle must be either pi, pi/2 or pi/4"
    [("rabi_rotation", .num rabiRotation)] none
  let theta1 := scrofulousTheta1 rabiRotation
  let phi1 := arccos (scrofulousPhi1Arg theta1 rabiRotation)
  let phi2 := phi1 - arccos (scrofulousPhi2Arg theta1)
  let theta3 := theta1
  let phi3 := phi1
  let theta2 := PyFloat.pi
  let rabiRotations := [theta1, theta2, theta3]
  let rabiRates := List.replicate 3 maximumRabiRate
  let azimuthalAngles := [azimuthalAngle + phi1, azimuthalAngle + phi2, azimuthalAngle + phi3]
  let detunings := List.replicate 3 (lit 0)
  let durations := rabiRotations.map fun r => r / maximumRabiRate
  DrivenControl.newR (durations := durations) (rabiRates := some rabiRates)
    (azimuthalAngles := some azimuthalAngles) (detunings := some detunings) (name := name)

/-- `predefined.py:437-516` `new_corpse_control` -/
def newCorpseControlR (rabiRotation maximumRabiRate azimuthalAngle : α) (name : Option String) :
    Except (Raised α) (DrivenControl α) := do
  validateRabiParametersR rabiRotation maximumRabiRate
  let k := corpseK rabiRotation
  let rabiRotations := [rabiRotation / lit 2 + lit 2 * PyFloat.pi - k,
    lit 2 * PyFloat.pi - lit 2 * k, rabiRotation / lit 2 - k]
  let rabiRates := List.replicate 3 maximumRabiRate
  let azimuthalAngles := [azimuthalAngle, azimuthalAngle + PyFloat.pi, azimuthalAngle]
  let detunings := List.replicate 3 (lit 0)
  let durations := rabiRotations.map fun r => r / maximumRabiRate
  DrivenControl.newR (durations := durations) (rabiRates := some rabiRates)
    (azimuthalAngles := some azimuthalAngles) (detunings := some detunings) (name := name)

/-- `predefined.py:519-621` `new_corpse_in_bb1_control` -/
def newCorpseInBB1ControlR (rabiRotation maximumRabiRate azimuthalAngle : α)
    (name : Option String) : Except (Raised α) (DrivenControl α) := do
  validateRabiParametersR rabiRotation maximumRabiRate
  let phiP ← transformedRabiRotationWimperisR rabiRotation
  let k := corpseK rabiRotation
  let rabiRotations := [lit 2 * PyFloat.pi + rabiRotation / lit 2 - k,
    lit 2 * PyFloat.pi - lit 2 * k, rabiRotation / lit 2 - k,
    PyFloat.pi, lit 2 * PyFloat.pi, PyFloat.pi]
  let rabiRates := List.replicate 6 maximumRabiRate
  let azimuthalAngles := [azimuthalAngle, azimuthalAngle + PyFloat.pi, azimuthalAngle,
    azimuthalAngle + phiP, azimuthalAngle + lit 3 * phiP, azimuthalAngle + phiP]
  let detunings := List.replicate 6 (lit 0)
  let durations := rabiRotations.map fun r => r / maximumRabiRate
  DrivenControl.newR (durations := durations) (rabiRates := some rabiRates)
    (azimuthalAngles := some azimuthalAngles) (detunings := some detunings) (name := name)

/-- `predefined.py:624-723` `new_corpse_in_sk1_control` -/
def newCorpseInSK1ControlR (rabiRotation maximumRabiRate azimuthalAngle : α)
    (name : Option String) : Except (Raised α) (DrivenControl α) := do
  validateRabiParametersR rabiRotation maximumRabiRate
  let phiP ← transformedRabiRotationWimperisR rabiRotation
  let k := corpseK rabiRotation
  let rabiRotations := [lit 2 * PyFloat.pi + rabiRotation / lit 2 - k,
    lit 2 * PyFloat.pi - lit 2 * k, rabiRotation / lit 2 - k,
    lit 2 * PyFloat.pi, lit 2 * PyFloat.pi]
  let rabiRates := List.replicate 5 maximumRabiRate
  let azimuthalAngles := [azimuthalAngle, azimuthalAngle + PyFloat.pi, azimuthalAngle,
    azimuthalAngle - phiP, azimuthalAngle + phiP]
  let detunings := List.replicate 5 (lit 0)
  let durations := rabiRotations.map fun r => r / maximumRabiRate
  DrivenControl.newR (durations := durations) (rabiRates := some rabiRates)
    (azimuthalAngles := some azimuthalAngles) (detunings := some detunings) (name := name)

/-- `predefined.py:726-881` `new_corpse_in_scrofulous_control` -/
def newCorpseInScrofulousControlR (rabiRotation maximumRabiRate azimuthalAngle : α)
    (name : Option String) : Except (Raised α) (DrivenControl α) := do
  validateRabiParametersR rabiRotation maximumRabiRate
  checkR (isSupportedRotation rabiRotation)
    "rabi_rotation angle must be either pi, pi/2 or pi/4"
    [("rabi_rotation", .num rabiRotation)] none
  let theta1 := scrofulousTheta1 rabiRotation
  let theta3 := theta1
  let phi1 := arccos (scrofulousPhi1Arg theta1 rabiRotation)
  let phi3 := phi1
  let phi2 := phi1 - arccos (scrofulousPhi2Arg theta1)
  let theta2 := PyFloat.pi
  let totalAngles := corpseBlock azimuthalAngle theta1 phi1 ++
    corpseBlock azimuthalAngle theta2 phi2 ++ corpseBlock azimuthalAngle theta3 phi3
  let rabiRates := List.replicate 9 maximumRabiRate
  let detunings := List.replicate 9 (lit 0)
  let durations := totalAngles.map fun a => a.1 / maximumRabiRate
  DrivenControl.newR (durations := durations) (rabiRates := some rabiRates)
    (azimuthalAngles := some (totalAngles.map Prod.snd)) (detunings := some detunings)
    (name := name)

/-- `predefined.py:884-973` `new_wamf1_control` -/
def newWamf1ControlR (rabiRotation maximumRabiRate azimuthalAngle : α) (name : Option String) :
    Except (Raised α) (DrivenControl α) := do
  validateRabiParametersR rabiRotation maximumRabiRate
  checkR (isSupportedRotation rabiRotation)
    "rabi_rotation angle must be either pi, pi/2 or pi/4"
    [("rabi_rotation", .num rabiRotation)] none
  let thetaPlus := (wamf1Thetas rabiRotation).1
  let thetaMinus := (wamf1Thetas rabiRotation).2
  let rabiRotations := [thetaPlus, thetaMinus, thetaMinus, thetaPlus]
  let segmentDuration := thetaPlus / maximumRabiRate
  let rabiRates := rabiRotations.map fun r => r / segmentDuration
  let azimuthalAngles := List.replicate 4 azimuthalAngle
  let detunings := List.replicate 4 (lit 0)
  let durations := List.replicate 4 segmentDuration
  DrivenControl.newR (durations := durations) (rabiRates := some rabiRates)
    (azimuthalAngles := some azimuthalAngles) (detunings := some detunings) (name := name)

/-- `predefined.py:976-1099` `new_modulated_gaussian_control` -/
def newModulatedGaussianControlR
    (maximumRabiRate minimumSegmentDuration duration modulationFrequency : α) :
    Except (Raised α) (DrivenControl α) := do
  -- lines 1008-1024
  checkR (gt maximumRabiRate (lit 0)) "Maximum Rabi rate must be greater than zero."
    [("maximum_rabi_rate", .num maximumRabiRate)] none
  checkR (gt minimumSegmentDuration (lit 0))
    "Minimum segment duration must be greater than zero."
    [("minimum_segment_duration", .num minimumSegmentDuration)] none
  checkR (gt duration minimumSegmentDuration)
    "Total duration must be greater than minimum segment duration."
    [("duration", .num duration), ("minimum_segment_duration", .num minimumSegmentDuration)] none
  -- lines 1026-1041
  let minRequiredUpperBound := sqrt (lit 2 * PyFloat.pi) / (lit (1 / 10) * duration)
  checkR (ge maximumRabiRate minRequiredUpperBound)
    "Maximum Rabi rate must be large enough to permit a 2Pi rotation."
    [("maximum_rabi_rate", .num maximumRabiRate)]
    (some [("minimum required value for upper_bound (sqrt(2pi)/(0.1*maximum_duration))",
      .num minRequiredUpperBound)])
  -- lines 1043-1047
  let segmentCount ← liftR (pyCeil (duration / minimumSegmentDuration))
  let segmentDuration := duration / nat segmentCount
  let midpoints := gaussianMidpoints segmentCount segmentDuration
  -- lines 1049-1054
  let base := baseGaussian duration midpoints
  -- lines 1056-1090
  let segments ← liftR (if ne modulationFrequency (lit 0)
    then modulatedSegments maximumRabiRate duration modulationFrequency midpoints base
    else unmodulatedSegments maximumRabiRate segmentDuration base)
  -- line 1092
  let azimuthalAngles := segments.map fun v => if ge v (lit 0) then lit 0 else PyFloat.pi
  -- lines 1094-1099
  DrivenControl.newR (durations := List.replicate segmentCount segmentDuration)
    (rabiRates := some (segments.map PyFloat.abs)) (azimuthalAngles := some azimuthalAngles)
    (detunings := some (List.replicate segmentCount (lit 0))) (name := none)

/-- `predefined.py:27-140` `_add_pre_post_rotations` -/
def addPrePostRotationsR (duration : α) (p : Pulses α) : Except (Raised α) (Pulses α) := do
  -- lines 64-91
  let x := countPulses (fun v => isClose v PyFloat.pi) (fun v => isClose v (lit 0))
    (fun v => isClose v (lit 0)) p.rabiRotations p.azimuthalAngles p.detuningRotations
  let y := countPulses (fun v => isClose v PyFloat.pi)
    (fun v => isClose v (PyFloat.pi / lit 2)) (fun v => isClose v (lit 0))
    p.rabiRotations p.azimuthalAngles p.detuningRotations
  let z := countPulses (fun v => isClose v (lit 0)) (fun v => isClose v (lit 0))
    (fun v => isClose v PyFloat.pi) p.rabiRotations p.azimuthalAngles p.detuningRotations
  -- lines 93-102
  checkR (p.offsets.length == x + y + z)
    "Sequence contains pulses that are not X, Y, or Z pi-pulses."
    [("rabi_rotations", .arr p.rabiRotations), ("azimuthal_angles", .arr p.azimuthalAngles),
      ("detuning_rotations", .arr p.detuningRotations)] none
  -- lines 104-123
  let rabiValue : α := PyFloat.pi / lit 2
  let preserves10 := (x + y) % 2 == 0
  let preserves11 := (y + z) % 2 == 0
  let finalAzimuthal : α :=
    if (preserves10 && preserves11) || (!preserves10 && !preserves11) then PyFloat.pi else lit 0
  -- lines 125-140: np.insert at the first and after the last position
  return {
    offsets := [lit 0] ++ p.offsets ++ [duration]
    rabiRotations := [rabiValue] ++ p.rabiRotations ++ [rabiValue]
    azimuthalAngles := [lit 0] ++ p.azimuthalAngles ++ [finalAzimuthal]
    detuningRotations := [lit 0] ++ p.detuningRotations ++ [lit 0] }

/-- The common tail of the predefined constructors (e.g. `predefined.py:242-259`): optional pre/post
rotations, then `DynamicDecouplingSequence(...)`. -/
def finishSequenceR (duration : α) (prePostRotation : Bool) (name : Option String) (p : Pulses α) :
    Except (Raised α) (Sequence α) := do
  let p ← if prePostRotation then addPrePostRotationsR duration p else pure p
  Sequence.newR duration p.offsets p.rabiRotations p.azimuthalAngles p.detuningRotations name

/-- `check_arguments(duration > 0, ...)` at the start of every constructor.
Used at `dynamic_decoupling_sequences/predefined.py:650-654 and likewise in the others` -/
def checkDurationR (duration : α) : Except (Raised α) Unit :=
  checkR (gt duration (lit 0)) "Sequence duration must be greater than zero."
    [("duration", .num duration)] none

/-- `predefined.py:143-198` `new_ramsey_sequence` -/
def newRamseySequenceR (duration : α) (prePostRotation : Bool) (name : Option String) :
    Except (Raised α) (Sequence α) := do
  checkDurationR duration
  if prePostRotation then
    -- lines 185-189
    Sequence.newR duration [duration * lit 0, duration * lit 1]
      [PyFloat.pi / lit 2, PyFloat.pi / lit 2] [lit 0, PyFloat.pi] [lit 0, lit 0] name
  else
    Sequence.newR duration [] [] [] [] name

/-- `predefined.py:201-259` `new_spin_echo_sequence` -/
def newSpinEchoSequenceR (duration : α) (prePostRotation : Bool) (name : Option String) :
    Except (Raised α) (Sequence α) := do
  checkDurationR duration
  finishSequenceR duration prePostRotation name {
    offsets := [duration / lit 2]
    rabiRotations := [PyFloat.pi]
    azimuthalAngles := [lit 0]
    detuningRotations := [lit 0] }

/-- `predefined.py:262-344` `new_carr_purcell_sequence` -/
def newCarrPurcellSequenceR (duration offsetCount : α) (prePostRotation : Bool)
    (name : Option String) : Except (Raised α) (Sequence α) := do
  checkDurationR duration
  checkR (ge offsetCount (lit 1)) "Number of offsets must be greater than zero."
    [("offset_count", .num offsetCount)] none
  let n ← liftR (pyInt offsetCount)
  finishSequenceR duration prePostRotation name (uniformPulses (cpmgOffsets duration n) (lit 0))

/-- `predefined.py:347-428` `new_cpmg_sequence` -/
def newCPMGSequenceR (duration offsetCount : α) (prePostRotation : Bool)
    (name : Option String) : Except (Raised α) (Sequence α) := do
  checkDurationR duration
  checkR (ge offsetCount (lit 1)) "Number of offsets must be greater than zero."
    [("offset_count", .num offsetCount)] none
  let n ← liftR (pyInt offsetCount)
  finishSequenceR duration prePostRotation name
    (uniformPulses (cpmgOffsets duration n) (PyFloat.pi / lit 2))

/-- `predefined.py:431-507` `new_uhrig_sequence` -/
def newUhrigSequenceR (duration offsetCount : α) (prePostRotation : Bool)
    (name : Option String) : Except (Raised α) (Sequence α) := do
  checkDurationR duration
  checkR (ge offsetCount (lit 1)) "Number of offsets must be greater than zero."
    [("offset_count", .num offsetCount)] none
  let n ← liftR (pyInt offsetCount)
  finishSequenceR duration prePostRotation name
    (uniformPulses (uhrigOffsets duration n) (PyFloat.pi / lit 2))

/-- `predefined.py:510-586` `new_periodic_sequence` -/
def newPeriodicSequenceR (duration offsetCount : α) (prePostRotation : Bool)
    (name : Option String) : Except (Raised α) (Sequence α) := do
  checkDurationR duration
  checkR (ge offsetCount (lit 1)) "Number of offsets must be greater than zero."
    [("offset_count", .num offsetCount)] none
  let n ← liftR (pyInt offsetCount)
  finishSequenceR duration prePostRotation name (uniformPulses (periodicOffsets duration n) (lit 0))

/-- `predefined.py:589-707` `new_walsh_sequence` -/
def newWalshSequenceR (duration paleyOrder : α) (prePostRotation : Bool)
    (name : Option String) : Except (Raised α) (Sequence α) := do
  checkDurationR duration
  checkR (le (lit 1) paleyOrder && le paleyOrder (lit 2000))
    "Paley order must be between 1 and 2000."
    [("paley_order", .num paleyOrder)] none
  let k ← liftR (pyInt paleyOrder)
  let offsets ← liftR (walshOffsets duration k)
  finishSequenceR duration prePostRotation name (uniformPulses offsets (lit 0))

/-- `predefined.py:710-844` `new_quadratic_sequence` -/
def newQuadraticSequenceR (duration innerOffsetCount outerOffsetCount : α) (prePostRotation : Bool)
    (name : Option String) : Except (Raised α) (Sequence α) := do
  checkDurationR duration
  checkR (ge innerOffsetCount (lit 1))
    "Number of offsets of inner pulses must be greater than zero."
    [("inner_offset_count", .num innerOffsetCount)] none
  checkR (ge outerOffsetCount (lit 1))
    "Number of offsets of outer pulses must be greater than zero."
    [("outer_offset_count", .num outerOffsetCount)] none
  let n1 ← liftR (pyInt innerOffsetCount)
  let n2 ← liftR (pyInt outerOffsetCount)
  finishSequenceR duration prePostRotation name (quadraticPulses duration n1 n2)

/-- `predefined.py:847-947` `new_x_concatenated_sequence` -/
def newXConcatenatedSequenceR (duration concatenationOrder : α) (prePostRotation : Bool)
    (name : Option String) : Except (Raised α) (Sequence α) := do
  checkDurationR duration
  checkR (ge concatenationOrder (lit 1)) "Concatenation oder must be greater than zero."
    [("concatenation_order", .num concatenationOrder)] none
  let l ← liftR (pyInt concatenationOrder)
  finishSequenceR duration prePostRotation name
    (uniformPulses (xConcatenatedOffsets duration l) (lit 0))

/-- `predefined.py:950-1127` `new_xy_concatenated_sequence` -/
def newXYConcatenatedSequenceR (duration concatenationOrder : α) (prePostRotation : Bool)
    (name : Option String) : Except (Raised α) (Sequence α) := do
  checkDurationR duration
  checkR (ge concatenationOrder (lit 1)) "Concatenation oder must be greater than zero."
    [("concatenation_order", .num concatenationOrder)] none
  let l ← liftR (pyInt concatenationOrder)
  finishSequenceR duration prePostRotation name (xyConcatenatedPulses duration l)

/-- `dynamic_decoupling_sequence.py:267-520` `convert_dds_to_driven_control` -/
def convertDDSR (s : Sequence α)
    (maximumRabiRate maximumDetuningRate minimumSegmentDuration : α) (name : Option String) :
    Except (Raised α) (DrivenControl α) := do
  -- lines 331-346
  checkR (gt maximumDetuningRate (lit 0)) "Maximum detuning rate must be positive."
    [("maximum_detuning_rate", .num maximumDetuningRate)] none
  checkR (gt maximumRabiRate (lit 0)) "Maximum rabi rate must be positive."
    [("maximum_rabi_rate", .num maximumRabiRate)] none
  checkR (ge minimumSegmentDuration (lit 0))
    "Minimum segment duration must be greater than or equal to 0."
    [("minimum_segment_duration", .num minimumSegmentDuration)] none
  -- lines 354-359
  checkR (s.rabiRotations.all fun r => ge r (lit 0))
    "Sequence contains negative values for Rabi rotations."
    [("dynamic_decoupling_sequence", .sequence s)] none
  -- lines 361-373
  checkR (checkValidOperation s.rabiRotations s.detuningRotations)
    "Sequence operation includes rabi rotation and detuning rotation at the same instance."
    [("dynamic_decoupling_sequence", .sequence s)]
    (some [("maximum_rabi_rate", .num maximumRabiRate), ("maximum_detuning_rate", .num maximumDetuningRate)])
  -- lines 375-390 and 402-409
  let operations := padOperations s.duration
    (operationsOf s.offsets s.rabiRotations s.azimuthalAngles s.detuningRotations)
  -- lines 392-400 (`if ...: raise`, as a check)
  checkR (!(npDiff (operations.map Operation.offset)).any (fun d => le d (lit 0)))
    ("Pulse timing could not be properly deduced from the sequence offsets." ++
      " Make sure all offsets are in increasing order.")
    [("dynamic_decoupling_sequence", .sequence s)]
    (some [("offsets", .arr (operations.map Operation.offset))])
  -- lines 411-439
  let startEnds := shiftLast s.duration (shiftFirst (operations.map
    (pulseStartEnd maximumRabiRate maximumDetuningRate minimumSegmentDuration)))
  -- lines 441-465 (`if not ...: raise`, as a check)
  checkR ((gapDurations startEnds).all (fun g =>
      gt g minimumSegmentDuration || isClose g minimumSegmentDuration))
    ("Distance between pulses does not respect minimum_segment_duration." ++
      (" Try decreasing the minimum_segment_duration or increasing " ++
        "the maximum_rabi_rate or the maximum_detuning_rate."))
    [("dynamic_decoupling_sequence", .sequence s), ("maximum_rabi_rate", .num maximumRabiRate),
      ("maximum_detuning_rate", .num maximumDetuningRate),
      ("minimum_segment_duration", .num minimumSegmentDuration)]
    (some [("deduced_pulse_start_timing", .arr (startEnds.map Prod.fst)),
      ("deduced_pulse_end_timing", .arr (startEnds.map Prod.snd)),
      ("gap_durations", .arr (gapDurations startEnds))])
  -- lines 467-475
  if startEnds.all (fun p => isClose p.1 (lit 0) && isClose p.2 (lit 0)) then
    DrivenControl.newR (durations := [s.duration]) (rabiRates := some [lit 0])
      (azimuthalAngles := some [lit 0]) (detunings := some [lit 0]) (name := name)
  else
    -- lines 477-512
    let segments := (buildSegments (operations.zip startEnds)).filter
      fun g => gt g.duration (lit 0)
    -- lines 514-520
    DrivenControl.newR (durations := segments.map Segment.duration)
      (rabiRates := some (segments.map Segment.rabi))
      (azimuthalAngles := some (segments.map Segment.azimuthal))
      (detunings := some (segments.map Segment.detuning)) (name := name)

/-- `driven_control.py:509-572` `export` -/
def DrivenControl.exportPlotR (c : DrivenControl α) (coordinates : String) (dimensionless : Bool) :
    Except (Raised α) (PlotData α) := do
  -- lines 534-538
  checkR (coordinateSystems.contains coordinates) "Unsupported coordinates provided: "
    [("coordinates", .str coordinates)] none
  -- lines 540-543
  let normalizer ← liftR (if dimensionless then c.maximumRabiRate else .ok (lit 1))
  -- lines 547-552
  let plotX := c.amplitudeX.map fun x => x / normalizer
  let plotY := c.amplitudeY.map fun y => y / normalizer
  let plotR := c.rabiRates.map fun r => r / normalizer
  -- lines 554-570
  return {
    xAmplitude := if coordinates == "cartesian" then
      some (List.zipWith (fun v t => ⟨v, t⟩) plotX c.durations) else none
    yAmplitude := if coordinates == "cartesian" then
      some (List.zipWith (fun v t => ⟨v, t⟩) plotY c.durations) else none
    rabiRate := if coordinates == "cylindrical" then
      some (List.zipWith (fun v t => ⟨v, t⟩)
        (List.zipWith (fun r theta => cis r theta) plotR c.azimuthalAngles) c.durations) else none
    detuning := List.zipWith (fun v t => ⟨v, t⟩) c.detunings c.durations }

/-- `driven_control.py:412-507` `DrivenControl.export_to_file`: the result of the call, without the file. -/
def DrivenControl.exportToFileR (c : DrivenControl α) (fs : FileSystem α)
    (filename fileFormat fileType coordinates : String) : Except (Raised α) Unit := do
  -- lines 483-488
  checkR (fileFormats.contains fileFormat)
    ("Requested file format is not supported." ++ " Please use one of ['Q-CTRL expanded']")
    [("file_format", .str fileFormat)] none
  -- lines 490-495
  checkR (fileTypes.contains fileType)
    ("Requested file type is not supported." ++ " Please use one of ['JSON', 'CSV']")
    [("file_type", .str fileType)] none
  -- lines 497-502
  checkR (coordinateSystems.contains coordinates)
    ("Requested coordinate type is not supported." ++ " Please use one of ['cartesian', 'cylindrical']")
    [("coordinates", .str coordinates)] none
  -- lines 504-507
  if fileFormat == "Q-CTRL expanded" then liftR (c.exportExpanded fs filename fileType coordinates).1
  else pure ()

/-- `dynamic_decoupling_sequence.py:211-264` `DynamicDecouplingSequence.export_to_file`: the result of the call -/
def Sequence.exportToFileR (s : Sequence α) (fs : FileSystem α)
    (filename fileFormat fileType coordinates : String) (maximumRabiRate maximumDetuningRate : α) :
    Except (Raised α) Unit := do
  let c ← convertDDSR s maximumRabiRate maximumDetuningRate (lit 0) s.name
  c.exportToFileR fs filename fileFormat fileType coordinates

end OpenControls
