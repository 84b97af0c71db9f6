import Verif.Model.DrivenControl

/-!
# Model of `qctrlopencontrols/driven_controls/predefined.py`
-/

namespace OpenControls

open PyFloat Py

variable {α : Type} [Add α] [Sub α] [Mul α] [Div α] [Neg α] [PyFloat α]

/-- `predefined.py:30-53` `_validate_rabi_parameters` -/
def validateRabiParameters (rabiRotation maximumRabiRate : α) : Except PyErr Unit := do
  checkArguments (gt maximumRabiRate (lit 0))
    "Maximum rabi angular frequency should be greater than zero."
  checkArguments (ne rabiRotation (lit 0)) "The rabi rotation must be non-zero."

/-- `predefined.py:56-79` `_get_transformed_rabi_rotation_wimperis` -/
def transformedRabiRotationWimperis (rabiRotation : α) : Except PyErr α := do
  checkArguments (le (lit (-4) * PyFloat.pi) rabiRotation && le rabiRotation (lit 4 * PyFloat.pi))
    "The polar angle must be between -4 pi and 4 pi (inclusive)."
  return arccos (-rabiRotation / (lit 4 * PyFloat.pi))

/-- `predefined.py:82-84`: the default of the argument `amplitude` of `_derive_segments` -/
def defaultAmplitude : α := lit 2 * PyFloat.pi

/-- `predefined.py:82-110` `_derive_segments` (called by nothing in the repository). Each returned
4-list `[amplitude cos φ, amplitude sin φ, 0, θ / amplitude]` is modelled as a 4-tuple; `angles` is
given by its rows. -/
def deriveSegments (angles : List (α × α)) (amplitude : α := defaultAmplitude) :
    List (α × α × α × α) :=
  angles.map fun (theta, phi) =>
    (amplitude * PyFloat.cos phi, amplitude * PyFloat.sin phi, lit 0, theta / amplitude)

/-- `predefined.py:113-158` `new_primitive_control` -/
def newPrimitiveControl (rabiRotation maximumRabiRate azimuthalAngle : α) (name : Option String) :
    Except PyErr (DrivenControl α) := do
  validateRabiParameters rabiRotation maximumRabiRate
  DrivenControl.new (durations := [rabiRotation / maximumRabiRate])
    (rabiRates := some [maximumRabiRate]) (azimuthalAngles := some [azimuthalAngle])
    (detunings := some [lit 0]) (name := name)

/-- `predefined.py:161-235` `new_bb1_control` -/
def newBB1Control (rabiRotation maximumRabiRate azimuthalAngle : α) (name : Option String) :
    Except PyErr (DrivenControl α) := do
  validateRabiParameters rabiRotation maximumRabiRate
  let phiP ← transformedRabiRotationWimperis rabiRotation
  let rabiRotations := [rabiRotation, PyFloat.pi, lit 2 * PyFloat.pi, PyFloat.pi]
  let rabiRates := List.replicate 4 maximumRabiRate
  let azimuthalAngles := [azimuthalAngle, azimuthalAngle + phiP, azimuthalAngle + lit 3 * phiP,
    azimuthalAngle + phiP]
  let detunings := List.replicate 4 (lit 0)
  let durations := rabiRotations.map fun r => r / maximumRabiRate
  DrivenControl.new (durations := durations) (rabiRates := some rabiRates)
    (azimuthalAngles := some azimuthalAngles) (detunings := some detunings) (name := name)

/-- `predefined.py:238-314` `new_sk1_control` -/
def newSK1Control (rabiRotation maximumRabiRate azimuthalAngle : α) (name : Option String) :
    Except PyErr (DrivenControl α) := do
  validateRabiParameters rabiRotation maximumRabiRate
  let phiP ← transformedRabiRotationWimperis rabiRotation
  let rabiRotations := [rabiRotation, lit 2 * PyFloat.pi, lit 2 * PyFloat.pi]
  let rabiRates := List.replicate 3 maximumRabiRate
  let azimuthalAngles := [azimuthalAngle, azimuthalAngle - phiP, azimuthalAngle + phiP]
  let detunings := List.replicate 3 (lit 0)
  let durations := rabiRotations.map fun r => r / maximumRabiRate
  DrivenControl.new (durations := durations) (rabiRates := some rabiRates)
    (azimuthalAngles := some azimuthalAngles) (detunings := some detunings) (name := name)

/-- `predefined.py:383-384` and `829-830` `degrees_to_radians` -/
def degreesToRadians (angleInDegrees : α) : α := angleInDegrees / lit 180 * PyFloat.pi

/-- `predefined.py:387`, `822`, `944`:
`np.any(np.isclose(rabi_rotation, [np.pi, np.pi / 2, np.pi / 4]))` -/
def isSupportedRotation (rabiRotation : α) : Bool :=
  [PyFloat.pi, PyFloat.pi / lit 2, PyFloat.pi / lit 4].any fun a => isClose rabiRotation a

/-- `predefined.py:392-409` and `832-849`: the tabulated `theta_1` of SCROFULOUS. -/
def scrofulousTheta1 (rabiRotation : α) : α :=
  if isClose rabiRotation PyFloat.pi then degreesToRadians (lit 180)
  else if isClose rabiRotation (lit (1 / 2) * PyFloat.pi) then degreesToRadians (lit (1152 / 10))
  else degreesToRadians (lit (967 / 10))

/-- `predefined.py:394-396` (and 400, 406, 834, 840, 846): the argument of the `arccos` giving
`phi_1`: `-np.pi * np.cos(theta_1) / 2 / theta_1 / np.sin(rabi_rotation / 2)`. -/
def scrofulousPhi1Arg (theta1 rabiRotation : α) : α :=
  -PyFloat.pi * cos theta1 / lit 2 / theta1 / sin (rabiRotation / lit 2)

/-- `predefined.py:397` (and 403, 409, ...): the argument of the second `arccos`:
`-np.pi / 2 / theta_1`. -/
def scrofulousPhi2Arg (theta1 : α) : α := -PyFloat.pi / lit 2 / theta1

/-- `predefined.py:317-434` `new_scrofulous_control`.  The three branches of lines 392-409 differ
only in `theta_1`. -/
def newScrofulousControl (rabiRotation maximumRabiRate azimuthalAngle : α) (name : Option String) :
    Except PyErr (DrivenControl α) := do
  validateRabiParameters rabiRotation maximumRabiRate
  checkArguments (isSupportedRotation rabiRotation)
    "rabi_rotation angle must be either pi, pi/2 or pi/4"
  let theta1 := scrofulousTheta1 rabiRotation
  let phi1 := arccos (scrofulousPhi1Arg theta1 rabiRotation)
  let phi2 := phi1 - arccos (scrofulousPhi2Arg theta1)
  let theta3 := theta1
  let phi3 := phi1
  let theta2 := PyFloat.pi
  let rabiRotations := [theta1, theta2, theta3]
  let rabiRates := List.replicate 3 maximumRabiRate
  let azimuthalAngles := [azimuthalAngle + phi1, azimuthalAngle + phi2, azimuthalAngle + phi3]
  let detunings := List.replicate 3 (lit 0)
  let durations := rabiRotations.map fun r => r / maximumRabiRate
  DrivenControl.new (durations := durations) (rabiRates := some rabiRates)
    (azimuthalAngles := some azimuthalAngles) (detunings := some detunings) (name := name)

/-- `predefined.py:496`, `590`, `694`, `857`: `k = np.arcsin(np.sin(theta / 2.0) / 2.0)` -/
def corpseK (theta : α) : α := arcsin (sin (theta / lit 2) / lit 2)

/-- `predefined.py:437-516` `new_corpse_control` -/
def newCorpseControl (rabiRotation maximumRabiRate azimuthalAngle : α) (name : Option String) :
    Except PyErr (DrivenControl α) := do
  validateRabiParameters rabiRotation maximumRabiRate
  let k := corpseK rabiRotation
  let rabiRotations := [rabiRotation / lit 2 + lit 2 * PyFloat.pi - k,
    lit 2 * PyFloat.pi - lit 2 * k, rabiRotation / lit 2 - k]
  let rabiRates := List.replicate 3 maximumRabiRate
  let azimuthalAngles := [azimuthalAngle, azimuthalAngle + PyFloat.pi, azimuthalAngle]
  let detunings := List.replicate 3 (lit 0)
  let durations := rabiRotations.map fun r => r / maximumRabiRate
  DrivenControl.new (durations := durations) (rabiRates := some rabiRates)
    (azimuthalAngles := some azimuthalAngles) (detunings := some detunings) (name := name)

/-- `predefined.py:519-621` `new_corpse_in_bb1_control` -/
def newCorpseInBB1Control (rabiRotation maximumRabiRate azimuthalAngle : α)
    (name : Option String) : Except PyErr (DrivenControl α) := do
  validateRabiParameters rabiRotation maximumRabiRate
  let phiP ← transformedRabiRotationWimperis rabiRotation
  let k := corpseK rabiRotation
  let rabiRotations := [lit 2 * PyFloat.pi + rabiRotation / lit 2 - k,
    lit 2 * PyFloat.pi - lit 2 * k, rabiRotation / lit 2 - k,
    PyFloat.pi, lit 2 * PyFloat.pi, PyFloat.pi]
  let rabiRates := List.replicate 6 maximumRabiRate
  let azimuthalAngles := [azimuthalAngle, azimuthalAngle + PyFloat.pi, azimuthalAngle,
    azimuthalAngle + phiP, azimuthalAngle + lit 3 * phiP, azimuthalAngle + phiP]
  let detunings := List.replicate 6 (lit 0)
  let durations := rabiRotations.map fun r => r / maximumRabiRate
  DrivenControl.new (durations := durations) (rabiRates := some rabiRates)
    (azimuthalAngles := some azimuthalAngles) (detunings := some detunings) (name := name)

/-- `predefined.py:624-723` `new_corpse_in_sk1_control` -/
def newCorpseInSK1Control (rabiRotation maximumRabiRate azimuthalAngle : α)
    (name : Option String) : Except PyErr (DrivenControl α) := do
  validateRabiParameters rabiRotation maximumRabiRate
  let phiP ← transformedRabiRotationWimperis rabiRotation
  let k := corpseK rabiRotation
  let rabiRotations := [lit 2 * PyFloat.pi + rabiRotation / lit 2 - k,
    lit 2 * PyFloat.pi - lit 2 * k, rabiRotation / lit 2 - k,
    lit 2 * PyFloat.pi, lit 2 * PyFloat.pi]
  let rabiRates := List.replicate 5 maximumRabiRate
  let azimuthalAngles := [azimuthalAngle, azimuthalAngle + PyFloat.pi, azimuthalAngle,
    azimuthalAngle - phiP, azimuthalAngle + phiP]
  let detunings := List.replicate 5 (lit 0)
  let durations := rabiRotations.map fun r => r / maximumRabiRate
  DrivenControl.new (durations := durations) (rabiRates := some rabiRates)
    (azimuthalAngles := some azimuthalAngles) (detunings := some detunings) (name := name)

/-- `predefined.py:858-864`: the three `[rotation, azimuth]` rows of one CORPSE block. -/
def corpseBlock (azimuthalAngle theta phi : α) : List (α × α) :=
  let k := corpseK theta
  [(lit 2 * PyFloat.pi + theta / lit 2 - k, phi + azimuthalAngle),
   (lit 2 * PyFloat.pi - lit 2 * k, PyFloat.pi + phi + azimuthalAngle),
   (theta / lit 2 - k, phi + azimuthalAngle)]

/-- `predefined.py:726-881` `new_corpse_in_scrofulous_control` -/
def newCorpseInScrofulousControl (rabiRotation maximumRabiRate azimuthalAngle : α)
    (name : Option String) : Except PyErr (DrivenControl α) := do
  validateRabiParameters rabiRotation maximumRabiRate
  checkArguments (isSupportedRotation rabiRotation)
    "rabi_rotation angle must be either pi, pi/2 or pi/4"
  let theta1 := scrofulousTheta1 rabiRotation
  let theta3 := theta1
  let phi1 := arccos (scrofulousPhi1Arg theta1 rabiRotation)
  let phi3 := phi1
  let phi2 := phi1 - arccos (scrofulousPhi2Arg theta1)
  let theta2 := PyFloat.pi
  let totalAngles := corpseBlock azimuthalAngle theta1 phi1 ++
    corpseBlock azimuthalAngle theta2 phi2 ++ corpseBlock azimuthalAngle theta3 phi3
  let rabiRates := List.replicate 9 maximumRabiRate
  let detunings := List.replicate 9 (lit 0)
  let durations := totalAngles.map fun a => a.1 / maximumRabiRate
  DrivenControl.new (durations := durations) (rabiRates := some rabiRates)
    (azimuthalAngles := some (totalAngles.map Prod.snd)) (detunings := some detunings)
    (name := name)

/-- `predefined.py:949-957`: `(theta_plus, theta_minus)` of WAMF1. -/
def wamf1Thetas (rabiRotation : α) : α × α :=
  if isClose rabiRotation PyFloat.pi then (PyFloat.pi, PyFloat.pi / lit 2)
  else if isClose rabiRotation (lit (1 / 2) * PyFloat.pi) then
    (PyFloat.pi * (lit (5 / 2) + lit (65667825 / 100000000)) / lit 4,
     PyFloat.pi * (lit (5 / 2) - lit (65667825 / 100000000)) / lit 4)
  else
    (PyFloat.pi * (lit (9 / 4) + lit (36256159 / 100000000)) / lit 4,
     PyFloat.pi * (lit (9 / 4) - lit (36256159 / 100000000)) / lit 4)

/-- `predefined.py:884-973` `new_wamf1_control` -/
def newWamf1Control (rabiRotation maximumRabiRate azimuthalAngle : α) (name : Option String) :
    Except PyErr (DrivenControl α) := do
  validateRabiParameters rabiRotation maximumRabiRate
  checkArguments (isSupportedRotation rabiRotation)
    "rabi_rotation angle must be either pi, pi/2 or pi/4"
  let thetaPlus := (wamf1Thetas rabiRotation).1
  let thetaMinus := (wamf1Thetas rabiRotation).2
  let rabiRotations := [thetaPlus, thetaMinus, thetaMinus, thetaPlus]
  let segmentDuration := thetaPlus / maximumRabiRate
  let rabiRates := rabiRotations.map fun r => r / segmentDuration
  let azimuthalAngles := List.replicate 4 azimuthalAngle
  let detunings := List.replicate 4 (lit 0)
  let durations := List.replicate 4 segmentDuration
  DrivenControl.new (durations := durations) (rabiRates := some rabiRates)
    (azimuthalAngles := some azimuthalAngles) (detunings := some detunings) (name := name)

/-- `predefined.py:1046-1047`: segment midpoints, `np.arange(n) * d + d / 2` -/
def gaussianMidpoints (segmentCount : Nat) (segmentDuration : α) : List α :=
  (List.range segmentCount).map fun i => nat i * segmentDuration + segmentDuration / lit 2

/-- `predefined.py:1049-1054`: the base Gaussian at the midpoints. -/
def baseGaussian (duration : α) (midpoints : List α) : List α :=
  let gaussianMean := lit (1 / 2) * duration
  let gaussianWidth := lit (1 / 10) * duration
  midpoints.map fun t =>
    let z := (t - gaussianMean) / gaussianWidth
    exp (lit (-1 / 2) * (z * z))

/-- `predefined.py:1056-1071`: the branch with a non-zero modulation frequency, normalised to the
maximum Rabi rate. -/
def modulatedSegments (maximumRabiRate duration modulationFrequency : α) (midpoints base : List α) :
    Except PyErr (List α) := do
  -- lines 1060-1064
  let signals := midpoints.map fun t =>
    sin (lit 2 * PyFloat.pi * modulationFrequency * (t - duration / lit 2))
  let modulated := List.zipWith (fun g s => g * s) base signals
  -- lines 1067-1071
  let m ← npAmax modulated
  return modulated.map fun v => maximumRabiRate * v / m

/-- `predefined.py:1077-1090`: the branch with zero modulation frequency, scaled to a full
rotation. -/
def unmodulatedSegments (maximumRabiRate segmentDuration : α) (base : List α) :
    Except PyErr (List α) := do
  let m ← npAmax base
  let normalized := base.map fun g => g / m
  let maximumRotationAngle := segmentDuration * PyFloat.sum normalized * maximumRabiRate
  let maximumFullRotationAngle := pyMax
    (maximumRotationAngle - mod maximumRotationAngle (lit 2 * PyFloat.pi)) (lit 2 * PyFloat.pi)
  return normalized.map fun g =>
    g * maximumRabiRate * (maximumFullRotationAngle / maximumRotationAngle)

/-- `predefined.py:976-1099` `new_modulated_gaussian_control` -/
def newModulatedGaussianControl
    (maximumRabiRate minimumSegmentDuration duration modulationFrequency : α) :
    Except PyErr (DrivenControl α) := do
  -- lines 1008-1024
  checkArguments (gt maximumRabiRate (lit 0)) "Maximum Rabi rate must be greater than zero."
  checkArguments (gt minimumSegmentDuration (lit 0))
    "Minimum segment duration must be greater than zero."
  checkArguments (gt duration minimumSegmentDuration)
    "Total duration must be greater than minimum segment duration."
  -- lines 1026-1041
  let minRequiredUpperBound := sqrt (lit 2 * PyFloat.pi) / (lit (1 / 10) * duration)
  checkArguments (ge maximumRabiRate minRequiredUpperBound)
    "Maximum Rabi rate must be large enough to permit a 2Pi rotation."
  -- lines 1043-1047
  let segmentCount ← pyCeil (duration / minimumSegmentDuration)
  let segmentDuration := duration / nat segmentCount
  let midpoints := gaussianMidpoints segmentCount segmentDuration
  -- lines 1049-1054
  let base := baseGaussian duration midpoints
  -- lines 1056-1090
  let segments ← (if ne modulationFrequency (lit 0)
    then modulatedSegments maximumRabiRate duration modulationFrequency midpoints base
    else unmodulatedSegments maximumRabiRate segmentDuration base)
  -- line 1092
  let azimuthalAngles := segments.map fun v => if ge v (lit 0) then lit 0 else PyFloat.pi
  -- lines 1094-1099
  DrivenControl.new (durations := List.replicate segmentCount segmentDuration)
    (rabiRates := some (segments.map PyFloat.abs)) (azimuthalAngles := some azimuthalAngles)
    (detunings := some (List.replicate segmentCount (lit 0))) (name := none)

end OpenControls
