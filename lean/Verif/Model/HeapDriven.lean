import Verif.Model.HeapPredefined
import Verif.Model.DrivenPredefined

/-!
# Statement-level model of `qctrlopencontrols/driven_controls/predefined.py`

The predefined driven controls over the heap of `Verif/Model/Heap.lean`: which arrays are created, in which order,
and which of them are handed to the constructor.

Simplifications: as in `Verif/Model/Heap.lean`; Python lists of numbers are values, so a function that only builds
lists creates no array before it calls the constructor; a column `a[:, j]` (a view in numpy, of an array no other
variable refers to after the call) is a new array.
-/

namespace OpenControls

open PyFloat Py PyM

variable {α : Type} [Add α] [Sub α] [Mul α] [Div α] [Neg α] [PyFloat α]

/-- the constructor call at the end of the functions that build four lists (e.g. `predefined.py:229-235`) -/
def controlFromLists (rabiRates azimuthalAngles detunings durations : List α) (name : Option String) :
    PyM α ControlObj :=
  newControlH (.list durations) (some (.list rabiRates)) (some (.list azimuthalAngles))
    (some (.list detunings)) name

/-- `predefined.py:113-158` `new_primitive_control` -/
def newPrimitiveH (rabiRotation maximumRabiRate azimuthalAngle : α) (name : Option String) :
    PyM α ControlObj := do
  lift (validateRabiParameters rabiRotation maximumRabiRate)
  controlFromLists [maximumRabiRate] [azimuthalAngle] [lit 0] [rabiRotation / maximumRabiRate] name

/-- `predefined.py:161-235` `new_bb1_control` -/
def newBB1H (rabiRotation maximumRabiRate azimuthalAngle : α) (name : Option String) :
    PyM α ControlObj := do
  lift (validateRabiParameters rabiRotation maximumRabiRate)
  let phiP ← lift (transformedRabiRotationWimperis rabiRotation)
  let rabiRotations := [rabiRotation, PyFloat.pi, lit 2 * PyFloat.pi, PyFloat.pi]
  controlFromLists (List.replicate 4 maximumRabiRate)
    [azimuthalAngle, azimuthalAngle + phiP, azimuthalAngle + lit 3 * phiP, azimuthalAngle + phiP]
    (List.replicate 4 (lit 0)) (rabiRotations.map fun r => r / maximumRabiRate) name

/-- `predefined.py:238-314` `new_sk1_control` -/
def newSK1H (rabiRotation maximumRabiRate azimuthalAngle : α) (name : Option String) :
    PyM α ControlObj := do
  lift (validateRabiParameters rabiRotation maximumRabiRate)
  let phiP ← lift (transformedRabiRotationWimperis rabiRotation)
  let rabiRotations := [rabiRotation, lit 2 * PyFloat.pi, lit 2 * PyFloat.pi]
  controlFromLists (List.replicate 3 maximumRabiRate)
    [azimuthalAngle, azimuthalAngle - phiP, azimuthalAngle + phiP]
    (List.replicate 3 (lit 0)) (rabiRotations.map fun r => r / maximumRabiRate) name

/-- `predefined.py:317-434` `new_scrofulous_control` -/
def newScrofulousH (rabiRotation maximumRabiRate azimuthalAngle : α) (name : Option String) :
    PyM α ControlObj := do
  lift (validateRabiParameters rabiRotation maximumRabiRate)
  check (isSupportedRotation rabiRotation) "rabi_rotation angle must be either pi, pi/2 or pi/4"
  let theta1 := scrofulousTheta1 rabiRotation
  let phi1 := arccos (scrofulousPhi1Arg theta1 rabiRotation)
  let phi2 := phi1 - arccos (scrofulousPhi2Arg theta1)
  let theta3 := theta1
  let phi3 := phi1
  let theta2 := PyFloat.pi
  let rabiRotations := [theta1, theta2, theta3]
  controlFromLists (List.replicate 3 maximumRabiRate)
    [azimuthalAngle + phi1, azimuthalAngle + phi2, azimuthalAngle + phi3]
    (List.replicate 3 (lit 0)) (rabiRotations.map fun r => r / maximumRabiRate) name

/-- `predefined.py:437-516` `new_corpse_control` -/
def newCorpseH (rabiRotation maximumRabiRate azimuthalAngle : α) (name : Option String) :
    PyM α ControlObj := do
  lift (validateRabiParameters rabiRotation maximumRabiRate)
  let k := corpseK rabiRotation
  let rabiRotations := [rabiRotation / lit 2 + lit 2 * PyFloat.pi - k,
    lit 2 * PyFloat.pi - lit 2 * k, rabiRotation / lit 2 - k]
  controlFromLists (List.replicate 3 maximumRabiRate)
    [azimuthalAngle, azimuthalAngle + PyFloat.pi, azimuthalAngle]
    (List.replicate 3 (lit 0)) (rabiRotations.map fun r => r / maximumRabiRate) name

/-- `predefined.py:519-621` `new_corpse_in_bb1_control` -/
def newCorpseInBB1H (rabiRotation maximumRabiRate azimuthalAngle : α) (name : Option String) :
    PyM α ControlObj := do
  lift (validateRabiParameters rabiRotation maximumRabiRate)
  let phiP ← lift (transformedRabiRotationWimperis rabiRotation)
  let k := corpseK rabiRotation
  let rabiRotations := [lit 2 * PyFloat.pi + rabiRotation / lit 2 - k,
    lit 2 * PyFloat.pi - lit 2 * k, rabiRotation / lit 2 - k,
    PyFloat.pi, lit 2 * PyFloat.pi, PyFloat.pi]
  controlFromLists (List.replicate 6 maximumRabiRate)
    [azimuthalAngle, azimuthalAngle + PyFloat.pi, azimuthalAngle,
      azimuthalAngle + phiP, azimuthalAngle + lit 3 * phiP, azimuthalAngle + phiP]
    (List.replicate 6 (lit 0)) (rabiRotations.map fun r => r / maximumRabiRate) name

/-- `predefined.py:624-723` `new_corpse_in_sk1_control` -/
def newCorpseInSK1H (rabiRotation maximumRabiRate azimuthalAngle : α) (name : Option String) :
    PyM α ControlObj := do
  lift (validateRabiParameters rabiRotation maximumRabiRate)
  let phiP ← lift (transformedRabiRotationWimperis rabiRotation)
  let k := corpseK rabiRotation
  let rabiRotations := [lit 2 * PyFloat.pi + rabiRotation / lit 2 - k,
    lit 2 * PyFloat.pi - lit 2 * k, rabiRotation / lit 2 - k,
    lit 2 * PyFloat.pi, lit 2 * PyFloat.pi]
  controlFromLists (List.replicate 5 maximumRabiRate)
    [azimuthalAngle, azimuthalAngle + PyFloat.pi, azimuthalAngle,
      azimuthalAngle - phiP, azimuthalAngle + phiP]
    (List.replicate 5 (lit 0)) (rabiRotations.map fun r => r / maximumRabiRate) name

/-- `predefined.py:856-865`: one pass of the loop, which creates a 3 × 2 array (row-major) and appends it to
`_total_angles` -/
def corpseBlockH (azimuthalAngle : α) (totalAngles : List Ref) (thetaPhi : α × α) : PyM α (List Ref) := do
  let k := corpseK thetaPhi.1
  let angles ← alloc
    [lit 2 * PyFloat.pi + thetaPhi.1 / lit 2 - k, thetaPhi.2 + azimuthalAngle,
     lit 2 * PyFloat.pi - lit 2 * k, PyFloat.pi + thetaPhi.2 + azimuthalAngle,
     thetaPhi.1 / lit 2 - k, thetaPhi.2 + azimuthalAngle]
  pure (totalAngles ++ [angles])

/-- `predefined.py:867` `np.vstack` of arrays with two columns -/
def vstackH (rs : List Ref) : PyM α Ref := do
  let items ← rs.foldlM (fun items r => do let xs ← load r; pure (items ++ xs)) []
  alloc items

/-- `predefined.py:868`, `871`: column `j` of an array with two columns -/
def columnOf (j : Nat) (xs : List α) : List α :=
  (List.range (xs.length / 2)).filterMap fun i => xs[2 * i + j]?

/-- `predefined.py:726-881` `new_corpse_in_scrofulous_control` -/
def newCorpseInScrofulousH (rabiRotation maximumRabiRate azimuthalAngle : α) (name : Option String) :
    PyM α ControlObj := do
  lift (validateRabiParameters rabiRotation maximumRabiRate)
  check (isSupportedRotation rabiRotation) "rabi_rotation angle must be either pi, pi/2 or pi/4"
  let theta1 := scrofulousTheta1 rabiRotation
  let theta3 := theta1
  let phi1 := arccos (scrofulousPhi1Arg theta1 rabiRotation)
  let phi3 := phi1
  let phi2 := phi1 - arccos (scrofulousPhi2Arg theta1)
  let theta2 := PyFloat.pi
  -- lines 853-865
  let blocks ← [(theta1, phi1), (theta2, phi2), (theta3, phi3)].foldlM (corpseBlockH azimuthalAngle) []
  -- lines 867-871
  let totalAngles ← vstackH blocks
  let xs ← load totalAngles
  let rabiRotations ← alloc (columnOf 0 xs)
  let azimuthalAngles ← alloc (columnOf 1 xs)
  -- line 873: the comprehension iterates over the array
  let rotations ← load rabiRotations
  newControlH (.list (rotations.map fun r => r / maximumRabiRate))
    (some (.list (List.replicate 9 maximumRabiRate))) (some (.array azimuthalAngles))
    (some (.list (List.replicate 9 (lit 0)))) name

/-- `predefined.py:884-973` `new_wamf1_control` -/
def newWamf1H (rabiRotation maximumRabiRate azimuthalAngle : α) (name : Option String) :
    PyM α ControlObj := do
  lift (validateRabiParameters rabiRotation maximumRabiRate)
  check (isSupportedRotation rabiRotation) "rabi_rotation angle must be either pi, pi/2 or pi/4"
  let thetaPlus := (wamf1Thetas rabiRotation).1
  let thetaMinus := (wamf1Thetas rabiRotation).2
  let rabiRotations := [thetaPlus, thetaMinus, thetaMinus, thetaPlus]
  let segmentDuration := thetaPlus / maximumRabiRate
  controlFromLists (rabiRotations.map fun r => r / segmentDuration) (List.replicate 4 azimuthalAngle)
    (List.replicate 4 (lit 0)) (List.replicate 4 segmentDuration) name

/-- `predefined.py:1056-1071`: the branch with a non-zero modulation frequency -/
def modulatedSegmentsH (maximumRabiRate duration modulationFrequency : α) (midpoints base : Ref) :
    PyM α Ref := do
  -- lines 1060-1062
  let t ← load midpoints
  let signals ← alloc (t.map fun t =>
    sin (lit 2 * PyFloat.pi * modulationFrequency * (t - duration / lit 2)))
  -- line 1064
  let g ← load base
  let s ← load signals
  let modulated ← alloc (List.zipWith (fun g s => g * s) g s)
  -- lines 1067-1071
  let v ← load modulated
  let m ← lift (npAmax v)
  alloc (v.map fun v => maximumRabiRate * v / m)

/-- `predefined.py:1077-1090`: the branch with zero modulation frequency -/
def unmodulatedSegmentsH (maximumRabiRate segmentDuration : α) (base : Ref) : PyM α Ref := do
  -- lines 1077-1079
  let g ← load base
  let m ← lift (npAmax g)
  let normalized ← alloc (g.map fun g => g / m)
  -- lines 1080-1090
  let n ← load normalized
  let maximumRotationAngle := segmentDuration * PyFloat.sum n * maximumRabiRate
  let maximumFullRotationAngle := pyMax
    (maximumRotationAngle - mod maximumRotationAngle (lit 2 * PyFloat.pi)) (lit 2 * PyFloat.pi)
  alloc (n.map fun g => g * maximumRabiRate * (maximumFullRotationAngle / maximumRotationAngle))

/-- `predefined.py:976-1099` `new_modulated_gaussian_control` -/
def newModulatedGaussianH
    (maximumRabiRate minimumSegmentDuration duration modulationFrequency : α) : PyM α ControlObj := do
  -- lines 1008-1024
  check (gt maximumRabiRate (lit 0)) "Maximum Rabi rate must be greater than zero."
  check (gt minimumSegmentDuration (lit 0)) "Minimum segment duration must be greater than zero."
  check (gt duration minimumSegmentDuration)
    "Total duration must be greater than minimum segment duration."
  -- lines 1032-1041
  let minRequiredUpperBound := sqrt (lit 2 * PyFloat.pi) / (lit (1 / 10) * duration)
  check (ge maximumRabiRate minRequiredUpperBound)
    "Maximum Rabi rate must be large enough to permit a 2Pi rotation."
  -- lines 1043-1047
  let segmentCount ← lift (pyCeil (duration / minimumSegmentDuration))
  let segmentDuration := duration / nat segmentCount
  let startTimes ← alloc ((List.range segmentCount).map fun i => nat i * segmentDuration)
  let t ← load startTimes
  let midpoints ← alloc (t.map fun t => t + segmentDuration / lit 2)
  -- lines 1049-1054
  let gaussianMean := lit (1 / 2) * duration
  let gaussianWidth := lit (1 / 10) * duration
  let t ← load midpoints
  let base ← alloc (t.map fun t =>
    let z := (t - gaussianMean) / gaussianWidth
    exp (lit (-1 / 2) * (z * z)))
  -- lines 1056-1090
  let segments ← (if ne modulationFrequency (lit 0)
    then modulatedSegmentsH maximumRabiRate duration modulationFrequency midpoints base
    else unmodulatedSegmentsH maximumRabiRate segmentDuration base)
  -- line 1092
  let v ← load segments
  let azimuthalAngles := v.map fun v => if ge v (lit 0) then lit 0 else PyFloat.pi
  -- lines 1094-1099
  let rabiRates ← alloc (v.map PyFloat.abs)
  let detunings ← alloc (List.replicate segmentCount (lit 0))
  let durations ← alloc (List.replicate segmentCount segmentDuration)
  newControlH (.array durations) (some (.array rabiRates)) (some (.list azimuthalAngles))
    (some (.array detunings)) none

end OpenControls
