import Verif.Model.ArrayLimits
import Verif.Model.DrivenPredefined

/-!
# The modulated Gaussian control called with arrays

`new_modulated_gaussian_control` where all four arguments are numpy arrays of floats of any shape; a number is an array without axes.
-/

namespace OpenControls

open PyFloat Py NdArray

variable {α : Type} [Add α] [Sub α] [Mul α] [Div α] [Neg α] [PyFloat α]

/-- the truth value of the array of the comparisons of two arrays, item by item with broadcasting
(`driven_controls/predefined.py:1021, 1034`) -/
def NdArray.truthBoth (p : α → α → Bool) (a b : NdArray α) : Except PyErr Bool :=
  match broadcast a.shape.reverse b.shape.reverse with
  | none => .error (.valueError "operands could not be broadcast together")
  | some s =>
    match (List.range s.prod).filterMap fun m =>
      (a.data[ravel a.shape.reverse (unravel s m)]?).bind fun x =>
        (b.data[ravel b.shape.reverse (unravel s m)]?).map fun y => p x y with
    | [] => .ok false
    | [q] => .ok q
    | _ => .error (.valueError "The truth value of an array with more than one element is ambiguous.")

/-- `predefined.py:1092`: `[0 if v >= 0 else np.pi for v in a]` iterates over the first axis and takes the truth value of each item -/
def signArrays (a : NdArray α) : Except PyErr (List α) :=
  match a.shape with
  | [] => .error (.typeError "iteration over a 0-d array")
  | n :: rest =>
    if n = 0 then .ok []
    else if rest.prod = 1 then .ok (a.data.map fun v => if ge v (lit 0) then lit 0 else PyFloat.pi)
    else if rest.prod = 0 then .ok (List.replicate n PyFloat.pi)
    else .error (.valueError "The truth value of an array with more than one element is ambiguous.")

/-- `predefined.py:1046-1047`: the midpoints of the segments -/
def midpointArrays (segmentCount : Nat) (segmentDuration : NdArray α) : Except PyErr (NdArray α) := do
  let starts ← bin (· * ·) (vec ((List.range segmentCount).map fun i => nat i)) segmentDuration
  bin (· + ·) starts (un (fun d => d / lit 2) segmentDuration)

/-- `predefined.py:1049-1054`: the base Gaussian -/
def baseArrays (duration midpoints : NdArray α) : Except PyErr (NdArray α) := do
  let distance ← bin (· - ·) midpoints (un (fun d => lit (1 / 2) * d) duration)
  let z ← bin (· / ·) distance (un (fun d => lit (1 / 10) * d) duration)
  return un (fun z => exp (lit (-1 / 2) * (z * z))) z

/-- `predefined.py:1056-1071`: non-zero modulation frequency -/
def modulatedArrays (maximumRabiRate duration modulationFrequency midpoints base : NdArray α) : Except PyErr (NdArray α) := do
  -- lines 1060-1064
  let distance ← bin (· - ·) midpoints (un (fun d => d / lit 2) duration)
  let phase ← bin (· * ·) (un (fun f => lit 2 * PyFloat.pi * f) modulationFrequency) distance
  let modulated ← bin (· * ·) base (un sin phase)
  -- lines 1067-1071
  let m ← npAmax modulated.data
  let scaled ← bin (· * ·) maximumRabiRate modulated
  return un (fun v => v / m) scaled

/-- `predefined.py:1077-1090`: zero modulation frequency -/
def unmodulatedArrays (maximumRabiRate segmentDuration base : NdArray α) : Except PyErr (NdArray α) := do
  let m ← npAmax base.data
  let normalized := un (fun g => g / m) base
  let maximumRotationAngle ← bin (· * ·) (un (fun d => d * PyFloat.sum normalized.data) segmentDuration) maximumRabiRate
  let maximumFullRotationAngle ← maxArrays
    (un (fun a => a - mod a (lit 2 * PyFloat.pi)) maximumRotationAngle) ⟨[], [lit 2 * PyFloat.pi]⟩
  let scaled ← bin (· * ·) normalized maximumRabiRate
  let ratio ← bin (· / ·) maximumFullRotationAngle maximumRotationAngle
  bin (· * ·) scaled ratio

/-- `predefined.py:976-1099` `new_modulated_gaussian_control` -/
def newModulatedGaussianArrays (maximumRabiRate minimumSegmentDuration duration modulationFrequency : NdArray α) :
    Except PyErr (NdControl α) := do
  -- lines 1008-1024
  let positive ← maximumRabiRate.truth fun r => gt r (lit 0)
  checkArguments positive "Maximum Rabi rate must be greater than zero."
  let positive ← minimumSegmentDuration.truth fun m => gt m (lit 0)
  checkArguments positive "Minimum segment duration must be greater than zero."
  let longer ← truthBoth gt duration minimumSegmentDuration
  checkArguments longer "Total duration must be greater than minimum segment duration."
  -- lines 1026-1041
  let enough ← truthBoth ge maximumRabiRate (un (fun d => sqrt (lit 2 * PyFloat.pi) / (lit (1 / 10) * d)) duration)
  checkArguments enough "Maximum Rabi rate must be large enough to permit a 2Pi rotation."
  -- lines 1043-1047
  let ratio ← bin (· / ·) duration minimumSegmentDuration
  let ratio ← ratio.stored
  let segmentCount ← pyCeil ratio
  let segmentDuration := un (fun d => d / nat segmentCount) duration
  let midpoints ← midpointArrays segmentCount segmentDuration
  -- lines 1049-1054
  let base ← baseArrays duration midpoints
  -- lines 1056-1090
  let modulates ← modulationFrequency.truth fun f => ne f (lit 0)
  let segments ← (if modulates
    then modulatedArrays maximumRabiRate duration modulationFrequency midpoints base
    else unmodulatedArrays maximumRabiRate segmentDuration base)
  -- line 1092
  let azimuthalAngles ← signArrays segments
  -- lines 1094-1099
  NdControl.new (stack duration.shape (List.replicate segmentCount segmentDuration.data))
    (some (un PyFloat.abs segments)) (some (vec azimuthalAngles)) (some (vec (List.replicate segmentCount (lit 0)))) none

end OpenControls
