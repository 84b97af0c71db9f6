import Verif.FloatInst
import Verif.Model.DrivenPredefined
import Verif.Model.SequencePredefined
import Verif.Model.FileText
import Verif.Spec.FileText
import Verif.Model.FloatRepr
import Verif.Spec.FloatRepr

/-!
# The repository's own unit-test expectations, run against the model in IEEE doubles

These are tests of the transcription (`#guard` only evaluates), not proofs.  Each block names the
test of `/repo/tests` it ports.
-/

namespace OpenControls.Tests

/-- `np.allclose` -/
def close (a b : List Float) : Bool :=
  a.length == b.length && (List.zipWith (fun x y => decide ((x - y).abs ≤ 1e-8 + 1e-5 * y.abs)) a b).all id

def π : Float := 3.141592653589793

/-- Does the call succeed with these four arrays? -/
def isControl (r : Except PyErr (DrivenControl Float)) (ax ay det dur : List Float) : Bool :=
  match r with
  | .ok c => close c.amplitudeX ax && close c.amplitudeY ay && close c.detunings det &&
      close c.durations dur
  | .error _ => false

def isSequence (r : Except PyErr (Sequence Float)) (o r' a d : List Float) : Bool :=
  match r with
  | .ok s => close s.offsets o && close s.rabiRotations r' && close s.azimuthalAngles a &&
      close s.detuningRotations d
  | .error _ => false

def raises {β : Type} (r : Except PyErr β) : Bool :=
  match r with
  | .ok _ => false
  | .error e => e.isArguments

-- test_scofulous_control
#guard raises (newScrofulousControl (0.3 : Float) (2 * π) 0 none)
#guard isControl (newScrofulousControl π (2 * π) 0.5 none)
  [0.14826172, 5.36575214, 0.14826172] [6.28143583, -3.26911633, 6.28143583] [0, 0, 0]
  [0.5, 0.5, 0.5]
#guard isControl (newScrofulousControl (π / 2) (2 * π) (-0.5) none)
  [5.25211762, -1.95046211, 5.25211762] [3.44872124, -5.97278119, 3.44872124] [0, 0, 0]
  [0.32, 0.5, 0.32]
#guard isControl (newScrofulousControl (π / 4) (2 * π) 0 none)
  [1.78286387, 0.54427724, 1.78286387] [6.0249327, -6.25956707, 6.0249327] [0, 0, 0]
  [0.26861111, 0.5, 0.26861111]
-- test_corpse_in_scrofulous_control
#guard isControl (newCorpseInScrofulousControl (π / 2) π 0.25 none)
  [0.74606697, -0.74606697, 0.74606697, 1.32207387, -1.32207387, 1.32207387, 0.74606697,
    -0.74606697, 0.74606697]
  [3.05171894, -3.05171894, 3.05171894, -2.84986405, 2.84986405, -2.84986405, 3.05171894,
    -3.05171894, 3.05171894]
  [0, 0, 0, 0, 0, 0, 0, 0, 0]
  [2.18127065, 1.7225413, 0.18127065, 2.33333333, 1.66666667, 0.33333333, 2.18127065, 1.7225413,
    0.18127065]
-- test_walsh_control
#guard raises (newWamf1Control (0.3 : Float) π 0 none)
#guard isControl (newWamf1Control π (2 * π) (-0.35) none)
  [5.90225283, 2.95112641, 2.95112641, 5.90225283]
  [-2.15449047, -1.07724523, -1.07724523, -2.15449047] [0, 0, 0, 0] [0.5, 0.5, 0.5, 0.5]
#guard isControl (newWamf1Control (π / 2) (2 * π) 0.57 none)
  [5.28981984, 3.08895592, 3.08895592, 5.28981984]
  [3.39060816, 1.9799236, 1.9799236, 3.39060816] [0, 0, 0, 0]
  [0.39458478, 0.39458478, 0.39458478, 0.39458478]
#guard isControl (newWamf1Control (π / 4) (2 * π) (-0.273) none)
  [6.05049612, 4.37116538, 4.37116538, 6.05049612]
  [-1.69408213, -1.22388528, -1.22388528, -1.69408213] [0, 0, 0, 0]
  [0.3265702, 0.3265702, 0.3265702, 0.3265702]
-- test_modulated_gaussian_control
#guard match newModulatedGaussianControl (40 * π) 0.01 (0.2 : Float) 0 with
  | .ok c => close c.durations (List.replicate 20 0.01) &&
      close c.rabiRates ((List.range 20).map fun i =>
        let t := 0.01 * (0.5 + i.toFloat)
        2 * π * (Float.exp (-0.5 * ((t - 0.1) / 0.02) * ((t - 0.1) / 0.02))) /
          (Float.sqrt (2 * π) * 0.02))
  | .error _ => false

-- test_uhrig_sequence
#guard isSequence (newUhrigSequence (10 : Float) 4 true none)
  ([0] ++ (List.range 4).map (fun k =>
    10 * (Float.sin (π * (k.toFloat + 1) * 0.1)) * (Float.sin (π * (k.toFloat + 1) * 0.1))) ++ [10])
  [π / 2, π, π, π, π, π / 2] [0, π / 2, π / 2, π / 2, π / 2, π] [0, 0, 0, 0, 0, 0]
-- test_periodic_sequence
#guard isSequence (newPeriodicSequence (10 : Float) 4 true none)
  [0, 2, 4, 6, 8, 10] [π / 2, π, π, π, π, π / 2] [0, 0, 0, 0, 0, π] [0, 0, 0, 0, 0, 0]
-- Carr-Purcell / CPMG
#guard isSequence (newCarrPurcellSequence (10 : Float) 4 false none)
  [1.25, 3.75, 6.25, 8.75] [π, π, π, π] [0, 0, 0, 0] [0, 0, 0, 0]
#guard isSequence (newCPMGSequence (10 : Float) 4 true none)
  [0, 1.25, 3.75, 6.25, 8.75, 10] [π / 2, π, π, π, π, π / 2]
  [0, π / 2, π / 2, π / 2, π / 2, π] [0, 0, 0, 0, 0, 0]
-- test_walsh_sequence (order 2 is sgn sin 4 pi x)
#guard isSequence (newWalshSequence (10 : Float) 2 false none) [2.5, 5, 7.5] [π, π, π] [0, 0, 0]
  [0, 0, 0]
#guard raises (newWalshSequence (10 : Float) 2001 false none)
-- test_x_concatenated_sequence
#guard isSequence (newXConcatenatedSequence (10 : Float) 3 false none)
  [1.25, 3.75, 5, 6.25, 8.75] (List.replicate 5 π) (List.replicate 5 0) (List.replicate 5 0)
-- test_xy_concatenated_sequence
#guard isSequence (newXYConcatenatedSequence (10 : Float) 2 true none)
  ([0] ++ ([1, 2, 3, 4, 5, 6, 7, 9, 10, 11, 12, 13, 14, 15].map (· * 0.625)) ++ [10])
  [π / 2, π, π, π, 0, π, π, π, π, π, π, 0, π, π, π, π / 2]
  [0, 0, π / 2, 0, 0, 0, π / 2, 0, 0, π / 2, 0, 0, 0, π / 2, 0, π]
  [0, 0, 0, 0, π, 0, 0, 0, 0, 0, 0, π, 0, 0, 0, 0]
-- test_quadratic_sequence (rotations)
#guard match newQuadraticSequence (10 : Float) 2 2 false none with
  | .ok s => close s.rabiRotations [0, 0, π, 0, 0, π, 0, 0] &&
      close s.detuningRotations [π, π, 0, π, π, 0, π, π]
  | .error _ => false

/-- conversion of a sequence given by its arrays -/
def converted (T : Float) (o r a d : List Float) (rate : Float) :
    Except PyErr (DrivenControl Float) := do
  convertDDS (← Sequence.new T o r a d none) rate rate 0 none

-- test_conversion_to_driven_controls
#guard match converted 2 [0.5, 1, 1.5] [π, 0, π] [π / 2, 0, 0] [0, π, 0] (20 * π) with
  | .ok c => close c.rabiRates [0, 20 * π, 0, 0, 0, 20 * π, 0] &&
      close c.azimuthalAngles [0, π / 2, 0, 0, 0, 0, 0] &&
      close c.detunings [0, 0, 0, 20 * π, 0, 0, 0] &&
      close c.durations [0.475, 0.05, 0.45, 0.05, 0.45, 0.05, 0.475]
  | .error _ => false
-- test_conversion_of_tightly_packed_sequence
#guard match converted 0.2 [0, 0.05, 0.15, 0.2] [1.57079633, 3.14159265, 3.14159265, 1.57079633]
    [0, 0, 0, 0] [0, 0, 0, 0] (20 * π) with
  | .ok c => c.durations.length == 5 && (c.rabiRates.filter (· > 0)).length == 4
  | .error _ => false
-- test_free_evolution_conversion
#guard match converted 10 [] [] [] [] (20 * π) with
  | .ok c => close c.rabiRates [0] && close c.durations [10]
  | .error _ => false
#guard match converted 10 [0, 10] [π / 2, π / 2] [0, 0] [0, 0] (20 * π) with
  | .ok c => close c.rabiRates [20 * π, 0, 20 * π] && close c.durations [0.025, 9.95, 0.025]
  | .error _ => false

-- test_control_directions_with_small_amplitudes
#guard match DrivenControl.new [1, 1, 1, 1] (some [1e-100, 0, 1e-100, 0]) (some [0, 0, π / 2, 0])
    (some [0, 0, 0, 1e-100]) none with
  | .ok c => match c.directions with
    | .ok ds => close (ds.map (·.1)) [1, 0, 0, 0] && close (ds.map (·.2.1)) [0, 0, 1, 0] &&
        close (ds.map (·.2.2)) [0, 0, 0, 1]
    | .error _ => false
  | .error _ => false

-- the characters written by csv.DictWriter and json.dump(..., sort_keys=True, indent=4), as documented for Python
#guard String.ofList (fileText (fun x : Nat => toString x ++ ".0") (.csv ["detuning", "duration"] [[1, 2], [3, 4]])) =
  "detuning,duration\r\n1.0,2.0\r\n3.0,4.0\r\n"
#guard String.ofList (fileText id (.csv ["a,b", "c\"d"] [["x\ny", ""]])) = "\"a,b\",\"c\"\"d\"\r\n\"x\ny\",\r\n"
#guard String.ofList (fileText (fun x : Nat => toString x ++ ".0") (.json [("detuning", .arr [1, 2]),
    ("duration", .arr []), ("maximum_rabi_rate", .num 3), ("name", .str "é\"\\\n\t\u007f𝄞/")])) =
  "{\n    \"detuning\": [\n        1.0,\n        2.0\n    ],\n    \"duration\": [],\n" ++
  "    \"maximum_rabi_rate\": 3.0,\n    \"name\": \"\\u00e9\\\"\\\\\\n\\t\\u007f\\ud834\\udd1e/\"\n}"

-- the readers of the specification, on texts in other layouts than the writer's
#guard Spec.readCsv "a,\"b,\"\"c\"\r\n,x".toList = some [["a".toList, "b,\"c".toList], ["".toList, "x".toList]]
#guard Spec.readCsv "a\"b".toList = none
#guard Spec.readCsv "\"a".toList = none
#guard ["0", "-0.0", "1e-06", "1.5E+16", "120"].all fun s => Spec.isNumber s.toList
#guard ["", "-", "01", "1.", ".5", "+1", "1e", "NaN", "0x1", "1e5.0", "inf"].all fun s => !Spec.isNumber s.toList
#guard match Spec.readJson "{\"a\":[1,true , null],\"\\u0041\\/\":{}}  ".toList with
  | some (.obj [(['a'], .arr [.num ['1'], .bool true, .null]), (['A', '/'], .obj [])]) => true
  | _ => false
#guard ["", "{", "[1,]", "{\"a\":1,}", "[1] 2", "\"\\x\"", "\"\\ud800\"", "\"a\nb\"", "[NaN]", "{a:1}", "1 2"].all fun s =>
  (Spec.readJson s.toList).isNone

-- texts of floats, as Python writes them
#guard [(1, -5, "1e-05"), (1, -4, "0.0001"), (15, -6, "1.5e-05"), (1, 16, "1e+16"), (1, 15, "1000000000000000.0"),
  (314, -2, "3.14"), (314, -302, "3.14e-300"), (12345678901234567, -1, "1234567890123456.7"), (1, 0, "1.0"),
  (12, 100, "1.2e+101")].all fun (D, k, s) =>
    layout D k == s.toList && Spec.numberValue s.toList == (D : Rat) * (10 : Rat) ^ (k : Int)
#guard [("-12.50e+3", 3), ("0.0", 0), ("1000", 1), ("0.00120", 2), ("1E5", 1)].all fun (s, n) =>
  Spec.significantDigits s.toList == n
#guard Spec.numberValue "-12.50e+3".toList == -12500 && Spec.numberValue "1E5".toList == 100000

end OpenControls.Tests
