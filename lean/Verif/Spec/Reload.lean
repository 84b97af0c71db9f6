import Verif.Spec.FileText
import Verif.Spec.RoundedAccessors
import Verif.Model.DrivenControl

/-!
# Specification: making a control from the text of a file

The reader knows the titles, how numbers are written (`parse`), and that amplitudes are in units of the maximum
Rabi rate.
-/

namespace OpenControls.Spec

variable {α : Type} [Add α] [Sub α] [Mul α] [Div α] [Neg α] [PyFloat α]

/-- the numbers in a column of a CSV file -/
def numbersIn (parse : List Char → Option α) (records : List (List (List Char))) (title : String) :
    Option (List α) :=
  (column records title).bind fun texts => texts.mapM parse

/-- the number in a JSON value -/
def jsonNumber (parse : List Char → Option α) : Json → Option α
  | .num text => parse text
  | _ => none

/-- the numbers in a JSON array -/
def jsonNumbers (parse : List Char → Option α) : Json → Option (List α)
  | .arr l => l.mapM (jsonNumber parse)
  | _ => none

/-- the string in a JSON value -/
def jsonText : Json → Option String
  | .str s => some (String.ofList s)
  | _ => none

/-- A control from a CSV file in cylindrical coordinates; the file does not contain a name. -/
def reloadCsv (parse : List Char → Option α) (name : Option String) (text : List Char) :
    Option (Except PyErr (DrivenControl α)) := do
  let records ← readCsv text
  let durations ← numbersIn parse records "duration"
  let maxima ← numbersIn parse records "maximum_rabi_rate"
  let rates ← numbersIn parse records "rabi_rates"
  let angles ← numbersIn parse records "azimuthal_angles"
  let detunings ← numbersIn parse records "detuning"
  return DrivenControl.new durations (some (List.zipWith (fun m v => m * v) maxima rates)) (some angles)
    (some detunings) name

/-- A control from a JSON file in cylindrical coordinates, with the name in the file if there is one. -/
def reloadJson (parse : List Char → Option α) (text : List Char) : Option (Except PyErr (DrivenControl α)) := do
  match ← readJson text with
  | .obj object =>
    let durations ← (member object "duration").bind (jsonNumbers parse)
    let maximum ← (member object "maximum_rabi_rate").bind (jsonNumber parse)
    let rates ← (member object "rabi_rates").bind (jsonNumbers parse)
    let angles ← (member object "azimuthal_angles").bind (jsonNumbers parse)
    let detunings ← (member object "detuning").bind (jsonNumbers parse)
    return DrivenControl.new durations (some (rates.map (maximum * ·))) (some angles) (some detunings)
      ((member object "name").bind jsonText)
  | _ => none

/-- the segments (amplitude along x, along y, detuning, duration) of a CSV file in Cartesian coordinates -/
def reloadCsvCartesian (parse : List Char → Option α) (text : List Char) : Option (List (α × α × α × α)) := do
  let records ← readCsv text
  let durations ← numbersIn parse records "duration"
  let maxima ← numbersIn parse records "maximum_rabi_rate"
  let xs ← numbersIn parse records "amplitude_x"
  let ys ← numbersIn parse records "amplitude_y"
  let detunings ← numbersIn parse records "detuning"
  return cartesianSegments (List.zipWith (fun m v => m * v) maxima xs) (List.zipWith (fun m v => m * v) maxima ys)
    detunings durations

/-- the segments (amplitude along x, along y, detuning, duration) of a JSON file in Cartesian coordinates -/
def reloadJsonCartesian (parse : List Char → Option α) (text : List Char) : Option (List (α × α × α × α)) := do
  match ← readJson text with
  | .obj object =>
    let durations ← (member object "duration").bind (jsonNumbers parse)
    let maximum ← (member object "maximum_rabi_rate").bind (jsonNumber parse)
    let xs ← (member object "amplitude_x").bind (jsonNumbers parse)
    let ys ← (member object "amplitude_y").bind (jsonNumbers parse)
    let detunings ← (member object "detuning").bind (jsonNumbers parse)
    return cartesianSegments (xs.map (maximum * ·)) (ys.map (maximum * ·)) detunings durations
  | _ => none

end OpenControls.Spec
