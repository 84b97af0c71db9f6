import Verif.Model.Utils

/-!
# Model of `qctrlopencontrols/driven_controls/driven_control.py`

1-D numpy arrays are lists; element-wise binary operations are `List.zipWith` (numpy would raise on
arrays of different length; the constructor guarantees equal lengths, theorem C02).
-/

namespace OpenControls

open PyFloat Py

variable {α : Type} [Add α] [Sub α] [Mul α] [Div α] [Neg α] [PyFloat α]

/-- `driven_control.py:35`: the attributes of a `DrivenControl` instance (lines 103, 153-156). -/
structure DrivenControl (α : Type) where
  rabiRates : List α
  azimuthalAngles : List α
  detunings : List α
  durations : List α
  name : Option String
  deriving DecidableEq, Repr

namespace DrivenControl

/-- `driven_control.py:94-156` `DrivenControl.__init__`.  `none` models the default `None`.
Simplification: 1-D numeric arrays only. -/
def new (durations : List α) (rabiRates azimuthalAngles detunings : Option (List α))
    (name : Option String) : Except PyErr (DrivenControl α) := do
  -- lines 107-112
  checkArguments (durations.all fun d => gt d (lit 0))
    "Duration of driven control segments must all be greater than zero."
  -- lines 114-119
  let inputLengths := pySet
    ([rabiRates, azimuthalAngles, detunings, some durations].filterMap (Option.map List.length))
  -- lines 121-131
  checkArguments (inputLengths.length == 1)
    "If set, rabi rates, azimuthal angles, detunings and durations must be of same length"
  -- lines 133-144
  let durationCount := durations.length
  let rabiRates := rabiRates.getD (List.replicate durationCount (lit 0))
  let azimuthalAngles := azimuthalAngles.getD (List.replicate durationCount (lit 0))
  let detunings := detunings.getD (List.replicate durationCount (lit 0))
  -- lines 146-151
  checkArguments (rabiRates.all fun r => ge r (lit 0))
    "All rabi rates must be greater than zero."
  -- lines 153-156
  return { rabiRates, azimuthalAngles, detunings, durations, name }

/-- `driven_control.py:158-169` `number_of_segments` -/
def numberOfSegments (c : DrivenControl α) : Nat := c.rabiRates.length

/-- `driven_control.py:171-182` `maximum_rabi_rate` -/
def maximumRabiRate (c : DrivenControl α) : Except PyErr α := npAmax c.rabiRates

/-- `driven_control.py:184-194` `maximum_detuning` -/
def maximumDetuning (c : DrivenControl α) : Except PyErr α := npAmax c.detunings

/-- `driven_control.py:196-207` `amplitude_x` -/
def amplitudeX (c : DrivenControl α) : List α :=
  List.zipWith (fun r phi => r * cos phi) c.rabiRates c.azimuthalAngles

/-- `driven_control.py:209-220` `amplitude_y` -/
def amplitudeY (c : DrivenControl α) : List α :=
  List.zipWith (fun r phi => r * sin phi) c.rabiRates c.azimuthalAngles

/-- `driven_control.py:234-236` (and 253-255): the array
`np.sqrt(amplitude_x**2 + amplitude_y**2 + detunings**2)`. -/
def amplitudes (c : DrivenControl α) : List α :=
  List.zipWith (fun xy d => sqrt (xy + d * d))
    (List.zipWith (fun x y => x * x + y * y) c.amplitudeX c.amplitudeY) c.detunings

/-- `driven_control.py:222-239` `angles` -/
def angles (c : DrivenControl α) : List α :=
  List.zipWith (fun a t => a * t) c.amplitudes c.durations

/-- `driven_control.py:241-278` `directions`.  `np.max` raises on a control without segments. -/
def directions (c : DrivenControl α) : Except PyErr (List (α × α × α)) := do
  let amplitudes := c.amplitudes
  -- line 260
  let tolerance := pyMin (lit (1 / 100000000000000000000) * (← npAmax amplitudes))
    (lit (1 / 100000000))
  -- lines 262-264: np.where(np.isclose(amplitudes, 0, atol=tolerance), 1.0, amplitudes)
  let safe := amplitudes.map fun a => if isCloseAtol tolerance a (lit 0) then lit 1 else a
  -- lines 266-268
  let nx := List.zipWith (fun x s => x / s) c.amplitudeX safe
  let ny := List.zipWith (fun y s => y / s) c.amplitudeY safe
  let nz := List.zipWith (fun d s => d / s) c.detunings safe
  -- lines 270-276
  return List.zipWith (fun x yz => (x, yz)) nx (List.zipWith (fun y z => (y, z)) ny nz)

/-- `driven_control.py:280-292` `times` -/
def times (c : DrivenControl α) : List α := lit 0 :: npCumsum c.durations

/-- `driven_control.py:294-305` `maximum_duration` -/
def maximumDuration (c : DrivenControl α) : Except PyErr α := npAmax c.durations

/-- `driven_control.py:307-318` `minimum_duration` -/
def minimumDuration (c : DrivenControl α) : Except PyErr α := npAmin c.durations

/-- `driven_control.py:320-331` `duration` -/
def duration (c : DrivenControl α) : α := PyFloat.sum c.durations

end DrivenControl

/-- A value of the exported dictionary. Used at `driven_control.py:349-367` -/
inductive Val (α : Type) where
  | num (x : α)
  | arr (l : List α)
  | str (s : String)
  deriving DecidableEq, Repr

namespace DrivenControl

/-- `driven_control.py:333-369` `_qctrl_expanded_export_content` -/
def exportContent (c : DrivenControl α) (coordinates : String) :
    Except PyErr (List (String × Val α)) := do
  let m ← c.maximumRabiRate
  let info : List (String × Val α) :=
    [("maximum_rabi_rate", .num m), ("detuning", .arr c.detunings), ("duration", .arr c.durations)]
  let info := match c.name with
    | some n => dictSet "name" (.str n) info
    | none => info
  if coordinates == "cartesian" then
    let info := dictSet "amplitude_x" (.arr (c.amplitudeX.map fun x => x / m)) info
    return dictSet "amplitude_y" (.arr (c.amplitudeY.map fun y => y / m)) info
  else
    let info := dictSet "rabi_rates" (.arr (c.rabiRates.map fun r => r / m)) info
    return dictSet "azimuthal_angles" (.arr c.azimuthalAngles) info

end DrivenControl

/-- Contents of a file written by the package.  A CSV file is its header and its rows, a JSON file
its top-level object with sorted keys; the characters (quoting, delimiters, escapes, indentation) are modelled by
`fileText` in `Verif/Model/FileText.lean`. Used at `driven_control.py:392-410` -/
inductive FileContent (α : Type) where
  | csv (header : List String) (rows : List (List α))
  | json (fields : List (String × Val α))
  deriving DecidableEq, Repr

/-- The file system: contents by file name. Used at `driven_control.py:401, 409` -/
abbrev FileSystem (α : Type) := String → Option (FileContent α)

/-- `open(filename, "w")` plus writing: the file now has the given contents.
Used at `driven_control.py:401, 409` -/
def FileSystem.write (fs : FileSystem α) (filename : String) (content : FileContent α) :
    FileSystem α := fun f => if f == filename then some content else fs f

/-- `driven_control.py:405-407`: one CSV row, `{name: control_info[name][index] ...}` in the order
of `field_names`; a missing key, a non-list value or a missing index raises. -/
def csvRow (info : List (String × Val α)) (fieldNames : List String) (index : Nat) :
    Except PyErr (List α) :=
  fieldNames.mapM fun k =>
    match dictGet k info with
    | some (.arr l) => match l[index]? with
      | some x => .ok x
      | none => .error .indexError
    | some _ => .error (.valueError "not subscriptable")
    | none => .error (.keyError k)

/-- `driven_control.py:404-407`: the loop writing rows; if a row raises, the rows written before
it stay in the file. -/
def writeRows (fs : FileSystem α) (filename : String) (header : List String)
    (info : List (String × Val α)) (done : List (List α)) :
    List Nat → Except PyErr Unit × FileSystem α
  | [] => (.ok (), fs.write filename (.csv header done))
  | i :: is =>
    match csvRow info header i with
    | .ok row => writeRows fs filename header info (done ++ [row]) is
    | .error e => (.error e, fs.write filename (.csv header done))

/-- `json.dump(..., sort_keys=True)`: the items of the dictionary in sorted key order.
Used at `driven_control.py:410` -/
def sortedItems (info : List (String × Val α)) : List (String × Val α) :=
  (sortStrings (info.map Prod.fst)).filterMap fun k => (dictGet k info).map fun v => (k, v)

namespace DrivenControl

/-- `driven_control.py:371-410` `_export_to_qctrl_expanded_format`: the result of the call and the
file system afterwards (also when it raises). -/
def exportExpanded (c : DrivenControl α) (fs : FileSystem α) (filename fileType coordinates : String) :
    Except PyErr Unit × FileSystem α :=
  match c.exportContent coordinates with
  | .error e => (.error e, fs)
  | .ok info =>
    if fileType == "CSV" then
      -- line 393: control_info.pop("name")
      match dictGet "name" info with
      | none => (.error (.keyError "name"), fs)
      | some _ =>
        let info := dictErase "name" info
        -- lines 394-396
        match c.maximumRabiRate with
        | .error e => (.error e, fs)
        | .ok m =>
          let info := dictSet "maximum_rabi_rate"
            (.arr (List.replicate c.numberOfSegments m)) info
          -- line 397
          let fieldNames := sortStrings (info.map Prod.fst)
          -- lines 401-407
          writeRows fs filename fieldNames info [] (List.range c.numberOfSegments)
    else
      -- lines 409-410
      (.ok (), fs.write filename (.json (sortedItems info)))

/-- `driven_control.py:412-507` `export_to_file` -/
def exportToFile (c : DrivenControl α) (fs : FileSystem α)
    (filename fileFormat fileType coordinates : String) : Except PyErr Unit × FileSystem α :=
  -- lines 483-488
  if !fileFormats.contains fileFormat then
    (.error (.arguments "Requested file format is not supported."), fs)
  -- lines 490-495
  else if !fileTypes.contains fileType then
    (.error (.arguments "Requested file type is not supported."), fs)
  -- lines 497-502
  else if !coordinateSystems.contains coordinates then
    (.error (.arguments "Requested coordinate type is not supported."), fs)
  -- lines 504-507
  else if fileFormat == "Q-CTRL expanded" then c.exportExpanded fs filename fileType coordinates
  else (.ok (), fs)

end DrivenControl

/-- Complex numbers over `α` (numpy `complex128`), as real and imaginary part.
Used at `driven_control.py:564` -/
structure Cplx (α : Type) where
  re : α
  im : α
  deriving DecidableEq, Repr

/-- `r * np.exp(1.0j * theta)` for real `r`, `theta`; simplification: real and imaginary part are
`r*cos(theta)` and `r*sin(theta)`. Used at `driven_control.py:564` -/
def cis (r theta : α) : Cplx α := ⟨r * cos theta, r * sin theta⟩

/-- One `{"value": v, "duration": t}` entry of `DrivenControl.export`.
Used at `driven_control.py:556-569` -/
structure PlotPoint (α V : Type) where
  value : V
  duration : α
  deriving DecidableEq, Repr

/-- The dictionary returned by `DrivenControl.export`; absent keys are `none`.
Used at `driven_control.py:545-572` -/
structure PlotData (α : Type) where
  xAmplitude : Option (List (PlotPoint α α))
  yAmplitude : Option (List (PlotPoint α α))
  rabiRate : Option (List (PlotPoint α (Cplx α)))
  detuning : List (PlotPoint α α)
  deriving DecidableEq, Repr

namespace DrivenControl

/-- `driven_control.py:509-572` `export` -/
def exportPlot (c : DrivenControl α) (coordinates : String) (dimensionless : Bool) :
    Except PyErr (PlotData α) := do
  -- lines 534-538
  checkArguments (coordinateSystems.contains coordinates) "Unsupported coordinates provided: "
  -- lines 540-543
  let normalizer ← (if dimensionless then c.maximumRabiRate else .ok (lit 1) : Except PyErr α)
  -- lines 547-552
  let plotX := c.amplitudeX.map fun x => x / normalizer
  let plotY := c.amplitudeY.map fun y => y / normalizer
  let plotR := c.rabiRates.map fun r => r / normalizer
  -- lines 554-570
  return {
    xAmplitude := if coordinates == "cartesian" then
      some (List.zipWith (fun v t => ⟨v, t⟩) plotX c.durations) else none
    yAmplitude := if coordinates == "cartesian" then
      some (List.zipWith (fun v t => ⟨v, t⟩) plotY c.durations) else none
    rabiRate := if coordinates == "cylindrical" then
      some (List.zipWith (fun v t => ⟨v, t⟩)
        (List.zipWith (fun r theta => cis r theta) plotR c.azimuthalAngles) c.durations) else none
    detuning := List.zipWith (fun v t => ⟨v, t⟩) c.detunings c.durations }

end DrivenControl

/-- One printed list entry of `__str__`: a formatted number, or the literal `"0"`.
Used at `driven_control.py:583-607` -/
inductive Shown (α : Type) where
  | num (x : α)
  | zero
  deriving DecidableEq, Repr

/-- The numbers printed by `DrivenControl.__str__`. Used at `driven_control.py:578-623` -/
structure ControlText (α : Type) where
  name : Option String
  rabiRates : List (Shown α)
  rabiFactor : α
  azimuthalAngles : List (Shown α)
  detunings : List (Shown α)
  detuningFactor : α
  durations : List (Shown α)
  durationFactor : α
  deriving DecidableEq, Repr

/-- `str` of a list entry, with `fmt` the (abstract) formatting of a float.
Used at `driven_control.py:583-607` -/
def Shown.render (fmt : α → String) : Shown α → String
  | .num x => fmt x
  | .zero => "0"

namespace DrivenControl

/-- `driven_control.py:574-620`: the numbers computed by `__str__`. -/
def textData (c : DrivenControl α) : Except PyErr (ControlText α) := do
  let maxRabi ← c.maximumRabiRate
  let maxDet ← c.maximumDetuning
  return {
    name := c.name
    rabiRates := c.rabiRates.map fun r =>
      if ne maxRabi (lit 0) then .num (r / maxRabi) else .zero
    rabiFactor := maxRabi
    azimuthalAngles := c.azimuthalAngles.map fun a => .num (a / PyFloat.pi)
    detunings := c.detunings.map fun d =>
      if ne maxDet (lit 0) then .num (d / maxDet) else .zero
    detuningFactor := maxDet
    durations := c.durations.map fun d => .num (d / c.duration)
    durationFactor := c.duration }

/-- `driven_control.py:574-623` `__str__`, with `fmt` the formatting of a float. -/
def toStr (fmt : α → String) (c : DrivenControl α) : Except PyErr String := do
  let t ← c.textData
  let show' := fun l => joinWith "," (l.map (Shown.render fmt))
  let head := match t.name with
    | some n => [n ++ ":"]
    | none => []
  return joinWith "\n" (head ++ [
    "Rabi Rates = [" ++ show' t.rabiRates ++ "] x " ++ fmt t.rabiFactor,
    "Azimuthal Angles = [" ++ show' t.azimuthalAngles ++ "] x pi",
    "Detunings = [" ++ show' t.detunings ++ "] x " ++ fmt t.detuningFactor,
    "Durations = [" ++ show' t.durations ++ "] x " ++ fmt t.durationFactor])

/-- `driven_control.py:625-646` `__repr__`, with `reprArr`/`reprName` the `repr` of an array and of
the name. -/
def toRepr (reprArr : List α → String) (reprName : Option String → String)
    (c : DrivenControl α) : Except PyErr String :=
  createRepr
    (some ("DrivenControl", fun attr =>
      if attr == "rabi_rates" then reprArr c.rabiRates
      else if attr == "azimuthal_angles" then reprArr c.azimuthalAngles
      else if attr == "detunings" then reprArr c.detunings
      else if attr == "durations" then reprArr c.durations
      else reprName c.name))
    (some [.str "rabi_rates", .str "azimuthal_angles", .str "detunings", .str "durations",
      .str "name"])

end DrivenControl

end OpenControls
