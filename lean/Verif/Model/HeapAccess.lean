import Verif.Model.HeapPredefined

/-!
# Statement-level model of reading a control or a sequence

The properties and exporters of `DrivenControl` and `DynamicDecouplingSequence` on a heap of arrays.  Every
array expression of the code puts its result on the heap, also the intermediate ones.  The arrays of the object may be
any arrays, of any lengths: attributes can be reassigned without a check, and `numpy` then broadcasts or raises.

Simplifications: all arrays are one-dimensional and have dtype float64, except the result of `directions`, which is
one row-major heap cell; `x ** 2` is `x * x`; the lists of Python floats in exported dictionaries are values.
-/

namespace OpenControls

open PyFloat Py PyM

variable {α : Type} [Add α] [Sub α] [Mul α] [Div α] [Neg α] [PyFloat α]

/-- `numpy`: an element-wise function of one array (`np.cos(a)`, `np.sqrt(a)`, `a ** 2`, `a / x`);
used at `driven_control.py:197-293, 547-549` -/
def unaryH (f : α → α) (a : Ref) : PyM α Ref := do
  let xs ← load a
  alloc (xs.map f)

/-- `numpy`: an element-wise operation on two one-dimensional arrays (`a * b`, `a + b`, `a / b`), with
broadcasting; used at `driven_control.py:197-293` -/
def binaryH (f : α → α → α) (a b : Ref) : PyM α Ref := do
  let xs ← load a
  let ys ← load b
  if xs.length == ys.length then alloc (List.zipWith f xs ys)
  else match xs, ys with
    | [x], ys => alloc (ys.map fun y => f x y)
    | xs, [y] => alloc (xs.map fun x => f x y)
    | _, _ => raise (.valueError "operands could not be broadcast together")

/-- `driven_control.py:158-169` `number_of_segments` -/
def numberOfSegmentsH (c : ControlObj) : PyM α Nat := do
  let r ← load c.rabiRates
  pure r.length

/-- `driven_control.py:171-182` `maximum_rabi_rate` -/
def maximumRabiRateH (c : ControlObj) : PyM α α := do
  let r ← load c.rabiRates
  PyM.lift (npAmax r)

/-- `driven_control.py:184-194` `maximum_detuning` -/
def maximumDetuningH (c : ControlObj) : PyM α α := do
  let d ← load c.detunings
  PyM.lift (npAmax d)

/-- `driven_control.py:196-207` `amplitude_x` -/
def amplitudeXH (c : ControlObj) : PyM α Ref := do
  let cosines ← unaryH cos c.azimuthalAngles
  binaryH (fun r x => r * x) c.rabiRates cosines

/-- `driven_control.py:209-220` `amplitude_y` -/
def amplitudeYH (c : ControlObj) : PyM α Ref := do
  let sines ← unaryH sin c.azimuthalAngles
  binaryH (fun r x => r * x) c.rabiRates sines

/-- `driven_control.py:234-236` and `253-255`: `amplitudes` -/
def amplitudesH (c : ControlObj) : PyM α Ref := do
  let x ← amplitudeXH c
  let x2 ← unaryH (fun x => x * x) x
  let y ← amplitudeYH c
  let y2 ← unaryH (fun y => y * y) y
  let xy ← binaryH (fun x y => x + y) x2 y2
  let d2 ← unaryH (fun d => d * d) c.detunings
  let s ← binaryH (fun x d => x + d) xy d2
  unaryH sqrt s

/-- `driven_control.py:222-239` `angles` -/
def anglesH (c : ControlObj) : PyM α Ref := do
  let amplitudes ← amplitudesH c
  binaryH (fun a t => a * t) amplitudes c.durations

/-- `driven_control.py:270-276`: `np.hstack` of three columns; raises if they differ in length -/
def hstackH (x y z : Ref) : PyM α Ref := do
  let xs ← load x
  let ys ← load y
  let zs ← load z
  if ys.length == xs.length && zs.length == xs.length then
    alloc (List.zipWith (fun x yz => x :: yz) xs (List.zipWith (fun y z => [y, z]) ys zs)).flatten
  else raise (.valueError
    "all the input array dimensions for the concatenation axis must match exactly")

/-- `driven_control.py:241-278` `directions` -/
def directionsH (c : ControlObj) : PyM α Ref := do
  let amplitudes ← amplitudesH c
  -- line 260
  let a ← load amplitudes
  let m ← PyM.lift (npAmax a)
  let tolerance := pyMin (lit (1 / 100000000000000000000) * m) (lit (1 / 100000000))
  -- lines 262-264
  let safe ← unaryH (fun a => if isCloseAtol tolerance a (lit 0) then lit 1 else a) amplitudes
  -- lines 266-268
  let x ← amplitudeXH c
  let nx ← binaryH (fun x s => x / s) x safe
  let y ← amplitudeYH c
  let ny ← binaryH (fun y s => y / s) y safe
  let nz ← binaryH (fun d s => d / s) c.detunings safe
  -- lines 270-276
  hstackH nx ny nz

/-- `driven_control.py:280-292` `times` -/
def timesH (c : ControlObj) : PyM α Ref := do
  let d ← load c.durations
  let cumulative ← alloc (npCumsum d)
  let t ← load cumulative
  alloc (lit 0 :: t)

/-- `driven_control.py:294-305` `maximum_duration` -/
def maximumDurationH (c : ControlObj) : PyM α α := do
  let d ← load c.durations
  PyM.lift (npAmax d)

/-- `driven_control.py:307-318` `minimum_duration` -/
def minimumDurationH (c : ControlObj) : PyM α α := do
  let d ← load c.durations
  PyM.lift (npAmin d)

/-- `driven_control.py:320-331` `duration` -/
def durationH (c : ControlObj) : PyM α α := do
  let d ← load c.durations
  pure (PyFloat.sum d)

/-- `driven_control.py:333-369` `_qctrl_expanded_export_content` -/
def exportContentH (c : ControlObj) (coordinates : String) : PyM α (List (String × Val α)) := do
  -- lines 349-353
  let m ← maximumRabiRateH c
  let detunings ← load c.detunings
  let durations ← load c.durations
  let info : List (String × Val α) :=
    [("maximum_rabi_rate", .num m), ("detuning", .arr detunings), ("duration", .arr durations)]
  -- lines 355-356
  let info := match c.name with
    | some n => dictSet "name" (.str n) info
    | none => info
  if coordinates == "cartesian" then do
    -- lines 359-361
    let x ← amplitudeXH c
    let m ← maximumRabiRateH c
    let x ← unaryH (fun x => x / m) x
    let xs ← load x
    let info := dictSet "amplitude_x" (.arr xs) info
    -- lines 362-364
    let y ← amplitudeYH c
    let m ← maximumRabiRateH c
    let y ← unaryH (fun y => y / m) y
    let ys ← load y
    pure (dictSet "amplitude_y" (.arr ys) info)
  else do
    -- line 366
    let m ← maximumRabiRateH c
    let r ← unaryH (fun r => r / m) c.rabiRates
    let rs ← load r
    let info := dictSet "rabi_rates" (.arr rs) info
    -- line 367
    let angles ← load c.azimuthalAngles
    pure (dictSet "azimuthal_angles" (.arr angles) info)

/-- `driven_control.py:371-410` `_export_to_qctrl_expanded_format`: the result of the call and the files
afterwards (also when it raises) -/
def exportExpandedH (c : ControlObj) (fs : FileSystem α) (filename fileType coordinates : String) :
    PyM α (Except PyErr Unit × FileSystem α) := fun h =>
  match exportContentH c coordinates h with
  | (.error e, h) => (.ok (.error e, fs), h)
  | (.ok info, h) =>
    if fileType == "CSV" then
      -- line 393: control_info.pop("name")
      match dictGet "name" info with
      | none => (.ok (.error (.keyError "name"), fs), h)
      | some _ =>
        let info := dictErase "name" info
        -- lines 394-396
        match maximumRabiRateH c h with
        | (.error e, h) => (.ok (.error e, fs), h)
        | (.ok m, h) =>
          match numberOfSegmentsH c h with
          | (.error e, h) => (.ok (.error e, fs), h)
          | (.ok n, h) =>
            let info := dictSet "maximum_rabi_rate" (.arr (List.replicate n m)) info
            -- lines 397-407
            let fieldNames := sortStrings (info.map Prod.fst)
            (.ok (writeRows fs filename fieldNames info [] (List.range n)), h)
    else
      -- lines 409-410
      (.ok (.ok (), fs.write filename (.json (sortedItems info))), h)

/-- `driven_control.py:412-507` `export_to_file` -/
def exportToFileH (c : ControlObj) (fs : FileSystem α)
    (filename fileFormat fileType coordinates : String) : PyM α (Except PyErr Unit × FileSystem α) :=
  -- lines 483-488
  if !fileFormats.contains fileFormat then
    pure (.error (.arguments "Requested file format is not supported."), fs)
  -- lines 490-495
  else if !fileTypes.contains fileType then
    pure (.error (.arguments "Requested file type is not supported."), fs)
  -- lines 497-502
  else if !coordinateSystems.contains coordinates then
    pure (.error (.arguments "Requested coordinate type is not supported."), fs)
  -- lines 504-507
  else if fileFormat == "Q-CTRL expanded" then exportExpandedH c fs filename fileType coordinates
  else pure (.ok (), fs)

/-- `driven_control.py:540-543`: `normalizer` -/
def normalizerH (c : ControlObj) (dimensionless : Bool) : PyM α α :=
  if dimensionless then maximumRabiRateH c else pure (lit 1)

/-- `driven_control.py:509-572` `export` -/
def exportPlotH (c : ControlObj) (coordinates : String) (dimensionless : Bool) : PyM α (PlotData α) := do
  -- lines 534-538
  check (coordinateSystems.contains coordinates) "Unsupported coordinates provided: "
  -- lines 540-543
  let normalizer ← normalizerH c dimensionless
  -- lines 547-552
  let x ← amplitudeXH c
  let plotX ← unaryH (fun x => x / normalizer) x
  let y ← amplitudeYH c
  let plotY ← unaryH (fun y => y / normalizer) y
  let plotR ← unaryH (fun r => r / normalizer) c.rabiRates
  -- lines 554-570
  let xs ← load plotX
  let ys ← load plotY
  let rs ← load plotR
  let thetas ← load c.azimuthalAngles
  let durations ← load c.durations
  let detunings ← load c.detunings
  pure {
    xAmplitude := if coordinates == "cartesian" then
      some (List.zipWith (fun v t => ⟨v, t⟩) xs durations) else none
    yAmplitude := if coordinates == "cartesian" then
      some (List.zipWith (fun v t => ⟨v, t⟩) ys durations) else none
    rabiRate := if coordinates == "cylindrical" then
      some (List.zipWith (fun v t => ⟨v, t⟩)
        (List.zipWith (fun r theta => cis r theta) rs thetas) durations) else none
    detuning := List.zipWith (fun v t => ⟨v, t⟩) detunings durations }

/-- `driven_control.py:574-620`: the numbers computed by `__str__`.  Simplification: the maxima and the total
duration are read once instead of once per printed number. -/
def controlTextH (c : ControlObj) : PyM α (ControlText α) := do
  let maxRabi ← maximumRabiRateH c
  let maxDet ← maximumDetuningH c
  let total ← durationH c
  let rabiRates ← load c.rabiRates
  let azimuthalAngles ← load c.azimuthalAngles
  let detunings ← load c.detunings
  let durations ← load c.durations
  pure {
    name := c.name
    rabiRates := rabiRates.map fun r => if ne maxRabi (lit 0) then .num (r / maxRabi) else .zero
    rabiFactor := maxRabi
    azimuthalAngles := azimuthalAngles.map fun a => .num (a / PyFloat.pi)
    detunings := detunings.map fun d => if ne maxDet (lit 0) then .num (d / maxDet) else .zero
    detuningFactor := maxDet
    durations := durations.map fun d => .num (d / total)
    durationFactor := total }

/-- `dynamic_decoupling_sequence.py:125-148` `export` -/
def exportSequenceH (s : SequenceObj α) : PyM α (SequencePlot α) := do
  let rabi ← load s.rabiRotations
  let thetas ← load s.azimuthalAngles
  let offsets ← load s.offsets
  let detuning ← load s.detuningRotations
  pure {
    rabi := List.zipWith (fun v t => ⟨v, t⟩) (List.zipWith (fun r theta => cis r theta) rabi thetas) offsets
    detuning := List.zipWith (fun v t => ⟨v, t⟩) detuning offsets }

/-- `dynamic_decoupling_sequence.py:174-209`: the numbers computed by `__str__`; each quotient is a new array -/
def sequenceTextH (s : SequenceObj α) : PyM α (List α × List α × List α × List α) := do
  let o ← unaryH (fun t => t / s.duration) s.offsets
  let o ← load o
  let r ← unaryH (fun r => r / PyFloat.pi) s.rabiRotations
  let r ← load r
  let a ← unaryH (fun a => a / PyFloat.pi) s.azimuthalAngles
  let a ← load a
  let d ← unaryH (fun d => d / PyFloat.pi) s.detuningRotations
  let d ← load d
  pure (o, r, a, d)

/-- `dynamic_decoupling_sequence.py:211-264` `DynamicDecouplingSequence.export_to_file` -/
def exportSequenceToFileH (s : SequenceObj α) (fs : FileSystem α)
    (filename fileFormat fileType coordinates : String) (maximumRabiRate maximumDetuningRate : α) :
    PyM α (Except PyErr Unit × FileSystem α) := fun h =>
  match convertH s maximumRabiRate maximumDetuningRate (lit 0) s.name h with
  | (.error e, h) => (.ok (.error e, fs), h)
  | (.ok c, h) => exportToFileH c fs filename fileFormat fileType coordinates h

end OpenControls
