import Verif.Model.ShapesExport

/-!
# Reading controls whose arrays have any shape

The accessors of `DrivenControl` that are not in `Verif/Model/Shapes.lean`, with `export` and `__str__`.
-/

namespace OpenControls

open PyFloat Py NdArray

variable {α : Type} [Add α] [Sub α] [Mul α] [Div α] [Neg α] [PyFloat α]

/-- `a[:, np.newaxis]`: a new axis after the first; used at `driven_control.py:270-276` -/
def NdArray.newAxis (a : NdArray α) : Except PyErr (NdArray α) :=
  match a.shape with
  | [] => .error .indexError
  | n :: rest => .ok ⟨n :: 1 :: rest, a.data⟩

/-- the items of `a` at place `i` of the first axis; used at `driven_control.py:270-276` -/
def NdArray.row (a : NdArray α) (i : Nat) : List α :=
  (a.data.drop (i * a.shape.tail.prod)).take a.shape.tail.prod

/-- `np.hstack((a, b, c))` for arrays with at least two axes: they are joined along the second axis and must have the same
shape otherwise; used at `driven_control.py:270-276` -/
def NdArray.hstack (a b c : NdArray α) : Except PyErr (NdArray α) :=
  match a.shape, b.shape, c.shape with
  | n :: p :: s, n' :: p' :: s', n'' :: p'' :: s'' =>
    if n = n' ∧ n = n'' ∧ s = s' ∧ s = s'' then
      .ok ⟨n :: (p + p' + p'') :: s, (List.range n).flatMap fun i => a.row i ++ b.row i ++ c.row i⟩
    else .error (.valueError "all the input array dimensions for the concatenation axis must match exactly")
  | _, _, _ => .error (.valueError "all the input arrays must have same number of dimensions")

/-- an arithmetic operation on two items of iterated arrays; used at `driven_control.py:564` -/
def Cell.bin (f : α → α → α) : Cell α → Cell α → Except PyErr (Cell α)
  | .num x, .num y => .ok (.num (f x y))
  | .num x, .sub b => .ok (.sub (b.un (f x)))
  | .sub a, .num y => .ok (.sub (a.un fun x => f x y))
  | .sub a, .sub b => (NdArray.bin f a b).map .sub

/-- an arithmetic function of an item of an iterated array; used at `driven_control.py:564` -/
def Cell.un (f : α → α) : Cell α → Cell α
  | .num x => .num (f x)
  | .sub a => .sub (a.un f)

/-- The dictionary returned by `DrivenControl.export`; absent keys are `none`.  A complex item is its real and imaginary
part. Used at `driven_control.py:545-572` -/
structure NdPlotData (α : Type) where
  xAmplitude : Option (List (PlotPoint (Cell α) (Cell α)))
  yAmplitude : Option (List (PlotPoint (Cell α) (Cell α)))
  rabiRate : Option (List (PlotPoint (Cell α) (Cell α × Cell α)))
  detuning : List (PlotPoint (Cell α) (Cell α))

/-- `[{"value": v, "duration": t} for v, t in zip(values, durations)]`;
used at `driven_control.py:555-570` -/
def zipPoints (values durations : NdArray α) : Except PyErr (List (PlotPoint (Cell α) (Cell α))) := do
  let v ← values.toList
  let t ← durations.toList
  return List.zipWith (fun v t => ⟨v, t⟩) v t

/-- the value `r * np.exp(1.0j * theta)` for items of iterated arrays, with its duration;
used at `driven_control.py:563-566` -/
def cisPoint (r : Cell α) (p : Cell α × Cell α) : Except PyErr (PlotPoint (Cell α) (Cell α × Cell α)) := do
  let x ← Cell.bin (fun r theta => r * cos theta) r p.1
  let y ← Cell.bin (fun r theta => r * sin theta) r p.1
  return ⟨(x, y), p.2⟩

namespace NdControl

/-- `driven_control.py:158-169` `number_of_segments` -/
def numberOfSegments (c : NdControl α) : Except PyErr Nat :=
  match c.rabiRates.shape with
  | [] => .error .indexError
  | n :: _ => .ok n

/-- `driven_control.py:171-182` `maximum_rabi_rate`: `np.amax` flattens -/
def maximumRabiRate (c : NdControl α) : Except PyErr α := npAmax c.rabiRates.data

/-- `driven_control.py:184-194` `maximum_detuning` -/
def maximumDetuning (c : NdControl α) : Except PyErr α := npAmax c.detunings.data

/-- `driven_control.py:294-305` `maximum_duration` -/
def maximumDuration (c : NdControl α) : Except PyErr α := npAmax c.durations.data

/-- `driven_control.py:307-318` `minimum_duration` -/
def minimumDuration (c : NdControl α) : Except PyErr α := npAmin c.durations.data

/-- `driven_control.py:253-255`: `np.sqrt(amplitude_x ** 2 + amplitude_y ** 2 + detunings ** 2)` -/
def amplitudes (c : NdControl α) : Except PyErr (NdArray α) := do
  let x ← c.amplitudeX
  let y ← c.amplitudeY
  let xy ← bin (· + ·) (x.un fun v => v * v) (y.un fun v => v * v)
  let xyz ← bin (· + ·) xy (c.detunings.un fun v => v * v)
  return xyz.un sqrt

/-- `driven_control.py:241-278` `directions` -/
def directions (c : NdControl α) : Except PyErr (NdArray α) := do
  let amplitudes ← c.amplitudes
  -- line 260
  let tolerance := pyMin (lit (1 / 100000000000000000000) * (← npAmax amplitudes.data))
    (lit (1 / 100000000))
  -- lines 262-264
  let safe := amplitudes.un fun a => if isCloseAtol tolerance a (lit 0) then lit 1 else a
  -- lines 266-268
  let x ← c.amplitudeX
  let nx ← bin (· / ·) x safe
  let y ← c.amplitudeY
  let ny ← bin (· / ·) y safe
  let nz ← bin (· / ·) c.detunings safe
  -- lines 270-276
  let nx ← nx.newAxis
  let ny ← ny.newAxis
  let nz ← nz.newAxis
  NdArray.hstack nx ny nz

/-- `driven_control.py:509-572` `export` -/
def exportPlot (c : NdControl α) (coordinates : String) (dimensionless : Bool) :
    Except PyErr (NdPlotData α) := do
  -- lines 534-538
  checkArguments (coordinateSystems.contains coordinates) "Unsupported coordinates provided: "
  -- lines 540-543
  let normalizer ← (if dimensionless then c.maximumRabiRate else .ok (lit 1) : Except PyErr α)
  -- lines 547-549
  let x ← c.amplitudeX
  let plotX := x.un fun x => x / normalizer
  let y ← c.amplitudeY
  let plotY := y.un fun y => y / normalizer
  let plotR := c.rabiRates.un fun r => r / normalizer
  if coordinates == "cartesian" then
    -- lines 554-560
    let xs ← zipPoints plotX c.durations
    let ys ← zipPoints plotY c.durations
    -- lines 568-570
    let ds ← zipPoints c.detunings c.durations
    return ⟨some xs, some ys, none, ds⟩
  else
    -- lines 562-566
    let r ← plotR.toList
    let a ← c.azimuthalAngles.toList
    let t ← c.durations.toList
    let rs ← (List.zip r (List.zip a t)).mapM fun p => cisPoint p.1 p.2
    -- lines 568-570
    let ds ← zipPoints c.detunings c.durations
    return ⟨none, none, some rs, ds⟩

/-- `driven_control.py:574-620`: the numbers and arrays that `__str__` prints -/
def textData (c : NdControl α) : Except PyErr (ControlText (Cell α)) := do
  -- lines 583-590
  let rates ← c.rabiRates.toList
  let maxRabi ← c.maximumRabiRate
  -- lines 592-594
  let angles ← c.azimuthalAngles.toList
  -- lines 596-603
  let detunings ← c.detunings.toList
  let maxDet ← c.maximumDetuning
  -- lines 605-607
  let durations ← c.durations.toList
  return {
    name := c.name
    rabiRates := rates.map fun r =>
      if ne maxRabi (lit 0) then .num (r.un fun r => r / maxRabi) else .zero
    rabiFactor := .num maxRabi
    azimuthalAngles := angles.map fun a => .num (a.un fun a => a / PyFloat.pi)
    detunings := detunings.map fun d =>
      if ne maxDet (lit 0) then .num (d.un fun d => d / maxDet) else .zero
    detuningFactor := .num maxDet
    durations := durations.map fun d => .num (d.un fun d => d / c.duration)
    durationFactor := .num c.duration }

end NdControl

end OpenControls
