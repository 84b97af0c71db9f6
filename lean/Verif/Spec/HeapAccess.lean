import Verif.Model.HeapAccess
import Verif.Spec.Heap

/-!
# Specification: reading a control or a sequence
-/

namespace OpenControls.Spec

variable {α : Type} [Add α] [Sub α] [Mul α] [Div α] [Neg α] [PyFloat α]

/-- the public ways to read a driven control -/
inductive ControlRead (α : Type) where
  | numberOfSegments
  | maximumRabiRate
  | maximumDetuning
  | amplitudeX
  | amplitudeY
  | angles
  | directions
  | times
  | maximumDuration
  | minimumDuration
  | duration
  | export (coordinates : String) (dimensionless : Bool)
  | text
  | toFile (files : FileSystem α) (filename fileFormat fileType coordinates : String)

/-- the public ways to read a sequence -/
inductive SequenceRead (α : Type) where
  | export
  | text
  | toFile (files : FileSystem α) (filename fileFormat fileType coordinates : String)
      (maximumRabiRate maximumDetuningRate : α)

/-- what a reading shows; the `N × 3` array of directions is listed row by row -/
inductive Reading (α : Type) where
  | count (n : Nat)
  | number (x : α)
  | array (xs : List α)
  | plot (data : PlotData α)
  | text (data : ControlText α)
  | sequencePlot (data : SequencePlot α)
  | sequenceText (data : List α × List α × List α × List α)
  | files (outcome : Except PyErr Unit × FileSystem α)

/-- what a reading returns: as before, but an array is an object on the heap -/
inductive Answer (α : Type) where
  | array (r : Nat)
  | plain (x : Reading α)

/-- what one sees of an answer -/
def Answer.view (h : Heap α) : Answer α → Reading α
  | .array r => .array (h.items r)
  | .plain x => x

/-- the reading, on values (`Verif/Model/DrivenControl.lean`) -/
def ControlRead.result (c : DrivenControl α) : ControlRead α → Except PyErr (Reading α)
  | .numberOfSegments => .ok (.count c.numberOfSegments)
  | .maximumRabiRate => c.maximumRabiRate.map .number
  | .maximumDetuning => c.maximumDetuning.map .number
  | .amplitudeX => .ok (.array c.amplitudeX)
  | .amplitudeY => .ok (.array c.amplitudeY)
  | .angles => .ok (.array c.angles)
  | .directions => c.directions.map fun v => .array (v.flatMap fun (x, y, z) => [x, y, z])
  | .times => .ok (.array c.times)
  | .maximumDuration => c.maximumDuration.map .number
  | .minimumDuration => c.minimumDuration.map .number
  | .duration => .ok (.number c.duration)
  | .export coordinates dimensionless => (c.exportPlot coordinates dimensionless).map .plot
  | .text => c.textData.map .text
  | .toFile fs f a b k => .ok (.files (c.exportToFile fs f a b k))

/-- the reading, statement by statement (`Verif/Model/HeapAccess.lean`) -/
def ControlRead.run (c : ControlObj) : ControlRead α → PyM α (Answer α)
  | .numberOfSegments => do let x ← numberOfSegmentsH c; pure (.plain (.count x))
  | .maximumRabiRate => do let x ← maximumRabiRateH c; pure (.plain (.number x))
  | .maximumDetuning => do let x ← maximumDetuningH c; pure (.plain (.number x))
  | .amplitudeX => do let x ← amplitudeXH c; pure (.array x)
  | .amplitudeY => do let x ← amplitudeYH c; pure (.array x)
  | .angles => do let x ← anglesH c; pure (.array x)
  | .directions => do let x ← directionsH c; pure (.array x)
  | .times => do let x ← timesH c; pure (.array x)
  | .maximumDuration => do let x ← maximumDurationH c; pure (.plain (.number x))
  | .minimumDuration => do let x ← minimumDurationH c; pure (.plain (.number x))
  | .duration => do let x ← durationH c; pure (.plain (.number x))
  | .export coordinates dimensionless => do
    let x ← exportPlotH c coordinates dimensionless; pure (.plain (.plot x))
  | .text => do let x ← controlTextH c; pure (.plain (.text x))
  | .toFile fs f a b k => do let x ← exportToFileH c fs f a b k; pure (.plain (.files x))

/-- the reading of a sequence, on values (`Verif/Model/Sequence.lean`) -/
def SequenceRead.result (s : Sequence α) : SequenceRead α → Except PyErr (Reading α)
  | .export => .ok (.sequencePlot s.exportPlot)
  | .text => .ok (.sequenceText s.textData)
  | .toFile fs f a b k Ω Δ => .ok (.files (s.exportToFile fs f a b k Ω Δ))

/-- the reading of a sequence, statement by statement (`Verif/Model/HeapAccess.lean`) -/
def SequenceRead.run (s : SequenceObj α) : SequenceRead α → PyM α (Answer α)
  | .export => do let x ← exportSequenceH s; pure (.plain (.sequencePlot x))
  | .text => do let x ← sequenceTextH s; pure (.plain (.sequenceText x))
  | .toFile fs f a b k Ω Δ => do
    let x ← exportSequenceToFileH s fs f a b k Ω Δ; pure (.plain (.files x))

end OpenControls.Spec

namespace OpenControls

/-- a control object as the constructor leaves it: its arrays exist and have equal lengths -/
structure ControlObj.WellFormed {α : Type} (h : Heap α) (c : ControlObj) : Prop where
  exist : ∀ r ∈ c.refs, r < h.length
  azimuthal : (h.items c.azimuthalAngles).length = (h.items c.rabiRates).length
  detuning : (h.items c.detunings).length = (h.items c.rabiRates).length
  durations : (h.items c.durations).length = (h.items c.rabiRates).length

/-- what a user does with a control: assign to items of arrays (any arrays), and read -/
inductive Spec.Step (α : Type) where
  | assign (r i : Nat) (v : α)
  | read (what : Spec.ControlRead α)

/-- one step on the heap: the answer to a reading is dropped, exceptions are caught -/
def Spec.Step.perform {α : Type} [Add α] [Sub α] [Mul α] [Div α] [Neg α] [PyFloat α]
    (c : ControlObj) (h : Heap α) : Spec.Step α → Heap α
  | .assign r i v => (PyM.setItem r i v h).2
  | .read what => (what.run c h).2

/-- the assignments among the steps -/
def Spec.Step.assignments {α : Type} (steps : List (Spec.Step α)) : List (Nat × Nat × α) :=
  steps.filterMap fun s => match s with
    | .assign r i v => some (r, i, v)
    | .read _ => none

end OpenControls
