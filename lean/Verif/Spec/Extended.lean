import Verif.Model.DrivenPredefined
import Verif.Model.SequencePredefined
import Verif.Spec.Composite
import Verif.Extended

/-!
# Specification: the public constructors at any number type, and results that are ordinary numbers
-/

namespace OpenControls

variable {α β : Type}

/-- a control with a function applied to all its numbers -/
def DrivenControl.map (f : α → β) (c : DrivenControl α) : DrivenControl β where
  rabiRates := c.rabiRates.map f
  azimuthalAngles := c.azimuthalAngles.map f
  detunings := c.detunings.map f
  durations := c.durations.map f
  name := c.name

/-- a sequence with a function applied to all its numbers -/
def Sequence.map (f : α → β) (s : Sequence α) : Sequence β where
  duration := f s.duration
  offsets := s.offsets.map f
  rabiRotations := s.rabiRotations.map f
  azimuthalAngles := s.azimuthalAngles.map f
  detuningRotations := s.detuningRotations.map f
  name := s.name

/-- all numbers of a control -/
def DrivenControl.numbers (c : DrivenControl α) : List α :=
  c.rabiRates ++ c.azimuthalAngles ++ c.detunings ++ c.durations

/-- all numbers of a sequence -/
def Sequence.numbers (s : Sequence α) : List α :=
  s.duration :: (s.offsets ++ s.rabiRotations ++ s.azimuthalAngles ++ s.detuningRotations)

/-- an exported value with a function applied to its numbers -/
def Val.map (f : α → β) : Val α → Val β
  | .num x => .num (f x)
  | .arr l => .arr (l.map f)
  | .str s => .str s

/-- all numbers of an exported value -/
def Val.numbers : Val α → List α
  | .num x => [x]
  | .arr l => l
  | .str _ => []

/-- an exported dictionary with a function applied to its numbers -/
def mapDict (f : α → β) (d : List (String × Val α)) : List (String × Val β) :=
  d.map fun kv => (kv.1, kv.2.map f)

/-- a file with a function applied to its numbers -/
def FileContent.map (f : α → β) : FileContent α → FileContent β
  | .csv header rows => .csv header (rows.map (List.map f))
  | .json fields => .json (mapDict f fields)

/-- all numbers in a file -/
def FileContent.numbers : FileContent α → List α
  | .csv _ rows => rows.flatten
  | .json fields => fields.flatMap fun kv => kv.2.numbers

/-- a file system with a function applied to the numbers in its files -/
def FileSystem.map (f : α → β) (fs : FileSystem α) : FileSystem β :=
  fun n => (fs n).map (FileContent.map f)

/-- a plot point with a function applied to its numbers -/
def PlotPoint.mapReal (f : α → β) (p : PlotPoint α α) : PlotPoint β β := ⟨f p.value, f p.duration⟩

/-- a plot point with a function applied to its numbers -/
def PlotPoint.mapCplx (f : α → β) (p : PlotPoint α (Cplx α)) : PlotPoint β (Cplx β) :=
  ⟨⟨f p.value.re, f p.value.im⟩, f p.duration⟩

/-- plot data with a function applied to all numbers -/
def PlotData.map (f : α → β) (d : PlotData α) : PlotData β where
  xAmplitude := d.xAmplitude.map (List.map (PlotPoint.mapReal f))
  yAmplitude := d.yAmplitude.map (List.map (PlotPoint.mapReal f))
  rabiRate := d.rabiRate.map (List.map (PlotPoint.mapCplx f))
  detuning := d.detuning.map (PlotPoint.mapReal f)

/-- a printed entry with a function applied to its number -/
def Shown.map (f : α → β) : Shown α → Shown β
  | .num x => .num (f x)
  | .zero => .zero

/-- printed data with a function applied to all numbers -/
def ControlText.map (f : α → β) (t : ControlText α) : ControlText β where
  name := t.name
  rabiRates := t.rabiRates.map (Shown.map f)
  rabiFactor := f t.rabiFactor
  azimuthalAngles := t.azimuthalAngles.map (Shown.map f)
  detunings := t.detunings.map (Shown.map f)
  detuningFactor := f t.detuningFactor
  durations := t.durations.map (Shown.map f)
  durationFactor := f t.durationFactor

/-- an ordinary number: neither infinite nor NaN -/
def XR.Finite (x : XR) : Prop := ∃ r : ℝ, x = .fin r

namespace Spec

section
variable [Add α] [Sub α] [Mul α] [Div α] [Neg α] [PyFloat α]

/-- the constructor of a composite pulse -/
def Scheme.call : Scheme → α → α → α → Option String → Except PyErr (DrivenControl α)
  | .primitive => newPrimitiveControl
  | .bb1 => newBB1Control
  | .sk1 => newSK1Control
  | .scrofulous => newScrofulousControl
  | .corpse => newCorpseControl
  | .corpseInBB1 => newCorpseInBB1Control
  | .corpseInSK1 => newCorpseInSK1Control
  | .corpseInScrofulous => newCorpseInScrofulousControl
  | .wamf1 => newWamf1Control

/-- The ten predefined sequences with their numeric arguments other than the duration. -/
inductive Predefined (α : Type) where
  | ramsey
  | spinEcho
  | carrPurcell (count : α)
  | cpmg (count : α)
  | uhrig (count : α)
  | periodic (count : α)
  | walsh (order : α)
  | quadratic (inner outer : α)
  | xConcatenated (order : α)
  | xyConcatenated (order : α)

/-- the same sequence with a function applied to its arguments -/
def Predefined.map (f : α → β) : Predefined α → Predefined β
  | .ramsey => .ramsey
  | .spinEcho => .spinEcho
  | .carrPurcell n => .carrPurcell (f n)
  | .cpmg n => .cpmg (f n)
  | .uhrig n => .uhrig (f n)
  | .periodic n => .periodic (f n)
  | .walsh k => .walsh (f k)
  | .quadratic n m => .quadratic (f n) (f m)
  | .xConcatenated l => .xConcatenated (f l)
  | .xyConcatenated l => .xyConcatenated (f l)

/-- the arguments other than the duration -/
def Predefined.args : Predefined α → List α
  | .ramsey | .spinEcho => []
  | .carrPurcell n | .cpmg n | .uhrig n | .periodic n | .walsh n | .xConcatenated n
  | .xyConcatenated n => [n]
  | .quadratic n m => [n, m]

/-- the call of the public function -/
def Predefined.call (s : Predefined α) (T : α) (prePost : Bool) (name : Option String) :
    Except PyErr (Sequence α) :=
  match s with
  | .ramsey => newRamseySequence T prePost name
  | .spinEcho => newSpinEchoSequence T prePost name
  | .carrPurcell n => newCarrPurcellSequence T n prePost name
  | .cpmg n => newCPMGSequence T n prePost name
  | .uhrig n => newUhrigSequence T n prePost name
  | .periodic n => newPeriodicSequence T n prePost name
  | .walsh k => newWalshSequence T k prePost name
  | .quadratic n m => newQuadraticSequence T n m prePost name
  | .xConcatenated l => newXConcatenatedSequence T l prePost name
  | .xyConcatenated l => newXYConcatenatedSequence T l prePost name

end

end Spec

end OpenControls
