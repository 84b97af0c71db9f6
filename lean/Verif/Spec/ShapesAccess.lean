import Verif.Spec.Broadcast
import Verif.Model.ShapesAccess

/-!
# Specification: reading controls with arrays of any shape
-/

namespace OpenControls.Spec

variable {α : Type}

/-- exported numbers as items of iterated arrays -/
def plotCells (p : PlotData α) : NdPlotData α :=
  { xAmplitude := p.xAmplitude.map (List.map fun q => ⟨.num q.value, .num q.duration⟩)
    yAmplitude := p.yAmplitude.map (List.map fun q => ⟨.num q.value, .num q.duration⟩)
    rabiRate := p.rabiRate.map (List.map fun q => ⟨(.num q.value.re, .num q.value.im), .num q.duration⟩)
    detuning := p.detuning.map fun q => ⟨.num q.value, .num q.duration⟩ }

/-- a printed number as an item of an iterated array -/
def shownCell : Shown α → Shown (Cell α)
  | .num x => .num (.num x)
  | .zero => .zero

/-- the printed numbers as items of iterated arrays -/
def textCells (t : ControlText α) : ControlText (Cell α) :=
  { name := t.name
    rabiRates := t.rabiRates.map shownCell
    rabiFactor := .num t.rabiFactor
    azimuthalAngles := t.azimuthalAngles.map shownCell
    detunings := t.detunings.map shownCell
    detuningFactor := .num t.detuningFactor
    durations := t.durations.map shownCell
    durationFactor := .num t.durationFactor }

/-- an item of an iterated array that is a single number, or an array with a single number in it -/
def Single (cell : Cell α) (x : α) : Prop := cell = .num x ∨ ∃ s : List ℕ, s.prod = 1 ∧ cell = .sub ⟨s, [x]⟩

/-- the same control with its azimuthal angles as a `1 × n` array -/
def rowAngles (c : DrivenControl α) : NdControl α :=
  { flatControl c with azimuthalAngles := ⟨[1, c.azimuthalAngles.length], c.azimuthalAngles⟩ }

/-- the `n × 3` array of a list of directions -/
def directionRows (l : List (α × α × α)) : NdArray α := ⟨[l.length, 3], l.flatMap fun v => [v.1, v.2.1, v.2.2]⟩

/-- the same control with its detunings as an `n × 1` array -/
def columnDetunings (c : DrivenControl α) : NdControl α :=
  { flatControl c with detunings := ⟨[c.detunings.length, 1], c.detunings⟩ }

/-- the same control with its detunings as a `1 × n` array -/
def rowDetunings (c : DrivenControl α) : NdControl α :=
  { flatControl c with detunings := ⟨[1, c.detunings.length], c.detunings⟩ }

/-- one segment for every detuning of `c` and every segment of `c`: the Rabi rate and azimuthal angle of the latter with
the former -/
def crossed (c : DrivenControl α) : DrivenControl α :=
  { rabiRates := c.detunings.flatMap fun _ => c.rabiRates
    azimuthalAngles := c.detunings.flatMap fun _ => c.azimuthalAngles
    detunings := c.detunings.flatMap fun d => c.rabiRates.map fun _ => d
    durations := c.detunings.flatMap fun _ => c.durations
    name := c.name }

end OpenControls.Spec
