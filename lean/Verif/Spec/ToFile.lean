import Verif.Spec.Reload
import Verif.Spec.RoundedPipeline

/-!
# Specification: from the arguments of a predefined sequence to the numbers in a file

`fmt` is how the numbers are printed in the file, `parse` how its reader understands them.
-/

namespace OpenControls.Spec

variable {α : Type} [Add α] [Sub α] [Mul α] [Div α] [Neg α] [PyFloat α]

/-- the numbers that the file of a control in cylindrical coordinates contains, for the maximum Rabi rate `m` -/
def fileNumbers (c : DrivenControl α) (m : α) : List α :=
  m :: c.rabiRates.map (· / m) ++ c.azimuthalAngles ++ c.detunings ++ c.durations

/-- the numbers that the file of a control in Cartesian coordinates contains, for the maximum Rabi rate `m` -/
def fileNumbersCartesian (c : DrivenControl α) (m : α) : List α :=
  m :: c.amplitudeX.map (· / m) ++ c.amplitudeY.map (· / m) ++ c.detunings ++ c.durations

/-- the reader understands the numbers in a list as they were meant -/
def ReadsBack (fmt : α → String) (parse : List Char → Option α) (l : List α) : Prop :=
  ∀ x ∈ l, parse (fmt x).toList = some x

/-- the real values of segments (amplitude along x, along y, detuning, duration) -/
def segmentValues {r : Rounding} (l : List (Fl r × Fl r × Fl r × Fl r)) : List (ℝ × ℝ × ℝ × ℝ) :=
  l.map fun s => (s.1.val, s.2.1.val, s.2.2.1.val, s.2.2.2.val)

/-- the entries of two matrices differ by at most `ε` -/
def EntriesWithin (ε : ℝ) (U V : M2) : Prop := ∀ i j, ‖(U - V) i j‖ ≤ ε

/-- `U` does what the ideal pulses of a sequence do, up to `ε`; with pre and post rotations it is the identity or Z,
up to a phase and `ε`. -/
def CarriesOutWithin (ε : ℝ) (prePost : Bool) (exact : Sequence ℝ) (U : M2) : Prop :=
  EntriesWithin ε U (pulses exact) ∧
  (prePost = true → ∃ z : ℂ, ‖z‖ = 1 ∧ (EntriesWithin ε U (z • 1) ∨ EntriesWithin ε U (z • σz)))

end OpenControls.Spec
