import Verif.Spec.Composite
import Mathlib.Analysis.Calculus.Deriv.Basic

/-!
# Specification: systematic errors and derivatives of evolutions
-/

namespace OpenControls.Spec

/-- amplitude error: every Rabi rate is off by the relative error `e` -/
def withAmplitudeError (e : ℝ) (c : DrivenControl ℝ) : DrivenControl ℝ :=
  { c with rabiRates := c.rabiRates.map ((1 + e) * ·) }

/-- detuning error: a constant `d` is added to every detuning -/
def withDetuningError (d : ℝ) (c : DrivenControl ℝ) : DrivenControl ℝ :=
  { c with detunings := c.detunings.map (· + d) }

/-- the control consisting of the first `n` segments -/
def firstSegments (n : ℕ) (c : DrivenControl ℝ) : DrivenControl ℝ :=
  { rabiRates := c.rabiRates.take n, azimuthalAngles := c.azimuthalAngles.take n,
    detunings := c.detunings.take n, durations := c.durations.take n, name := c.name }

/-- derivative of a matrix-valued function, entry by entry -/
def HasMatrixDerivAt (U : ℝ → M2) (U' : M2) (x : ℝ) : Prop :=
  ∀ i j, HasDerivAt (fun e => U e i j) (U' i j) x

/-- `U` is insensitive to its parameter at 0 to first order -/
def FirstOrderInsensitive (U : ℝ → M2) : Prop := HasMatrixDerivAt U 0 0

/-- `U` is insensitive to its parameter at 0 to first and second order -/
def SecondOrderInsensitive (U : ℝ → M2) : Prop :=
  ∃ U' : ℝ → M2, (∀ e, HasMatrixDerivAt U (U' e) e) ∧ U' 0 = 0 ∧ HasMatrixDerivAt U' 0 0

end OpenControls.Spec
