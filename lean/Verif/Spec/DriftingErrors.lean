import Verif.Spec.NoisyControl
import Verif.Spec.Robustness
import Mathlib.MeasureTheory.Integral.IntervalIntegral.Basic

/-!
# Specification: errors of the hardware that change during a control
-/

namespace OpenControls.Spec

open Complex

/-- errors of the hardware at every time: the relative error of the Rabi rate, the error of the phase of the drive (in
radians), and the error of the detuning -/
structure DriftingErrors where
  amplitude : ℝ → ℝ
  phase : ℝ → ℝ
  detuning : ℝ → ℝ

/-- the Hamiltonian at the time `t` when the control asks for the values `v` (Rabi rate, azimuthal angle, detuning) -/
noncomputable def DriftingErrors.hamiltonian (e : DriftingErrors) (t : ℝ) (v : ℝ × ℝ × ℝ) : M2 :=
  Spec.hamiltonian ((1 + e.amplitude t) * v.1) (v.2.1 + e.phase t) (v.2.2 + e.detuning t)

/-- `U t` is the evolution of the qubit from 0 to `t` under the control on such hardware: the solution of Schrödinger's
equation `U' = -i H U`. -/
def ErrantEvolution (c : DrivenControl ℝ) (e : DriftingErrors) (U : ℝ → M2) : Prop :=
  U 0 = 1 ∧ (∀ i j, ContinuousOn (fun t => U t i j) (Set.Icc 0 c.durations.sum)) ∧
    ∀ t v, DrivesAt c t v → HasRightDeriv U ((-I) • (e.hamiltonian t v * U t)) t

/-- phase error: a constant `p` is added to every azimuthal angle -/
def withPhaseError (p : ℝ) (c : DrivenControl ℝ) : DrivenControl ℝ :=
  { c with azimuthalAngles := c.azimuthalAngles.map (· + p) }

/-- Rabi rates, each enlarged by the average of the relative error `a` in its segment; the first segment starts at the
time `s` -/
noncomputable def averagedRates (a : ℝ → ℝ) : ℝ → List ℝ → List ℝ → List ℝ
  | s, Ω :: rates, τ :: durations =>
    (1 + (∫ x in s..s + τ, a x) / τ) * Ω :: averagedRates a (s + τ) rates durations
  | _, _, _ => []

/-- the control with the average amplitude error of each segment -/
noncomputable def withAveragedError (a : ℝ → ℝ) (c : DrivenControl ℝ) : DrivenControl ℝ :=
  { c with rabiRates := averagedRates a 0 c.rabiRates c.durations }

end OpenControls.Spec
