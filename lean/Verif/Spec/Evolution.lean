import Mathlib.Analysis.Normed.Algebra.MatrixExponential
import Mathlib.Analysis.SpecialFunctions.Trigonometric.Basic
import Mathlib.Data.Matrix.Mul
import Mathlib.LinearAlgebra.Matrix.Notation

/-!
# Specification: the quantum evolution a control or a sequence stands for

Nothing here mentions the model.  The Pauli matrices are those of `constants.py:22-24`, the
Hamiltonian is the documented one (`driven_control.py`, class docstring), the pulse unitary is the
documented one (`dynamic_decoupling_sequence.py:61-66`).
-/

namespace OpenControls.Spec

open Complex

/-- 2x2 complex matrices -/
abbrev M2 : Type := Matrix (Fin 2) (Fin 2) ℂ

/-- `SIGMA_X` -/
def σx : M2 := !![0, 1; 1, 0]
/-- `SIGMA_Y` -/
def σy : M2 := !![0, -I; I, 0]
/-- `SIGMA_Z` -/
def σz : M2 := !![1, 0; 0, -1]

/-- `H = (Ω cos φ σx + Ω sin φ σy + Δ σz) / 2` -/
noncomputable def hamiltonian (Ω φ Δ : ℝ) : M2 :=
  (1 / 2 : ℂ) • (((Ω * Real.cos φ : ℝ) : ℂ) • σx + ((Ω * Real.sin φ : ℝ) : ℂ) • σy + (Δ : ℂ) • σz)

/-- Schroedinger evolution under a constant Hamiltonian for a time `t`: `exp(-i H t)` -/
noncomputable def segmentUnitary (Ω φ Δ t : ℝ) : M2 :=
  NormedSpace.exp ((-I * (t : ℂ)) • hamiltonian Ω φ Δ)

/-- An instantaneous pulse `exp(-i/2 (ω cos φ σx + ω sin φ σy + δ σz))` -/
noncomputable def pulseUnitary (ω φ δ : ℝ) : M2 := NormedSpace.exp ((-I) • hamiltonian ω φ δ)

/-- The rotation by `θ` about the axis `(cos φ, sin φ, 0)`: `exp(-i θ/2 (cos φ σx + sin φ σy))` -/
noncomputable def rotation (θ φ : ℝ) : M2 :=
  NormedSpace.exp ((-I * ((θ / 2 : ℝ) : ℂ)) •
    (((Real.cos φ : ℝ) : ℂ) • σx + ((Real.sin φ : ℝ) : ℂ) • σy))

/-- The evolution under a piecewise-constant control given by its arrays of Rabi rates, azimuthal
angles, detunings and durations, in time order: the first segment acts first, i.e. is the rightmost
factor. -/
noncomputable def controlEvolution : List ℝ → List ℝ → List ℝ → List ℝ → M2
  | Ω :: Ωs, φ :: φs, Δ :: Δs, t :: ts =>
    controlEvolution Ωs φs Δs ts * segmentUnitary Ω φ Δ t
  | _, _, _, _ => 1

/-- The product of the instantaneous pulses of a sequence, in time order. -/
noncomputable def pulseProduct : List ℝ → List ℝ → List ℝ → M2
  | ω :: ωs, φ :: φs, δ :: δs => pulseProduct ωs φs δs * pulseUnitary ω φ δ
  | _, _, _ => 1

/-- Equality up to a global phase. -/
def EqUpToPhase (A B : M2) : Prop := ∃ z : ℂ, ‖z‖ = 1 ∧ A = z • B

end OpenControls.Spec
