import Verif.Spec.Conversion
import Verif.Spec.Noise

/-!
# Specification: driven controls on a noisy qubit

The noise is a Hamiltonian `(x(t) σx + y(t) σy + z(t) σz) / 2` that is added to the one of the control.  Evolutions are
solutions of Schrödinger's equation `U' = -i H U`.  As the control jumps between segments, the derivative is the one
from the right.
-/

namespace OpenControls.Spec

open Complex

/-- noise in every direction, at every time -/
structure QubitNoise where
  x : ℝ → ℝ
  y : ℝ → ℝ
  z : ℝ → ℝ

/-- `(x(t) σx + y(t) σy + z(t) σz) / 2` -/
noncomputable def QubitNoise.at (N : QubitNoise) (t : ℝ) : M2 :=
  (1 / 2 : ℂ) • ((N.x t : ℂ) • σx + (N.y t : ℂ) • σy + (N.z t : ℂ) • σz)

/-- the noise is never stronger than `M` in the time `T` -/
def QubitNoise.Bounded (N : QubitNoise) (T M : ℝ) : Prop :=
  ∀ t ∈ Set.Icc 0 T, √(N.x t ^ 2 + N.y t ^ 2 + N.z t ^ 2) ≤ M

/-- derivative from the right of a matrix-valued function, entry by entry -/
def HasRightDeriv (U : ℝ → M2) (U' : M2) (t : ℝ) : Prop :=
  ∀ i j, HasDerivWithinAt (fun s => U s i j) (U' i j) (Set.Ici t) t

/-- `U t` is the evolution of the qubit from 0 to `t` under the control and the noise. -/
def NoisyEvolution (c : DrivenControl ℝ) (N : QubitNoise) (U : ℝ → M2) : Prop :=
  U 0 = 1 ∧ (∀ i j, ContinuousOn (fun t => U t i j) (Set.Icc 0 c.durations.sum)) ∧
    ∀ t v, DrivesAt c t v → HasRightDeriv U ((-I) • ((hamiltonian v.1 v.2.1 v.2.2 + N.at t) * U t)) t

/-- `free a b` is the evolution of the qubit from `a` to `b` under the noise alone, for times up to `T`. -/
def FreeEvolution (N : QubitNoise) (T : ℝ) (free : ℝ → ℝ → M2) : Prop :=
  ∀ a ∈ Set.Icc 0 T, free a a = 1 ∧ (∀ i j, ContinuousOn (fun t => free a t i j) (Set.Icc a T)) ∧
    ∀ t ∈ Set.Ico a T, HasRightDeriv (free a) ((-I) • (N.at t * free a t)) t

/-- the time the pulses of a sequence take on the hardware altogether -/
noncomputable def pulseTimes (R D m : ℝ) (s : Sequence ℝ) : ℝ := ((pulseList s).map (width R D m)).sum

end OpenControls.Spec
