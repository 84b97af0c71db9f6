import Verif.Spec.Families
import Verif.Spec.Robustness

/-!
# Specification: a sequence of ideal pulses on a noisy qubit

Between the instantaneous pulses the qubit evolves under noise.
-/

namespace OpenControls.Spec

open Complex

/-- The evolution from time `a` to `T` with instantaneous pulses at the given times, if `free a b` is the
evolution from `a` to `b` without pulses. -/
noncomputable def interleave (free : ℝ → ℝ → M2) (T : ℝ) :
    ℝ → List ℝ → List ℝ → List ℝ → List ℝ → M2
  | a, t :: ts, ω :: ωs, φ :: φs, δ :: δs =>
    interleave free T t ts ωs φs δs * pulseUnitary ω φ δ * free a t
  | a, _, _, _, _ => free a T

/-- The evolution of a qubit during the sequence, if `free a b` is the evolution from `a` to `b` without
pulses. -/
noncomputable def underNoise (free : ℝ → ℝ → M2) (s : Sequence ℝ) : M2 :=
  interleave free s.duration 0 s.offsets s.rabiRotations s.azimuthalAngles s.detuningRotations

/-- The evolution under dephasing noise `H(t) = β(t) σz / 2`. -/
noncomputable def dephasing (β : ℝ → ℝ) (a b : ℝ) : M2 :=
  NormedSpace.exp ((-I * ((∫ t in a..b, β t : ℝ) : ℂ) / 2) • σz)

/-- The evolution under static noise `H = (x σx + y σy + z σz) / 2`. -/
noncomputable def staticNoise (x y z : ℝ) (a b : ℝ) : M2 :=
  NormedSpace.exp ((-I * ((b - a : ℝ) : ℂ)) •
    ((1 / 2 : ℂ) • ((x : ℂ) • σx + (y : ℂ) • σy + (z : ℂ) • σz)))

/-- The probability to find the qubit in the state `|0⟩` after the evolution `U`, if it was in `|0⟩` before. -/
noncomputable def returnProbability (U : M2) : ℝ := ‖U 0 0‖ ^ 2

/-- Static noise of any direction changes the evolution only in second order in its strength. -/
def DecouplesStaticNoise (s : Sequence ℝ) : Prop :=
  ∀ x y z : ℝ, FirstOrderInsensitive fun e => underNoise (staticNoise (e * x) (e * y) (e * z)) s

open Classical in
/-- The sensitivity of the qubit to noise along an axis at a time: its sign flips at each π-pulse about one of
the other two axes. -/
noncomputable def sensitivityAlong (c : Axis) (s : Sequence ℝ) (t : ℝ) : ℝ :=
  (-1) ^ (s.offsets.zip (s.rabiRotations.zip (s.azimuthalAngles.zip s.detuningRotations))).countP
    fun p => p.1 < t ∧ ∃ a : Axis, a ≠ c ∧ p.2 = (a.rabi, a.azimuthal, a.detuning)

/-- The families and orders of which decoupling from static noise of any direction is claimed. -/
def Family.Universal : Family → Prop
  | .quadratic _ _ => True
  | .xyConcatenated l => ⌊l⌋₊ ≤ 2
  | _ => False

end OpenControls.Spec
