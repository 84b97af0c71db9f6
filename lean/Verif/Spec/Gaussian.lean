import Verif.Spec.Composite

/-!
# Specification: the modulated Gaussian pulse

A Gaussian of width `T/10` centred in `[0, T]`, times a sinusoid vanishing at the centre, sampled
at the midpoints of `n` equal segments.
-/

namespace OpenControls.Spec

/-- the Gaussian envelope -/
noncomputable def envelope (T t : ℝ) : ℝ := Real.exp (-(1 / 2) * ((t - T / 2) / (T / 10)) ^ 2)

/-- the envelope times the modulating sinusoid of frequency `f` -/
noncomputable def waveform (T f t : ℝ) : ℝ :=
  envelope T t * Real.sin (2 * Real.pi * f * (t - T / 2))

/-- midpoint of the `i`-th of `n` equal segments of `[0, T]` -/
noncomputable def sampleTime (T : ℝ) (n i : ℕ) : ℝ := (i + 1 / 2) * (T / n)

/-- `m` is the largest sample of `w` at the midpoints -/
def IsSampleMax (T : ℝ) (n : ℕ) (w : ℝ → ℝ) (m : ℝ) : Prop :=
  (∃ i < n, w (sampleTime T n i) = m) ∧ ∀ i < n, w (sampleTime T n i) ≤ m

/-- the arguments `new_modulated_gaussian_control` accepts -/
def GaussianArgs (Ω d T : ℝ) : Prop :=
  0 < Ω ∧ 0 < d ∧ d < T ∧ Real.sqrt (2 * Real.pi) / (T / 10) ≤ Ω

/-- The resonant control driving with the signed rates `v i` (a negative rate is a drive about the
opposite axis), `n` segments of duration `T/n`. -/
noncomputable def signedControl (T : ℝ) (n : ℕ) (v : ℕ → ℝ) : DrivenControl ℝ where
  rabiRates := (List.range n).map fun i => |v i|
  azimuthalAngles := (List.range n).map fun i => if 0 ≤ v i then 0 else Real.pi
  detunings := List.replicate n 0
  durations := List.replicate n (T / n)
  name := none

/-- rotation angle of the sampled Gaussian with largest rate `Ω`, where `m` is the largest sample of
the envelope -/
noncomputable def fullScaleAngle (Ω T : ℝ) (n : ℕ) (m : ℝ) : ℝ :=
  T / n * ((List.range n).map fun i => envelope T (sampleTime T n i) / m).sum * Ω

/-- the largest multiple of `2π` not above the angle, but at least `2π` -/
noncomputable def fullRotationAngle (R : ℝ) : ℝ :=
  max (2 * Real.pi * ⌊R / (2 * Real.pi)⌋) (2 * Real.pi)

end OpenControls.Spec
