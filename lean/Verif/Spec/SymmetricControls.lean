import Verif.Spec.Reversal
import Verif.Spec.Composite
import Verif.Spec.Families

/-!
# Specification: errors that are symmetric about the middle of a control
-/

namespace OpenControls.Spec

/-- errors of each segment: the Rabi rate of segment `i` is off by the relative error `a i`, its detuning by `d i` -/
def withSegmentErrors (a d : ℕ → ℝ) (c : DrivenControl ℝ) : DrivenControl ℝ :=
  { c with
    rabiRates := c.rabiRates.mapIdx fun i r => (1 + a i) * r
    detunings := c.detunings.mapIdx fun i δ => δ + d i }

/-- the same error in the first and the last of `n` segments, in the second and the last but one, and so on -/
def SymmetricErrors (n : ℕ) (a : ℕ → ℝ) : Prop := ∀ i < n, a (n - 1 - i) = a i

/-- every segment that drives the qubit does it along the axis with the azimuthal angle `φ` (in either direction) -/
def DrivesAlong (φ : ℝ) (c : DrivenControl ℝ) : Prop :=
  ∀ (k : ℕ) (Ω ψ : ℝ), c.rabiRates[k]? = some Ω → c.azimuthalAngles[k]? = some ψ → Ω = 0 ∨ Real.sin (ψ - φ) = 0

/-- the azimuthal angle of the X or Y pulses of a predefined sequence that has only one kind of them: CPMG and Uhrig sequences
have Y pulses, the others X pulses -/
noncomputable def Family.pulseAxis : Family → ℝ
  | .cpmg _ => Real.pi / 2
  | .uhrig _ => Real.pi / 2
  | _ => 0

end OpenControls.Spec
