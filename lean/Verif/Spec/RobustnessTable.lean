import Verif.Spec.Robustness

/-!
# Specification: which composite pulse cancels which error

The table a user consults to choose a composite pulse, for a rotation by `θ`.
-/

namespace OpenControls.Spec

/-- the schemes whose first-order response to an amplitude error vanishes -/
def Scheme.cancelsAmplitude : Scheme → Prop
  | .bb1 | .sk1 | .scrofulous | .corpseInBB1 | .corpseInSK1 | .corpseInScrofulous => True
  | .primitive | .corpse | .wamf1 => False

/-- the schemes whose first- and second-order responses to an amplitude error vanish: BB1 for every
angle, SK1 only for two full turns -/
def Scheme.cancelsAmplitudeTwice (θ : ℝ) : Scheme → Prop
  | .bb1 | .corpseInBB1 => True
  | .sk1 | .corpseInSK1 => θ = 4 * Real.pi
  | .primitive | .corpse | .scrofulous | .corpseInScrofulous | .wamf1 => False

/-- the schemes whose first-order response to a detuning error vanishes: everything containing
CORPSE; WAMF1 for the half turn; SCROFULOUS for no angle; and the others for whole turns only -/
def Scheme.cancelsDetuning (θ : ℝ) : Scheme → Prop
  | .corpse | .corpseInBB1 | .corpseInSK1 | .corpseInScrofulous => True
  | .wamf1 => Close θ Real.pi
  | .scrofulous => False
  | .primitive | .bb1 | .sk1 => ∃ n : ℤ, θ = n * (2 * Real.pi)

end OpenControls.Spec
