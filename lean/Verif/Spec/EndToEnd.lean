import Verif.Spec.Families
import Verif.Spec.Conversion
import Verif.Spec.Composite

/-!
# Specification: predefined sequences on hardware
-/

namespace OpenControls.Spec

/-- The predefined sequences that have at most one pulse at each time: all but the XY-concatenated
sequences, and of those the ones of order one without pre and post rotations and of order two. -/
def Family.Separate : Family → Bool → Prop
  | .xyConcatenated l, prePost => l < 3 ∧ (l < 2 → prePost = false)
  | _, _ => True

/-- Any two of the instants 0, `T` and the times of the pulses are equal or at least `gap` apart. -/
def Apart (gap : ℝ) (s : Sequence ℝ) : Prop :=
  ∀ a ∈ 0 :: s.duration :: s.offsets, ∀ b ∈ 0 :: s.duration :: s.offsets, a < b → gap ≤ b - a

/-- the time a π-pulse takes at most on hardware with maximum Rabi rate `R`, maximum detuning rate `D`
and minimum segment duration `m` -/
noncomputable def pulseTime (R D m : ℝ) : ℝ := max (max (Real.pi / R) (Real.pi / D)) m

/-- The control does what the sequence of ideal pulses does: it lasts as long and, for sequences longer
than 1e-8, has their product as evolution; with pre and post rotations that is the identity or Z up to
a phase. -/
def CarriesOut (T : ℝ) (prePost : Bool) (s : Sequence ℝ) (c : DrivenControl ℝ) : Prop :=
  c.duration = T ∧
  (1 / 10 ^ 8 < T → evolution c = pulses s ∧
    (prePost = true → EqUpToPhase (evolution c) 1 ∨ EqUpToPhase (evolution c) σz))

end OpenControls.Spec
