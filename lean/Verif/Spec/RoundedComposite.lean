import Verif.Spec.Composite
import Verif.Spec.Extended
import Verif.Rounding

/-!
# Composite pulses computed in floating-point arithmetic: specification
-/

namespace OpenControls.Spec

variable {r : Rounding}

/-- The Schroedinger evolution under a control with the computed (rounded) rates, angles and
durations differs from `U` by at most `ε` in each matrix entry. -/
def PerformsWithin (ε : ℝ) (c : DrivenControl (Fl r)) (U : M2) : Prop :=
  ∀ i j, ‖(evolution (c.map Fl.val) - U) i j‖ ≤ ε

/-- `a` is one of the angles SCROFULOUS and WAMF1 are tabulated for, and `θ` is within `δ` of it. -/
def NearTabulated (δ θ a : ℝ) : Prop :=
  (a = Real.pi ∨ a = Real.pi / 2 ∨ a = Real.pi / 4) ∧ |θ - a| ≤ δ

end OpenControls.Spec
