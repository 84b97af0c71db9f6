import Mathlib.Analysis.SpecialFunctions.Trigonometric.Inverse

/-!
# Specification for C107: what is left of an error after BB1, SK1 and CORPSE

Formulas only; nothing here refers to the model.
-/

namespace OpenControls.Spec

/-- cosine of half the angle by which BB1 misses a rotation by `4πt` when all Rabi rates are `1 + e` times too large -/
noncomputable def bb1Overlap (t e : ℝ) : ℝ :=
  (1 - 2 * t ^ 2 * Real.sin (Real.pi * e) ^ 2) * Real.cos (2 * Real.pi * t * e) +
    2 * t * Real.sin (Real.pi * e) * (1 - t ^ 2 * (1 - Real.cos (Real.pi * e))) *
      Real.sin (2 * Real.pi * t * e)

/-- the same for SK1 -/
noncomputable def sk1Overlap (t e : ℝ) : ℝ :=
  (1 - 2 * t ^ 2 * Real.sin (Real.pi * e) ^ 2) * Real.cos (2 * Real.pi * t * e) +
    t * Real.sin (2 * Real.pi * e) * Real.sin (2 * Real.pi * t * e)

/-- the same for a single pulse by the angle `θ` whose detuning is `e` times its Rabi rate -/
noncomputable def detunedOverlap (θ e : ℝ) : ℝ :=
  Real.cos (θ / 2) * Real.cos (θ / 2 * √(1 + e ^ 2)) +
    Real.sin (θ / 2) * Real.sin (θ / 2 * √(1 + e ^ 2)) / √(1 + e ^ 2)

/-- the coefficient of the squared detuning in the error of CORPSE for the angle `θ` -/
noncomputable def corpseResidue (θ : ℝ) : ℝ :=
  Real.sin (2 * Real.arcsin (Real.sin (θ / 2) / 2)) - (θ + Real.sin θ) / 4

end OpenControls.Spec
