import Verif.Proofs.OperatorNorm
import Mathlib.Analysis.SpecialFunctions.Exponential
import Mathlib.Analysis.Calculus.MeanValue

/-!
# The evolution depends on the control with Lipschitz constant 1
-/

namespace OpenControls

open Spec Complex

open scoped Matrix.Norms.L2Operator

theorem exp_norm {A : M2} (hA : A ∈ skewAdjoint M2) : ‖NormedSpace.exp A‖ = 1 :=
  letI : NormedAlgebra ℚ M2 := NormedAlgebra.restrictScalars ℚ ℂ M2
  CStarRing.norm_of_mem_unitary (NormedSpace.exp_mem_unitary_of_mem_skewAdjoint hA)

theorem exp_dist {A B : M2} (hA : A ∈ skewAdjoint M2) (hB : B ∈ skewAdjoint M2) :
    ‖NormedSpace.exp A - NormedSpace.exp B‖ ≤ ‖A - B‖ := by
  let f : ℝ → M2 := fun s => NormedSpace.exp (s • A) * NormedSpace.exp ((1 - s) • B)
  have hd : ∀ s : ℝ, HasDerivAt f
      (NormedSpace.exp (s • A) * (A - B) * NormedSpace.exp ((1 - s) • B)) s := by
    intro s
    have h1 := hasDerivAt_exp_smul_const (𝕂 := ℝ) A s
    have h2 := (hasDerivAt_exp_smul_const' (𝕂 := ℝ) B (1 - s)).scomp s ((hasDerivAt_id s).const_sub 1)
    have h3 := h1.mul h2
    refine h3.congr_deriv ?_
    simp only [Function.comp, neg_smul, one_smul, mul_sub, sub_mul, mul_assoc, mul_neg]
    abel
  have hn : ∀ s ∈ Set.Ico (0 : ℝ) 1,
      ‖NormedSpace.exp (s • A) * (A - B) * NormedSpace.exp ((1 - s) • B)‖ ≤ ‖A - B‖ := by
    intro s _
    have e1 := exp_norm (skewAdjoint.smul_mem s hA)
    have e2 := exp_norm (skewAdjoint.smul_mem (1 - s) hB)
    refine (norm_mul_le _ _).trans ?_
    rw [e2, mul_one]
    refine (norm_mul_le _ _).trans ?_
    rw [e1, one_mul]
  have := norm_image_sub_le_of_norm_deriv_le_segment_01' (f := f)
    (fun s _ => (hd s).hasDerivWithinAt) hn
  simpa [f] using this

theorem su2_skew (b c d : ℝ) : su2 0 b c d ∈ skewAdjoint M2 := by
  rw [skewAdjoint.mem_iff, su2_star]
  ext i j
  fin_cases i <;> fin_cases j <;> simp [su2, Complex.ext_iff]

theorem su2_exponent (x y z t : ℝ) : (-I * (t : ℂ)) •
    ((1 / 2 : ℂ) • ((x : ℂ) • σx + (y : ℂ) • σy + (z : ℂ) • σz)) =
      su2 0 (x * t / 2) (y * t / 2) (z * t / 2) := by
  rw [su2_eq]
  simp only [smul_add, smul_smul]
  push_cast
  simp only [zero_smul, zero_add]
  congr 1
  · congr 1 <;> congr 1 <;> ring
  · congr 1; ring

/-- Evolution under a constant field depends on the field with Lipschitz constant `t/2`. -/
theorem field_dist (x y z t x' y' z' t' : ℝ) :
    ‖NormedSpace.exp ((-I * (t : ℂ)) •
        ((1 / 2 : ℂ) • ((x : ℂ) • σx + (y : ℂ) • σy + (z : ℂ) • σz))) -
      NormedSpace.exp ((-I * (t' : ℂ)) •
        ((1 / 2 : ℂ) • ((x' : ℂ) • σx + (y' : ℂ) • σy + (z' : ℂ) • σz)))‖ ≤
      Real.sqrt ((x * t - x' * t') ^ 2 + (y * t - y' * t') ^ 2 + (z * t - z' * t') ^ 2) / 2 := by
  rw [su2_exponent, su2_exponent]
  refine (exp_dist (su2_skew _ _ _) (su2_skew _ _ _)).trans ?_
  refine le_of_sq_le_sq (le_of_eq ?_) (by positivity)
  rw [su2_sub, su2_norm_sq, div_pow, Real.sq_sqrt (by positivity)]
  ring

theorem field_norm (x y z t : ℝ) : ‖NormedSpace.exp ((-I * (t : ℂ)) •
    ((1 / 2 : ℂ) • ((x : ℂ) • σx + (y : ℂ) • σy + (z : ℂ) • σz)))‖ = 1 := by
  rw [su2_exponent]
  exact exp_norm (su2_skew _ _ _)

end OpenControls
