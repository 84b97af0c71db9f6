import Verif.Spec.Evolution
import Mathlib.LinearAlgebra.Complex.Module
import Mathlib.Analysis.SpecialFunctions.Exponential
import Mathlib.Topology.Algebra.Module.FiniteDimension

/-!
# Closed form of the matrix exponentials: quaternion matrices
-/

namespace OpenControls

open Complex Spec

/-- `a - i (b σx + c σy + d σz)` -/
noncomputable def su2 (a b c d : ℝ) : M2 := !![⟨a, -d⟩, ⟨-c, -b⟩; ⟨c, -b⟩, ⟨a, d⟩]

theorem su2_eq (a b c d : ℝ) :
    su2 a b c d = (a : ℂ) • (1 : M2) + (-I) • ((b : ℂ) • σx + (c : ℂ) • σy + (d : ℂ) • σz) := by
  ext i j
  fin_cases i <;> fin_cases j <;>
    simp [su2, σx, σy, σz, Complex.ext_iff]

theorem su2_mul (a b c d a' b' c' d' : ℝ) :
    su2 a b c d * su2 a' b' c' d' =
      su2 (a * a' - b * b' - c * c' - d * d') (a * b' + b * a' + c * d' - d * c')
        (a * c' - b * d' + c * a' + d * b') (a * d' + b * c' - c * b' + d * a') := by
  ext i j
  fin_cases i <;> fin_cases j <;>
    simp [su2, Matrix.mul_apply, Fin.sum_univ_two, Complex.ext_iff] <;> constructor <;> ring

theorem su2_one : su2 1 0 0 0 = 1 := by
  ext i j
  fin_cases i <;> fin_cases j <;> simp [su2, Complex.ext_iff]

theorem su2_neg (a b c d : ℝ) : -su2 a b c d = su2 (-a) (-b) (-c) (-d) := by
  ext i j
  fin_cases i <;> fin_cases j <;> simp [su2, Complex.ext_iff]

theorem su2_inj {a b c d a' b' c' d' : ℝ} :
    su2 a b c d = su2 a' b' c' d' ↔ a = a' ∧ b = b' ∧ c = c' ∧ d = d' := by
  constructor
  · intro h
    have h00 := congrFun (congrFun h 0) 0
    have h10 := congrFun (congrFun h 1) 0
    simp [su2] at h00 h10
    tauto
  · rintro ⟨rfl, rfl, rfl, rfl⟩; rfl

/-- The exponential of `-i θ n·σ` for a unit vector `n`. -/
theorem exp_pauli (θ nx ny nz : ℝ) (hn : nx ^ 2 + ny ^ 2 + nz ^ 2 = 1) :
    NormedSpace.exp ((-I * (θ : ℂ)) • ((nx : ℂ) • σx + (ny : ℂ) • σy + (nz : ℂ) • σz)) =
      su2 (Real.cos θ) (Real.sin θ * nx) (Real.sin θ * ny) (Real.sin θ * nz) := by
  have hJ : su2 0 nx ny nz * su2 0 nx ny nz = -1 := by
    rw [su2_mul, ← su2_one, su2_neg, su2_inj]
    refine ⟨by linarith, by ring, by ring, by ring⟩
  let f : ℂ →ₐ[ℝ] M2 := Complex.liftAux (su2 0 nx ny nz) hJ
  have hf : Continuous f := f.toLinearMap.continuous_of_finiteDimensional
  have h1 : f ((θ : ℂ) * I) =
      (-I * (θ : ℂ)) • ((nx : ℂ) • σx + (ny : ℂ) • σy + (nz : ℂ) • σz) := by
    have : f ((θ : ℂ) * I) = θ • su2 0 nx ny nz := by
      simp [f, Complex.liftAux_apply]
    rw [this]
    ext i j
    fin_cases i <;> fin_cases j <;> simp [su2, σx, σy, σz, Complex.ext_iff]
  rw [← h1]
  have h2 : f (NormedSpace.exp ((θ : ℂ) * I)) = NormedSpace.exp (f ((θ : ℂ) * I)) := by
    open scoped Matrix.Norms.Operator in
    exact NormedSpace.map_exp f hf _
  rw [← h2, ← Complex.exp_eq_exp_ℂ, Complex.exp_mul_I]
  simp only [f, Complex.liftAux_apply]
  ext i j
  fin_cases i <;> fin_cases j <;>
    simp [su2, Complex.ext_iff, Complex.cos_ofReal_re, Complex.sin_ofReal_re, Algebra.algebraMap_eq_smul_one]

theorem rotation_eq (θ φ : ℝ) :
    rotation θ φ = su2 (Real.cos (θ / 2)) (Real.sin (θ / 2) * Real.cos φ)
      (Real.sin (θ / 2) * Real.sin φ) 0 := by
  have h := exp_pauli (θ / 2) (Real.cos φ) (Real.sin φ) 0
    (by nlinarith [Real.cos_sq_add_sin_sq φ])
  rw [mul_zero] at h
  rw [← h, rotation]
  simp

theorem pulseUnitary_eq_segmentUnitary (ω φ δ : ℝ) :
    pulseUnitary ω φ δ = segmentUnitary ω φ δ 1 := by
  simp [pulseUnitary, segmentUnitary]

/-- A segment performs the rotation `rate * time`. -/
theorem segmentUnitary_eq_pulseUnitary (Ω φ Δ t : ℝ) :
    segmentUnitary Ω φ Δ t = pulseUnitary (Ω * t) φ (Δ * t) := by
  unfold segmentUnitary pulseUnitary
  congr 1
  simp only [hamiltonian, smul_add, smul_smul]
  push_cast
  congr 1
  · congr 1 <;> congr 1 <;> ring
  · congr 1; ring

theorem segmentUnitary_resonant (Ω φ t : ℝ) : segmentUnitary Ω φ 0 t = rotation (Ω * t) φ := by
  unfold segmentUnitary rotation
  congr 1
  simp only [hamiltonian, smul_add, smul_smul]
  push_cast
  simp only [zero_smul, add_zero, mul_zero]
  congr 1 <;> congr 1 <;> ring

theorem segmentUnitary_idle (φ t : ℝ) : segmentUnitary 0 φ 0 t = 1 := by
  rw [segmentUnitary_resonant, rotation_eq, ← su2_one]
  simp

/-- Closed form of a segment, with `r` the length of the vector `(Ω, Δ)`. -/
theorem segmentUnitary_eq (Ω φ Δ t r : ℝ) (hr : r ^ 2 = Ω ^ 2 + Δ ^ 2) (hr0 : r ≠ 0) :
    segmentUnitary Ω φ Δ t = su2 (Real.cos (r * t / 2))
      (Real.sin (r * t / 2) * (Ω * Real.cos φ / r)) (Real.sin (r * t / 2) * (Ω * Real.sin φ / r))
      (Real.sin (r * t / 2) * (Δ / r)) := by
  have h1 : (Ω * Real.cos φ / r) ^ 2 + (Ω * Real.sin φ / r) ^ 2 + (Δ / r) ^ 2 = 1 := by
    have := Real.cos_sq_add_sin_sq φ
    field_simp
    rw [hr]
    linear_combination Ω ^ 2 * this
  rw [← exp_pauli _ _ _ _ h1]
  unfold segmentUnitary
  congr 1
  have hrc : (r : ℂ) ≠ 0 := by exact_mod_cast hr0
  simp only [hamiltonian, smul_add, smul_smul]
  push_cast
  congr 1
  · congr 1 <;> congr 1 <;> field_simp
  · congr 1; field_simp

theorem controlEvolution_nil : controlEvolution [] [] [] [] = 1 := rfl

theorem controlEvolution_cons (Ω φ Δ t : ℝ) (Ωs φs Δs ts : List ℝ) :
    controlEvolution (Ω :: Ωs) (φ :: φs) (Δ :: Δs) (t :: ts) =
      controlEvolution Ωs φs Δs ts * segmentUnitary Ω φ Δ t := rfl

end OpenControls
