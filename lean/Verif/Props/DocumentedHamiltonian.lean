import Verif.Props.Accessors

/-!
# C07: the Hamiltonian of the class docstring

The docstring of `DrivenControl` (`driven_control.py:66-76`) writes the Hamiltonian with `σ₊` and `σ₋` and defines
them by `σ± = (σx ∓ σy) / 2`.  `hamiltonian` in `Verif/Spec/Evolution.lean` is the formula with `σx` and `σy`.
-/

namespace OpenControls

open Spec Complex

/-- the formula of the docstring, for given matrices `σ₋` and `σ₊` -/
noncomputable def ladderHamiltonian (lower raise : M2) (Ω φ Δ : ℝ) : M2 :=
  (1 / 2 : ℂ) • (((Ω : ℂ) * exp (I * φ)) • lower + ((Ω : ℂ) * exp (-(I * φ))) • raise) +
    (1 / 2 : ℂ) • ((Δ : ℂ) • σz)

private theorem exp_parts (φ : ℝ) : exp (I * φ) = Real.cos φ + Real.sin φ * I ∧
    exp (-(I * φ)) = Real.cos φ - Real.sin φ * I := by
  constructor
  · rw [mul_comm, exp_mul_I, ofReal_cos, ofReal_sin]
  · rw [show -(I * (φ : ℂ)) = (-(φ : ℂ)) * I by ring, exp_mul_I, Complex.cos_neg, Complex.sin_neg, ofReal_cos,
      ofReal_sin]
    ring

/-- **C07**, the Hamiltonian: the formula of the docstring with the usual `σ± = (σx ± iσy) / 2`
(`σ₊ = |0⟩⟨1|`) is the one whose evolution `angles` and `directions` describe. -/
theorem C07_documented_hamiltonian (Ω φ Δ : ℝ) :
    ladderHamiltonian ((1 / 2 : ℂ) • (σx - I • σy)) ((1 / 2 : ℂ) • (σx + I • σy)) Ω φ Δ =
      hamiltonian Ω φ Δ := by
  unfold ladderHamiltonian hamiltonian
  rw [(exp_parts φ).1, (exp_parts φ).2]
  ext i j
  fin_cases i <;> fin_cases j <;> simp [σx, σy, σz] <;> ring_nf

/-- **C07**, the docstring's own definition of `σ±`: taken literally, `σ± = (σx ∓ σy) / 2`, the formula is not
even Hermitian, except where no drive is along Y. -/
theorem C07_documented_ladder_literal (Ω φ Δ : ℝ) :
    (ladderHamiltonian ((1 / 2 : ℂ) • (σx + σy)) ((1 / 2 : ℂ) • (σx - σy)) Ω φ Δ).IsHermitian ↔
      Ω * Real.sin φ = 0 := by
  have e : ladderHamiltonian ((1 / 2 : ℂ) • (σx + σy)) ((1 / 2 : ℂ) • (σx - σy)) Ω φ Δ =
      !![((Δ / 2 : ℝ) : ℂ), ((Ω * (Real.cos φ + Real.sin φ) / 2 : ℝ) : ℂ);
        ((Ω * (Real.cos φ - Real.sin φ) / 2 : ℝ) : ℂ), ((-(Δ / 2) : ℝ) : ℂ)] := by
    unfold ladderHamiltonian
    rw [(exp_parts φ).1, (exp_parts φ).2]
    ext i j
    fin_cases i <;> fin_cases j <;> simp [σx, σy, σz] <;> ring_nf <;> simp <;> ring
  rw [e]
  constructor
  · intro h
    have h01 := h.apply 1 0
    simp only [Matrix.of_apply, Matrix.cons_val', Matrix.cons_val_zero, Matrix.cons_val_one,
      Matrix.cons_val_fin_one, RCLike.star_def, conj_ofReal] at h01
    have := ofReal_injective h01
    linarith
  · intro h
    ext i j
    have h1 : Ω * (Real.cos φ + Real.sin φ) / 2 = Ω * Real.cos φ / 2 := by linarith
    have h2 : Ω * (Real.cos φ - Real.sin φ) / 2 = Ω * Real.cos φ / 2 := by linarith
    rw [h1, h2]
    generalize Ω * Real.cos φ / 2 = x
    fin_cases i <;> fin_cases j <;> simp [Matrix.conjTranspose_apply]

/-- **C07**, the docstring's own definition of `σ±`: with the missing imaginary unit, `σ± = (σx ∓ iσy) / 2`, the
formula is the Hamiltonian for the opposite azimuthal angle. -/
theorem C07_documented_ladder_swapped (Ω φ Δ : ℝ) :
    ladderHamiltonian ((1 / 2 : ℂ) • (σx + I • σy)) ((1 / 2 : ℂ) • (σx - I • σy)) Ω φ Δ =
      hamiltonian Ω (-φ) Δ := by
  unfold ladderHamiltonian hamiltonian
  rw [(exp_parts φ).1, (exp_parts φ).2, Real.cos_neg, Real.sin_neg]
  ext i j
  fin_cases i <;> fin_cases j <;> simp [σx, σy, σz] <;> ring_nf

/-- the two readings differ: a drive along Y has another Hamiltonian for the opposite angle, and the literal
formula is not Hermitian -/
example : hamiltonian 1 (-(Real.pi / 2)) 0 ≠ hamiltonian 1 (Real.pi / 2) 0 ∧
    ¬ (ladderHamiltonian ((1 / 2 : ℂ) • (σx + σy)) ((1 / 2 : ℂ) • (σx - σy)) 1 (Real.pi / 2) 0).IsHermitian := by
  constructor
  · intro h
    have h01 := congrFun (congrFun h 0) 1
    simp [hamiltonian, σx, σy, σz] at h01
    have := congrArg Complex.im h01
    norm_num at this
  · rw [C07_documented_ladder_literal]
    simp

end OpenControls
