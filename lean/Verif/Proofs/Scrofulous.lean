import Verif.Proofs.Composite
import Mathlib.Analysis.SpecialFunctions.Trigonometric.Bounds

/-!
# The SCROFULOUS pulse
-/

namespace OpenControls

open Spec RealInst

/-- a `π` pulse between two equal pulses -/
theorem rotation_sandwich (θ₁ a δ : ℝ) :
    rotation θ₁ a * rotation Real.pi (a - δ) * rotation θ₁ a =
      su2 (-(Real.sin θ₁ * Real.cos δ))
        (Real.cos θ₁ * Real.cos δ * Real.cos a + Real.sin δ * Real.sin a)
        (Real.cos θ₁ * Real.cos δ * Real.sin a - Real.sin δ * Real.cos a) 0 := by
  rw [rotation_eq, rotation_eq, su2_mul, su2_mul, su2_inj]
  have h1 : Real.sin θ₁ = 2 * Real.sin (θ₁ / 2) * Real.cos (θ₁ / 2) := by
    rw [← Real.sin_two_mul]; congr 1; ring
  have h2 : Real.cos θ₁ = 2 * Real.cos (θ₁ / 2) ^ 2 - 1 := by
    rw [← Real.cos_two_mul]; congr 1; ring
  have h3 := Real.cos_sq_add_sin_sq (θ₁ / 2)
  have h4 := Real.cos_sq_add_sin_sq a
  rw [h1, h2, Real.cos_pi_div_two, Real.sin_pi_div_two, Real.cos_sub, Real.sin_sub]
  generalize Real.cos (θ₁ / 2) = c at *
  generalize Real.sin (θ₁ / 2) = s at *
  generalize Real.cos a = x at *
  generalize Real.sin a = y at *
  generalize Real.cos δ = p at *
  generalize Real.sin δ = q at *
  refine ⟨?_, ?_, ?_, ?_⟩
  · linear_combination (-2 * s * c * p) * h4
  · linear_combination (q * y - p * x) * h3 + 2 * s ^ 2 * y * q * h4 - (s ^ 2 * p * x + p * x * s ^ 2 ) * h4 + (s^2 * x * p - s^2 * y * q) * h4
  · linear_combination (-q * x - p * y) * h3 - 2 * s ^ 2 * x * q * h4 - (s ^ 2 * p * y + p * y * s ^ 2 ) * h4 + (s^2 * y * p + s^2 * x * q) * h4
  · ring

/-- the evolution of the SCROFULOUS table whenever the two `arccos` arguments are in range -/
theorem tableEvolution_scrofulous {θ₁ θ : ℝ} (φ : ℝ)
    (h1 : |-Real.pi * Real.cos θ₁ / (2 * θ₁ * Real.sin (θ / 2))| ≤ 1)
    (h2 : |-Real.pi / (2 * θ₁)| ≤ 1) (hs : 0 < Real.sin (θ / 2)) :
    ∃ (a w w' : ℝ), 0 ≤ w ∧ 0 ≤ w' ∧
      w ^ 2 = 1 - (Real.pi / (2 * θ₁)) ^ 2 ∧
      w ^ 2 - w' ^ 2 = Real.cos (θ / 2) ^ 2 - (Real.pi * Real.sin θ₁ / (2 * θ₁)) ^ 2 ∧
      tableEvolution (scrofulousTable θ₁ θ φ) =
        su2 (Real.pi * Real.sin θ₁ / (2 * θ₁))
          (Real.sin (θ / 2) * Real.cos φ + (w - w') * Real.sin a)
          (Real.sin (θ / 2) * Real.sin φ - (w - w') * Real.cos a) 0 := by
  set A := -Real.pi * Real.cos θ₁ / (2 * θ₁ * Real.sin (θ / 2)) with hA
  set B := -Real.pi / (2 * θ₁) with hB
  rw [abs_le] at h1 h2
  have cA := Real.cos_arccos h1.1 h1.2
  have cB := Real.cos_arccos h2.1 h2.2
  have sA : 0 ≤ Real.sin (Real.arccos A) := by rw [Real.sin_arccos]; exact Real.sqrt_nonneg _
  have sB : 0 ≤ Real.sin (Real.arccos B) := by rw [Real.sin_arccos]; exact Real.sqrt_nonneg _
  have qA := Real.cos_sq_add_sin_sq (Real.arccos A)
  have qB := Real.cos_sq_add_sin_sq (Real.arccos B)
  have q := Real.cos_sq_add_sin_sq (θ / 2)
  have q1 := Real.cos_sq_add_sin_sq θ₁
  have hAB : Real.sin (θ / 2) * A = Real.cos θ₁ * B := by
    rw [hA, hB]; field_simp
  have hs0 : Real.pi * Real.sin θ₁ / (2 * θ₁) = -(Real.sin θ₁ * B) := by rw [hB]; ring
  refine ⟨φ + Real.arccos A, Real.sin (Real.arccos B),
    Real.sin (θ / 2) * Real.sin (Real.arccos A), sB, mul_nonneg hs.le sA, ?_, ?_, ?_⟩
  · rw [cB] at qB
    have : B ^ 2 = (Real.pi / (2 * θ₁)) ^ 2 := by rw [hB]; ring
    linarith
  · rw [hs0]
    rw [cB] at qB
    rw [cA] at qA
    have hAB2 : Real.sin (θ / 2) ^ 2 * A ^ 2 = Real.cos θ₁ ^ 2 * B ^ 2 := by
      rw [← mul_pow, hAB, mul_pow]
    linear_combination qB - Real.sin (θ / 2) ^ 2 * qA + hAB2 - q + B ^ 2 * q1
  · have e : tableEvolution (scrofulousTable θ₁ θ φ) =
        rotation θ₁ (φ + Real.arccos A) *
          rotation Real.pi (φ + Real.arccos A - Real.arccos B) *
          rotation θ₁ (φ + Real.arccos A) := by
      simp only [scrofulousTable, tableEvolution_cons, tableEvolution_nil, one_mul, ← hA, ← hB]
      congr 3; ring
    rw [e, rotation_sandwich, su2_inj, cB, hs0]
    have hc : Real.cos φ = Real.cos (φ + Real.arccos A) * A +
        Real.sin (φ + Real.arccos A) * Real.sin (Real.arccos A) := by
      conv_lhs => rw [show φ = (φ + Real.arccos A) - Real.arccos A by ring]
      rw [Real.cos_sub, cA]
    have hs' : Real.sin φ = Real.sin (φ + Real.arccos A) * A -
        Real.cos (φ + Real.arccos A) * Real.sin (Real.arccos A) := by
      conv_lhs => rw [show φ = (φ + Real.arccos A) - Real.arccos A by ring]
      rw [Real.sin_sub, cA]
    refine ⟨rfl, ?_, ?_, rfl⟩
    · rw [hc]
      linear_combination (-Real.cos (φ + Real.arccos A)) * hAB
    · rw [hs']
      linear_combination (-Real.sin (φ + Real.arccos A)) * hAB

/-- If `θ₁` solves the documented equation `sinc θ₁ = 2 cos(θ/2)/π`, SCROFULOUS is exact. -/
theorem tableEvolution_scrofulous_exact {θ₁ θ : ℝ} (φ : ℝ)
    (h1 : |-Real.pi * Real.cos θ₁ / (2 * θ₁ * Real.sin (θ / 2))| ≤ 1)
    (h2 : |-Real.pi / (2 * θ₁)| ≤ 1) (hs : 0 < Real.sin (θ / 2))
    (heq : Real.sin θ₁ / θ₁ = 2 * Real.cos (θ / 2) / Real.pi) :
    tableEvolution (scrofulousTable θ₁ θ φ) = rotation θ φ := by
  obtain ⟨a, w, w', hw, hw', -, hdiff, he⟩ := tableEvolution_scrofulous φ h1 h2 hs
  have hc : Real.pi * Real.sin θ₁ / (2 * θ₁) = Real.cos (θ / 2) := by
    have : Real.pi * Real.sin θ₁ / (2 * θ₁) = Real.pi / 2 * (Real.sin θ₁ / θ₁) := by ring
    rw [this, heq]
    have := Real.pi_pos
    field_simp
  have hww : w = w' := by
    rw [hc] at hdiff
    have : w ^ 2 = w' ^ 2 := by linarith
    exact (sq_eq_sq₀ hw hw').mp this
  rw [he, hc, hww, rotation_eq]
  simp

/-- distance of the SCROFULOUS evolution from the target -/
theorem tableEvolution_scrofulous_dist {θ₁ θ : ℝ} (φ ε η b : ℝ)
    (h1 : |-Real.pi * Real.cos θ₁ / (2 * θ₁ * Real.sin (θ / 2))| ≤ 1)
    (h2 : |-Real.pi / (2 * θ₁)| ≤ 1) (hs : 0 < Real.sin (θ / 2))
    (hε : |Real.pi * Real.sin θ₁ / (2 * θ₁) - Real.cos (θ / 2)| ≤ ε) (hεb : ε ≤ b)
    (hη : 0 < η) (hη1 : (Real.pi / (2 * θ₁)) ^ 2 ≤ 1 - η ^ 2)
    (hb : ε * |Real.pi * Real.sin θ₁ / (2 * θ₁) + Real.cos (θ / 2)| ≤ b * η) (i j : Fin 2) :
    ‖(tableEvolution (scrofulousTable θ₁ θ φ) - rotation θ φ) i j‖ ≤ b := by
  obtain ⟨a, w, w', hw, hw', hw2, hdiff, he⟩ := tableEvolution_scrofulous φ h1 h2 hs
  have hwη : η ≤ w := by
    have : η ^ 2 ≤ w ^ 2 := by rw [hw2]; linarith
    exact (sq_le_sq₀ hη.le hw).mp this
  set s0 := Real.pi * Real.sin θ₁ / (2 * θ₁) with hs0
  have hww : |w - w'| ≤ b := by
    have e1 : |w - w'| * (w + w') = |s0 - Real.cos (θ / 2)| * |s0 + Real.cos (θ / 2)| := by
      rw [← abs_of_nonneg (add_nonneg hw hw'), ← abs_mul, ← abs_mul, abs_eq_abs]
      right; linear_combination hdiff
    have e2 : |w - w'| * η ≤ b * η := by
      calc |w - w'| * η ≤ |w - w'| * (w + w') := by
            apply mul_le_mul_of_nonneg_left (by linarith) (abs_nonneg _)
        _ = |s0 - Real.cos (θ / 2)| * |s0 + Real.cos (θ / 2)| := e1
        _ ≤ ε * |s0 + Real.cos (θ / 2)| := by
            apply mul_le_mul_of_nonneg_right hε (abs_nonneg _)
        _ ≤ b * η := hb
    exact le_of_mul_le_mul_right e2 hη
  have hb0 : 0 ≤ b := le_trans (abs_nonneg _) hww
  have key : ∀ x y : ℝ, x ^ 2 + y ^ 2 ≤ b ^ 2 → ‖(⟨x, y⟩ : ℂ)‖ ≤ b := by
    intro x y h
    have : ‖(⟨x, y⟩ : ℂ)‖ ^ 2 ≤ b ^ 2 := by
      rw [← Complex.normSq_eq_norm_sq, Complex.normSq_mk]; nlinarith
    exact (sq_le_sq₀ (norm_nonneg _) hb0).mp this
  have hd2 : (s0 - Real.cos (θ / 2)) ^ 2 ≤ b ^ 2 := sq_le_sq' (by linarith [(abs_le.mp hε).1]) (by linarith [(abs_le.mp hε).2])
  have hw3 : (w - w') ^ 2 ≤ b ^ 2 := sq_le_sq' (by linarith [(abs_le.mp hww).1]) (by linarith [(abs_le.mp hww).2])
  have q := Real.cos_sq_add_sin_sq a
  rw [he, rotation_eq]
  have e00 : ∀ i j, (su2 s0 (Real.sin (θ / 2) * Real.cos φ + (w - w') * Real.sin a)
          (Real.sin (θ / 2) * Real.sin φ - (w - w') * Real.cos a) 0 -
        su2 (Real.cos (θ / 2)) (Real.sin (θ / 2) * Real.cos φ)
          (Real.sin (θ / 2) * Real.sin φ) 0) i j =
      su2 (s0 - Real.cos (θ / 2)) ((w - w') * Real.sin a) (-((w - w') * Real.cos a)) 0 i j := by
    intro i j
    fin_cases i <;> fin_cases j <;> simp [su2, Complex.ext_iff]
  rw [e00]
  have hrot : (w - w') ^ 2 * Real.cos a ^ 2 + (w - w') ^ 2 * Real.sin a ^ 2 ≤ b ^ 2 := by
    rw [← mul_add, q, mul_one]; exact hw3
  fin_cases i <;> fin_cases j <;> simp only [su2, Fin.zero_eta, Fin.mk_one, Matrix.of_apply, Matrix.cons_val', Matrix.cons_val_zero, Matrix.cons_val_one, Matrix.cons_val_fin_one]
  · apply key; nlinarith
  · apply key; nlinarith
  · apply key; nlinarith
  · apply key; nlinarith

end OpenControls
