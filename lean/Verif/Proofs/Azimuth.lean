import Verif.Proofs.Composite

/-!
# Rotating a control about the z axis
-/

namespace OpenControls

open Spec RealInst

theorem zRotation_eq (a : ℝ) : pulseUnitary 0 0 a = su2 (Real.cos (a / 2)) 0 0 (Real.sin (a / 2)) := by
  rw [pulseUnitary_eq_segmentUnitary]
  by_cases h : a = 0
  · subst h; rw [segmentUnitary_idle, ← su2_one]; simp
  · rw [segmentUnitary_eq 0 0 a 1 a (by ring) h]
    simp [h]

theorem segmentUnitary_shift (Ω φ Δ t a : ℝ) : segmentUnitary Ω (φ + a) Δ t =
    pulseUnitary 0 0 a * segmentUnitary Ω φ Δ t * pulseUnitary 0 0 (-a) := by
  rw [zRotation_eq, zRotation_eq]
  have q := Real.cos_sq_add_sin_sq (a / 2)
  by_cases h : Ω ^ 2 + Δ ^ 2 = 0
  · have h1 : Ω = 0 := by nlinarith [sq_nonneg Ω, sq_nonneg Δ]
    have h2 : Δ = 0 := by nlinarith [sq_nonneg Ω, sq_nonneg Δ]
    subst h1 h2
    rw [segmentUnitary_idle, segmentUnitary_idle, ← su2_one, su2_mul, su2_mul, su2_inj]
    simp [neg_div]
    constructor
    · linear_combination -q
    · ring
  · have hr : Real.sqrt (Ω ^ 2 + Δ ^ 2) ^ 2 = Ω ^ 2 + Δ ^ 2 := Real.sq_sqrt (by positivity)
    have hr0 : Real.sqrt (Ω ^ 2 + Δ ^ 2) ≠ 0 := by
      intro h0; rw [h0] at hr; apply h; rw [← hr]; ring
    rw [segmentUnitary_eq Ω (φ + a) Δ t _ hr hr0, segmentUnitary_eq Ω φ Δ t _ hr hr0,
      su2_mul, su2_mul, su2_inj, Real.cos_add, Real.sin_add]
    have hc : Real.cos a = Real.cos (a / 2) ^ 2 - Real.sin (a / 2) ^ 2 := by
      have : a = 2 * (a / 2) := by ring
      conv_lhs => rw [this, Real.cos_two_mul']
    have hs : Real.sin a = 2 * Real.sin (a / 2) * Real.cos (a / 2) := by
      have : a = 2 * (a / 2) := by ring
      conv_lhs => rw [this, Real.sin_two_mul]
    simp only [neg_div, Real.cos_neg, Real.sin_neg, hc, hs]
    refine ⟨?_, ?_, ?_, ?_⟩
    · linear_combination (-Real.cos (Real.sqrt (Ω ^ 2 + Δ ^ 2) * t / 2)) * q
    · ring
    · ring
    · linear_combination
        (-(Δ / Real.sqrt (Ω ^ 2 + Δ ^ 2) * Real.sin (Real.sqrt (Ω ^ 2 + Δ ^ 2) * t / 2))) * q

theorem zRotation_mul_neg (a : ℝ) : pulseUnitary 0 0 (-a) * pulseUnitary 0 0 a = 1 := by
  rw [zRotation_eq, zRotation_eq, su2_mul, ← su2_one, su2_inj]
  have q := Real.cos_sq_add_sin_sq (a / 2)
  simp only [neg_div, Real.cos_neg, Real.sin_neg]
  refine ⟨by linear_combination q, by ring, by ring, by ring⟩

theorem zRotation_neg_mul (a : ℝ) : pulseUnitary 0 0 a * pulseUnitary 0 0 (-a) = 1 := by
  have := zRotation_mul_neg (-a); rwa [neg_neg] at this

theorem controlEvolution_shift (Ωs φs Δs ts : List ℝ) (a : ℝ) :
    controlEvolution Ωs (φs.map (· + a)) Δs ts =
      pulseUnitary 0 0 a * controlEvolution Ωs φs Δs ts * pulseUnitary 0 0 (-a) := by
  induction Ωs generalizing φs Δs ts with
  | nil => simp [controlEvolution, zRotation_neg_mul]
  | cons Ω Ωs ih =>
    cases φs with
    | nil => simp [controlEvolution, zRotation_neg_mul]
    | cons φ φs =>
      cases Δs with
      | nil => simp [controlEvolution, zRotation_neg_mul]
      | cons Δ Δs =>
        cases ts with
        | nil => simp [controlEvolution, zRotation_neg_mul]
        | cons t ts =>
          rw [List.map_cons, controlEvolution_cons, controlEvolution_cons, ih,
            segmentUnitary_shift]
          have := zRotation_mul_neg a
          generalize pulseUnitary 0 0 a = Z at *
          generalize pulseUnitary 0 0 (-a) = Z' at *
          simp only [Matrix.mul_assoc]
          rw [← Matrix.mul_assoc Z' Z, this, Matrix.one_mul]

end OpenControls
