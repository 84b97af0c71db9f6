import Verif.Proofs.Rotation
import Mathlib.Analysis.CStarAlgebra.Matrix
import Mathlib.Analysis.SpecialFunctions.Trigonometric.Bounds

/-!
# Distances between rotations in the operator norm
-/

namespace OpenControls

open Spec Complex

open scoped Matrix.Norms.L2Operator

theorem su2_star (a b c d : ℝ) : star (su2 a b c d) = su2 a (-b) (-c) (-d) := by
  ext i j
  fin_cases i <;> fin_cases j <;> simp [su2, Matrix.star_apply, Complex.ext_iff]

theorem su2_sub (a b c d a' b' c' d' : ℝ) :
    su2 a b c d - su2 a' b' c' d' = su2 (a - a') (b - b') (c - c') (d - d') := by
  ext i j
  fin_cases i <;> fin_cases j <;> simp [su2, Complex.ext_iff] <;> ring_nf <;> trivial

theorem su2_norm_sq (a b c d : ℝ) : ‖su2 a b c d‖ ^ 2 = a ^ 2 + b ^ 2 + c ^ 2 + d ^ 2 := by
  have h := CStarRing.norm_star_mul_self (x := su2 a b c d)
  rw [su2_star, su2_mul] at h
  have e : su2 (a * a - -b * b - -c * c - -d * d) (a * b + -b * a + -c * d - -d * c)
      (a * c - -b * d + -c * a + -d * b) (a * d + -b * c - -c * b + -d * a) =
      ((a ^ 2 + b ^ 2 + c ^ 2 + d ^ 2 : ℝ) : ℂ) • (1 : M2) := by
    ext i j
    fin_cases i <;> fin_cases j <;> simp [su2, Complex.ext_iff, ← Complex.ofReal_pow] <;> ring_nf <;> simp
  rw [e, norm_smul, norm_one, mul_one, Complex.norm_real, Real.norm_eq_abs,
    abs_of_nonneg (by positivity)] at h
  rw [sq, ← h]

theorem rotation_norm (θ φ : ℝ) : ‖rotation θ φ‖ = 1 := by
  have h : ‖rotation θ φ‖ ^ 2 = 1 := by
    rw [rotation_eq, su2_norm_sq]
    have h1 := Real.cos_sq_add_sin_sq (θ / 2)
    have h2 := Real.cos_sq_add_sin_sq φ
    linear_combination h1 + Real.sin (θ / 2) ^ 2 * h2
  have := norm_nonneg (rotation θ φ)
  nlinarith

theorem chord (x y : ℝ) :
    (Real.cos x - Real.cos y) ^ 2 + (Real.sin x - Real.sin y) ^ 2 ≤ (x - y) ^ 2 := by
  have h1 := Real.one_sub_sq_div_two_le_cos (x := x - y)
  rw [Real.cos_sub] at h1
  nlinarith [Real.cos_sq_add_sin_sq x, Real.cos_sq_add_sin_sq y]

/-- Rotations by different angles about the same axis. -/
theorem rotation_angle_dist (θ θ' φ : ℝ) : ‖rotation θ φ - rotation θ' φ‖ ≤ |θ - θ'| / 2 := by
  have h : ‖rotation θ φ - rotation θ' φ‖ ^ 2 ≤ (|θ - θ'| / 2) ^ 2 := by
    rw [rotation_eq, rotation_eq, su2_sub, su2_norm_sq]
    have h1 := chord (θ / 2) (θ' / 2)
    have h2 := Real.cos_sq_add_sin_sq φ
    rw [div_pow, sq_abs]
    have e : (Real.sin (θ / 2) * Real.cos φ - Real.sin (θ' / 2) * Real.cos φ) ^ 2 +
        (Real.sin (θ / 2) * Real.sin φ - Real.sin (θ' / 2) * Real.sin φ) ^ 2 =
        (Real.sin (θ / 2) - Real.sin (θ' / 2)) ^ 2 := by
      linear_combination (Real.sin (θ / 2) - Real.sin (θ' / 2)) ^ 2 * h2
    have e2 : (θ / 2 - θ' / 2) ^ 2 = (θ - θ') ^ 2 / 2 ^ 2 := by ring
    nlinarith
  exact le_of_sq_le_sq h (by positivity)

/-- Rotations by the same angle about different axes. -/
theorem rotation_axis_dist (θ φ φ' : ℝ) : ‖rotation θ φ - rotation θ φ'‖ ≤ |φ - φ'| := by
  have h : ‖rotation θ φ - rotation θ φ'‖ ^ 2 ≤ |φ - φ'| ^ 2 := by
    rw [rotation_eq, rotation_eq, su2_sub, su2_norm_sq, sq_abs]
    have h1 := chord φ φ'
    have h2 := Real.sin_sq_le_one (θ / 2)
    have h3 := sq_nonneg (Real.sin (θ / 2))
    have e : (Real.cos (θ / 2) - Real.cos (θ / 2)) ^ 2 +
        (Real.sin (θ / 2) * Real.cos φ - Real.sin (θ / 2) * Real.cos φ') ^ 2 +
        (Real.sin (θ / 2) * Real.sin φ - Real.sin (θ / 2) * Real.sin φ') ^ 2 + (0 - 0) ^ 2 =
        Real.sin (θ / 2) ^ 2 * ((Real.cos φ - Real.cos φ') ^ 2 + (Real.sin φ - Real.sin φ') ^ 2) := by ring
    rw [e]
    have h4 : 0 ≤ (Real.cos φ - Real.cos φ') ^ 2 + (Real.sin φ - Real.sin φ') ^ 2 := by positivity
    calc _ ≤ 1 * ((Real.cos φ - Real.cos φ') ^ 2 + (Real.sin φ - Real.sin φ') ^ 2) := by gcongr
      _ ≤ _ := by rw [one_mul]; exact h1
  exact le_of_sq_le_sq h (by positivity)

theorem rotation_dist (θ θ' φ φ' : ℝ) :
    ‖rotation θ φ - rotation θ' φ'‖ ≤ |θ - θ'| / 2 + |φ - φ'| := by
  have := norm_sub_le_norm_sub_add_norm_sub (rotation θ φ) (rotation θ' φ) (rotation θ' φ')
  linarith [rotation_angle_dist θ θ' φ, rotation_axis_dist θ' φ φ']

theorem tableEvolution_norm (t : List (ℝ × ℝ)) : ‖tableEvolution t‖ ≤ 1 := by
  induction t with
  | nil => rw [tableEvolution_nil, norm_one]
  | cons p t ih =>
    rw [tableEvolution_cons]
    calc _ ≤ ‖tableEvolution t‖ * ‖rotation p.1 p.2‖ := norm_mul_le _ _
      _ ≤ 1 := by rw [rotation_norm, mul_one]; exact ih

theorem mul_dist {A B A' B' : M2} (hB : ‖B‖ ≤ 1) (hA' : ‖A'‖ ≤ 1) :
    ‖A * B - A' * B'‖ ≤ ‖A - A'‖ + ‖B - B'‖ := by
  have e : A * B - A' * B' = (A - A') * B + A' * (B - B') := by noncomm_ring
  rw [e]
  refine (norm_add_le _ _).trans (add_le_add ?_ ?_)
  · refine (norm_mul_le _ _).trans ?_
    exact mul_le_of_le_one_right (norm_nonneg _) hB
  · refine (norm_mul_le _ _).trans ?_
    exact mul_le_of_le_one_left (norm_nonneg _) hA'

/-- the sum over the pulses of the errors in the angle and in the axis -/
noncomputable def tableError : List (ℝ × ℝ) → List (ℝ × ℝ) → ℝ
  | p :: t, q :: t' => |p.1 - q.1| / 2 + |p.2 - q.2| + tableError t t'
  | _, _ => 0

theorem tableEvolution_dist {t t' : List (ℝ × ℝ)} (h : t.length = t'.length) :
    ‖tableEvolution t - tableEvolution t'‖ ≤ tableError t t' := by
  induction t generalizing t' with
  | nil =>
    obtain rfl : t' = [] := List.length_eq_zero_iff.mp (by simpa using h.symm)
    simp [tableError]
  | cons p t ih =>
    cases t' with
    | nil => simp at h
    | cons q t' =>
      rw [tableEvolution_cons, tableEvolution_cons, tableError]
      refine (mul_dist (by rw [rotation_norm]) (tableEvolution_norm t')).trans ?_
      have := ih (t' := t') (by simpa using h)
      have := rotation_dist p.1 q.1 p.2 q.2
      linarith

/-- An entry of a matrix is at most its norm. -/
theorem entry_le_norm (A : M2) (i j : Fin 2) : ‖A i j‖ ≤ ‖A‖ := by
  have h := Matrix.l2_opNorm_mulVec A (EuclideanSpace.single j (1 : ℂ))
  rw [EuclideanSpace.norm_single, norm_one, mul_one] at h
  refine le_trans ?_ h

  have h2 := PiLp.norm_apply_le (p := 2) ((EuclideanSpace.equiv (Fin 2) ℂ).symm (A.mulVec (Pi.single j 1))) i
  simpa using h2

end OpenControls
