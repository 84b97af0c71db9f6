import Verif.Proofs.ResidualError
import Verif.Proofs.Robustness
import Verif.Proofs.Jets
import Verif.Spec.ExactError

/-!
# Lemmas for C107: the exact distance of a faulty composite pulse from the requested rotation
-/

namespace OpenControls

open Spec Filter Asymptotics Topology
open scoped Matrix.Norms.L2Operator

/-- the distance of `su2 w x y z * R` from the rotation `R` -/
theorem su2_dist_rotation (w x y z θ φ : ℝ) :
    ‖su2 w x y z * rotation θ φ - rotation θ φ‖ ^ 2 = (w - 1) ^ 2 + x ^ 2 + y ^ 2 + z ^ 2 := by
  rw [rotation_eq, su2_mul, su2_sub, su2_norm_sq]
  have h1 := Real.cos_sq_add_sin_sq (θ / 2)
  have h2 := Real.cos_sq_add_sin_sq φ
  generalize Real.cos (θ / 2) = c at *
  generalize Real.sin (θ / 2) = s at *
  generalize Real.cos φ = p at *
  generalize Real.sin φ = q at *
  linear_combination ((w - 1) ^ 2 + x ^ 2 + y ^ 2 + z ^ 2) * h1 +
    s ^ 2 * ((w - 1) ^ 2 + x ^ 2 + y ^ 2 + z ^ 2) * h2

/-- three pulses in a plane, the first and the last equal -/
theorem sandwich (x y a b : ℝ) :
    rotation x a * rotation y b * rotation x a =
      su2 (Real.cos x * Real.cos (y / 2) - Real.sin x * Real.sin (y / 2) * Real.cos (a - b))
        ((Real.sin x * Real.cos (y / 2) - (1 - Real.cos x) * Real.sin (y / 2) * Real.cos (a - b)) *
          Real.cos a + Real.sin (y / 2) * Real.cos b)
        ((Real.sin x * Real.cos (y / 2) - (1 - Real.cos x) * Real.sin (y / 2) * Real.cos (a - b)) *
          Real.sin a + Real.sin (y / 2) * Real.sin b) 0 := by
  have e1 : Real.cos x = Real.cos (x / 2) ^ 2 - Real.sin (x / 2) ^ 2 := by
    rw [← Real.cos_two_mul']; congr 1; ring
  have e2 : Real.sin x = 2 * Real.sin (x / 2) * Real.cos (x / 2) := by
    rw [← Real.sin_two_mul]; congr 1; ring
  have h1 := Real.cos_sq_add_sin_sq (x / 2)
  have h2 := Real.cos_sq_add_sin_sq a
  rw [rotation_eq, rotation_eq, su2_mul, su2_mul, su2_inj, Real.cos_sub, e1, e2]
  generalize Real.cos (x / 2) = c at *
  generalize Real.sin (x / 2) = s at *
  generalize Real.cos (y / 2) = c' at *
  generalize Real.sin (y / 2) = s' at *
  generalize Real.cos a = p at *
  generalize Real.sin a = q at *
  generalize Real.cos b = p' at *
  generalize Real.sin b = q' at *
  refine ⟨?_, ?_, ?_, by ring⟩
  · linear_combination (-s ^ 2 * c') * h2
  · linear_combination (s ^ 2 * s' * p') * h2 + (s' * p' - s' * (p * p' + q * q') * p) * h1
  · linear_combination (s ^ 2 * s' * q') * h2 + (s' * q' - s' * (p * p' + q * q') * q) * h1

/-- the same for the unit quaternions -/
theorem su2_dist_unit {w x y z : ℝ} (h : w ^ 2 + x ^ 2 + y ^ 2 + z ^ 2 = 1) (θ φ : ℝ) :
    ‖su2 w x y z * rotation θ φ - rotation θ φ‖ = √(2 - 2 * w) := by
  rw [← Real.sqrt_sq (norm_nonneg (su2 w x y z * rotation θ φ - rotation θ φ)), su2_dist_rotation]
  congr 1
  linear_combination h

/-- the quaternion of a product of rotations is a unit quaternion -/
theorem su2_unit_mul {a b c d a' b' c' d' : ℝ} (h : a ^ 2 + b ^ 2 + c ^ 2 + d ^ 2 = 1)
    (h' : a' ^ 2 + b' ^ 2 + c' ^ 2 + d' ^ 2 = 1) :
    (a * a' - b * b' - c * c' - d * d') ^ 2 + (a * b' + b * a' + c * d' - d * c') ^ 2 +
      (a * c' - b * d' + c * a' + d * b') ^ 2 + (a * d' + b * c' - c * b' + d * a') ^ 2 = 1 := by
  linear_combination (a' ^ 2 + b' ^ 2 + c' ^ 2 + d' ^ 2) * h + h'

theorem rotation_unit (x ψ : ℝ) : Real.cos x ^ 2 + (Real.sin x * Real.cos ψ) ^ 2 +
    (Real.sin x * Real.sin ψ) ^ 2 + 0 ^ 2 = 1 := by
  linear_combination Real.cos_sq_add_sin_sq x + Real.sin x ^ 2 * Real.cos_sq_add_sin_sq ψ

/-- the distance from the rotation `R` of three rotations times `R`, by the scalar part of the product -/
theorem product_dist {M : M2} {w x y z : ℝ} (hM : M = su2 w x y z)
    (hu : w ^ 2 + x ^ 2 + y ^ 2 + z ^ 2 = 1) (η θ φ : ℝ) :
    ‖M * rotation η φ * rotation θ φ - rotation θ φ‖ =
      √(2 - 2 * (w * Real.cos (η / 2) - Real.sin (η / 2) * (x * Real.cos φ + y * Real.sin φ))) := by
  rw [hM, rotation_eq η, su2_mul, su2_dist_unit (su2_unit_mul hu (rotation_unit _ _))]
  congr 3
  ring

theorem rotation_su2_unit {M : M2} {w x y z : ℝ} (hM : M = su2 w x y z) (hn : ‖M‖ = 1) :
    w ^ 2 + x ^ 2 + y ^ 2 + z ^ 2 = 1 := by
  rw [← su2_norm_sq, ← hM, hn, one_pow]

theorem norm_rotation_prod (l : List (ℝ × ℝ)) : ‖(l.map fun p => rotation p.1 p.2).prod‖ = 1 := by
  have h : ∃ w x y z : ℝ, (l.map fun p => rotation p.1 p.2).prod = su2 w x y z ∧
      w ^ 2 + x ^ 2 + y ^ 2 + z ^ 2 = 1 := by
    induction l with
    | nil => exact ⟨1, 0, 0, 0, by simp [su2_one], by norm_num⟩
    | cons p l ih =>
      obtain ⟨w, x, y, z, h1, h2⟩ := ih
      rw [List.map_cons, List.prod_cons, h1, rotation_eq, su2_mul]
      exact ⟨_, _, _, _, rfl, su2_unit_mul (rotation_unit _ _) h2⟩
  obtain ⟨w, x, y, z, h1, h2⟩ := h
  have h3 := su2_norm_sq w x y z
  rw [h2, ← h1] at h3
  exact (pow_eq_one_iff_of_nonneg (norm_nonneg _) two_ne_zero).1 h3

theorem bb1_dist {θ : ℝ} (h0 : 0 < θ) (h4 : θ ≤ 4 * Real.pi) (φ e : ℝ) :
    ‖tableEvolution ((bb1Table θ φ).map fun p => ((1 + e) * p.1, p.2)) - rotation θ φ‖ =
      √(2 - 2 * bb1Overlap (θ / (4 * Real.pi)) e) := by
  rw [bb1_amplitude]
  have hM := sandwich ((0 + e) * Real.pi) ((0 + e) * (2 * Real.pi)) (φ + wimperisAngle θ)
    (φ - wimperisAngle θ)
  have hu := rotation_su2_unit hM (by
    simpa [mul_assoc] using norm_rotation_prod [((0 + e) * Real.pi, φ + wimperisAngle θ),
      ((0 + e) * (2 * Real.pi), φ - wimperisAngle θ), ((0 + e) * Real.pi, φ + wimperisAngle θ)])
  rw [product_dist hM hu]
  congr 3
  have hw := cos_wimperisAngle h0 h4
  have ea : φ + wimperisAngle θ - (φ - wimperisAngle θ) = 2 * wimperisAngle θ := by ring
  have eπ := Real.pi_pos.ne'
  have e1 : (0 + e) * Real.pi = Real.pi * e := by ring
  have e2 : (0 + e) * (2 * Real.pi) / 2 = Real.pi * e := by ring
  have e3 : (0 + e) * θ / 2 = 2 * Real.pi * (θ / (4 * Real.pi)) * e := by field_simp; ring
  rw [ea, e1, e2, e3, Real.cos_two_mul, Real.cos_add, Real.cos_sub, Real.sin_add, Real.sin_sub, hw,
    bb1Overlap]
  have h1 := Real.cos_sq_add_sin_sq φ
  have h2 := Real.cos_sq_add_sin_sq (Real.pi * e)
  rw [show -θ / (4 * Real.pi) = -(θ / (4 * Real.pi)) by ring]
  generalize θ / (4 * Real.pi) = t at *
  generalize Real.cos (2 * Real.pi * t * e) = c at *
  generalize Real.sin (2 * Real.pi * t * e) = s at *
  generalize Real.cos (Real.pi * e) = C at *
  generalize Real.sin (Real.pi * e) = S at *
  generalize Real.cos φ = p at *
  generalize Real.sin φ = q at *
  generalize Real.sin (wimperisAngle θ) = b at *
  linear_combination c * h2 + s * t * S * (2 - 2 * t ^ 2 * (1 - C)) * h1

theorem sk1_amplitude_frame (θ φ e : ℝ) :
    tableEvolution ((sk1Table θ φ).map fun p => ((1 + e) * p.1, p.2)) =
      rotation (e * (2 * Real.pi)) (φ + wimperisAngle θ) *
      rotation (e * (2 * Real.pi)) (φ - wimperisAngle θ) *
      rotation (e * θ) φ * rotation θ φ := by
  simp only [sk1Table, List.map_cons, List.map_nil, tableEvolution_cons, tableEvolution_nil,
    one_mul]
  have e1 : ∀ x y, rotation ((1 + e) * x) y = rotation (e * x) y * rotation x y := by
    intro x y; rw [rotation_mul_same]; congr 1; ring
  rw [e1, e1, e1, rotation_two_pi, rotation_two_pi]
  noncomm_ring

/-- two pulses in a plane -/
theorem pair_eq (x a b : ℝ) :
    rotation (2 * x) a * rotation (2 * x) b =
      su2 (Real.cos x ^ 2 - Real.sin x ^ 2 * Real.cos (a - b))
        (Real.sin x * Real.cos x * (Real.cos a + Real.cos b))
        (Real.sin x * Real.cos x * (Real.sin a + Real.sin b)) (-Real.sin x ^ 2 * Real.sin (a - b)) := by
  rw [rotation_eq, rotation_eq, su2_mul, su2_inj, Real.cos_sub, Real.sin_sub, mul_div_cancel_left₀ _
    (two_ne_zero)]
  refine ⟨by ring, by ring, by ring, by ring⟩

theorem sk1_dist {θ : ℝ} (h0 : 0 < θ) (h4 : θ ≤ 4 * Real.pi) (φ e : ℝ) :
    ‖tableEvolution ((sk1Table θ φ).map fun p => ((1 + e) * p.1, p.2)) - rotation θ φ‖ =
      √(2 - 2 * sk1Overlap (θ / (4 * Real.pi)) e) := by
  rw [sk1_amplitude_frame, show e * (2 * Real.pi) = 2 * (Real.pi * e) by ring]
  have hM := pair_eq (Real.pi * e) (φ + wimperisAngle θ) (φ - wimperisAngle θ)
  have hu := rotation_su2_unit hM (by
    simpa using norm_rotation_prod [(2 * (Real.pi * e), φ + wimperisAngle θ),
      (2 * (Real.pi * e), φ - wimperisAngle θ)])
  rw [product_dist hM hu]
  congr 3
  have hw := cos_wimperisAngle h0 h4
  have ea : φ + wimperisAngle θ - (φ - wimperisAngle θ) = 2 * wimperisAngle θ := by ring
  have eπ := Real.pi_pos.ne'
  have e3 : e * θ / 2 = 2 * Real.pi * (θ / (4 * Real.pi)) * e := by field_simp; ring
  rw [ea, e3, Real.cos_two_mul, Real.cos_add, Real.cos_sub, Real.sin_add, Real.sin_sub, hw,
    sk1Overlap, show 2 * Real.pi * e = 2 * (Real.pi * e) by ring, Real.sin_two_mul]
  have h1 := Real.cos_sq_add_sin_sq φ
  have h2 := Real.cos_sq_add_sin_sq (Real.pi * e)
  rw [show -θ / (4 * Real.pi) = -(θ / (4 * Real.pi)) by ring]
  generalize θ / (4 * Real.pi) = t at *
  generalize Real.cos (2 * Real.pi * t * e) = c at *
  generalize Real.sin (2 * Real.pi * t * e) = s at *
  generalize Real.cos (Real.pi * e) = C at *
  generalize Real.sin (Real.pi * e) = S at *
  generalize Real.cos φ = p at *
  generalize Real.sin φ = q at *
  generalize Real.sin (wimperisAngle θ) = b at *
  linear_combination c * h2 + s * t * S * C * 2 * h1

/-- the distance divided by `|e|ⁿ`, from the components divided by `eⁿ` -/
theorem dist_tendsto (n : ℕ) {U : ℝ → M2} {w x y z : ℝ → ℝ} {θ φ a b c d : ℝ}
    (hU : ∀ e, U e = su2 (w e) (x e) (y e) (z e) * rotation θ φ)
    (hw : Tendsto (fun e => (w e - 1) / e ^ n) (𝓝[≠] 0) (𝓝 a))
    (hx : Tendsto (fun e => x e / e ^ n) (𝓝[≠] 0) (𝓝 b))
    (hy : Tendsto (fun e => y e / e ^ n) (𝓝[≠] 0) (𝓝 c))
    (hz : Tendsto (fun e => z e / e ^ n) (𝓝[≠] 0) (𝓝 d)) :
    Tendsto (fun e => ‖U e - rotation θ φ‖ / |e| ^ n) (𝓝[≠] 0)
      (𝓝 (√(a ^ 2 + b ^ 2 + c ^ 2 + d ^ 2))) := by
  have h := ((((hw.pow 2).add (hx.pow 2)).add (hy.pow 2)).add (hz.pow 2)).sqrt
  refine h.congr fun e => ?_
  have h1 := su2_dist_rotation (w e) (x e) (y e) (z e) θ φ
  rw [← hU e] at h1
  rw [div_pow, div_pow, div_pow, div_pow, ← add_div, ← add_div, ← add_div, ← h1, ← div_pow,
    Real.sqrt_sq_eq_abs, abs_div, abs_norm, abs_pow]

theorem bb1_limit {θ : ℝ} (h0 : 0 < θ) (h4 : θ ≤ 4 * Real.pi) (φ : ℝ) :
    Tendsto (fun e => ‖tableEvolution ((bb1Table θ φ).map fun p => ((1 + e) * p.1, p.2)) -
        rotation θ φ‖ / |e| ^ 3) (𝓝[≠] 0)
      (𝓝 (Real.pi ^ 3 / 3 * (θ / (4 * Real.pi)) *
        √((1 - (θ / (4 * Real.pi)) ^ 2) * (1 + 8 * (θ / (4 * Real.pi)) ^ 2)))) := by
  have hw := cos_wimperisAngle h0 h4
  have eπ := Real.pi_pos.ne'
  have hwb := Real.cos_sq_add_sin_sq (wimperisAngle θ)
  have hφ := Real.cos_sq_add_sin_sq φ
  have hU := fun e : ℝ => bb1_amplitude θ φ e
  have hr := fun e : ℝ => rotation_eq ((0 + e) * θ) φ
  simp only [sandwich, hr, su2_mul] at hU
  have ea : φ + wimperisAngle θ - (φ - wimperisAngle θ) = 2 * wimperisAngle θ := by ring
  have e1 : ∀ e : ℝ, (0 + e) * Real.pi = Real.pi * e := by intro e; ring
  have e2 : ∀ e : ℝ, (0 + e) * (2 * Real.pi) / 2 = Real.pi * e := by intro e; ring
  have e3 : ∀ e : ℝ, (0 + e) * θ / 2 = 2 * Real.pi * (θ / (4 * Real.pi)) * e := by
    intro e; field_simp; ring
  simp only [ea, e1, e2, e3, Real.cos_two_mul, Real.cos_add φ, Real.cos_sub φ, Real.sin_add φ,
    Real.sin_sub φ, hw] at hU
  rw [show -θ / (4 * Real.pi) = -(θ / (4 * Real.pi)) by ring] at hU hw
  rw [hw] at hwb
  have ht : 0 ≤ θ / (4 * Real.pi) := by positivity
  generalize θ / (4 * Real.pi) = t at *
  generalize Real.cos φ = p at *
  generalize Real.sin φ = q at *
  generalize Real.sin (wimperisAngle θ) = b at *
  have jC := Jet.cos Real.pi
  have jS := Jet.sin Real.pi
  have jc := Jet.cos (2 * Real.pi * t)
  have js := Jet.sin (2 * Real.pi * t)
  have k := Jet.const
  -- the four parts of the product
  have jW0 := (jC.mul jC).sub ((jS.mul jS).mul (k (2 * (-t) ^ 2 - 1)))
  have jα := (jS.mul jC).sub ((((k 1).sub jC).mul jS).mul (k (2 * (-t) ^ 2 - 1)))
  have jA := (jα.mul (k (p * -t - q * b))).add (jS.mul (k (p * -t + q * b)))
  have jB := (jα.mul (k (q * -t + p * b))).add (jS.mul (k (q * -t - p * b)))
  have jp := js.mul (k p)
  have jq := js.mul (k q)
  have jw := ((((jW0.mul jc).sub (jA.mul jp)).sub (jB.mul jq)).sub ((k 0).mul (k 0))).sub (k 1)
  have jx := (((jW0.mul jp).add (jA.mul jc)).add (jB.mul (k 0))).sub ((k 0).mul jq)
  have jy := (((jW0.mul jq).sub (jA.mul (k 0))).add (jB.mul jc)).add ((k 0).mul jp)
  have jz := (((jW0.mul (k 0)).add (jA.mul jq)).sub (jB.mul jp)).add ((k 0).mul jc)
  have lw := (jw.congr (a' := 0) (b' := 0) (c' := 0) (d' := 0) (by ring) (by ring)
    (by linear_combination (-4 * Real.pi ^ 2 * t ^ 2) * (1 - hφ)) (by ring)).tendsto_three
  have lx := (jx.congr (a' := 0) (b' := 0) (c' := 0)
    (d' := Real.pi ^ 3 * t * (t * (p * t + q * b) + (1 - 4 * t ^ 2) / 3 * p)) (by ring) (by ring) (by ring)
    (by ring)).tendsto_three
  have ly := (jy.congr (a' := 0) (b' := 0) (c' := 0)
    (d' := Real.pi ^ 3 * t * (t * (q * t - p * b) + (1 - 4 * t ^ 2) / 3 * q)) (by ring) (by ring) (by ring)
    (by ring)).tendsto_three
  have lz := (jz.congr (a' := 0) (b' := 0) (c' := 0) (d' := 0) (by ring) (by ring) (by ring)
    (by ring)).tendsto_three
  have key := dist_tendsto 3 hU lw lx ly lz
  have hsq : (0 : ℝ) ^ 2 + (Real.pi ^ 3 * t * (t * (p * t + q * b) + (1 - 4 * t ^ 2) / 3 * p)) ^ 2 +
      (Real.pi ^ 3 * t * (t * (q * t - p * b) + (1 - 4 * t ^ 2) / 3 * q)) ^ 2 + 0 ^ 2 =
      (Real.pi ^ 3 / 3 * t) ^ 2 * ((1 - t ^ 2) * (1 + 8 * t ^ 2)) := by
    linear_combination (Real.pi ^ 6 * t ^ 2 * (t ^ 2 * (t ^ 2 + b ^ 2) +
      2 * t ^ 2 * ((1 - 4 * t ^ 2) / 3) + ((1 - 4 * t ^ 2) / 3) ^ 2)) * hφ +
      Real.pi ^ 6 * t ^ 2 * t ^ 2 * hwb
  rw [hsq, Real.sqrt_mul (sq_nonneg _), Real.sqrt_sq (by positivity)] at key
  exact key

theorem sk1_limit {θ : ℝ} (h0 : 0 < θ) (h4 : θ ≤ 4 * Real.pi) (φ : ℝ) :
    Tendsto (fun e => ‖tableEvolution ((sk1Table θ φ).map fun p => ((1 + e) * p.1, p.2)) -
        rotation θ φ‖ / |e| ^ 2) (𝓝[≠] 0)
      (𝓝 (2 * Real.pi ^ 2 * (θ / (4 * Real.pi)) * √(1 - (θ / (4 * Real.pi)) ^ 2))) := by
  have hw := cos_wimperisAngle h0 h4
  have eπ := Real.pi_pos.ne'
  have hwb := Real.cos_sq_add_sin_sq (wimperisAngle θ)
  have hφ := Real.cos_sq_add_sin_sq φ
  have hU := fun e : ℝ => sk1_amplitude_frame θ φ e
  have hr := fun e : ℝ => rotation_eq (e * θ) φ
  have ea : φ + wimperisAngle θ - (φ - wimperisAngle θ) = 2 * wimperisAngle θ := by ring
  have e1 : ∀ e : ℝ, e * (2 * Real.pi) = 2 * (Real.pi * e) := by intro e; ring
  have e3 : ∀ e : ℝ, e * θ / 2 = 2 * Real.pi * (θ / (4 * Real.pi)) * e := by
    intro e; field_simp; ring
  simp only [e1, pair_eq, hr, su2_mul] at hU
  simp only [ea, e3, Real.cos_two_mul, Real.sin_two_mul, Real.cos_add φ, Real.cos_sub φ,
    Real.sin_add φ, Real.sin_sub φ, hw] at hU
  rw [show -θ / (4 * Real.pi) = -(θ / (4 * Real.pi)) by ring] at hU hw
  rw [hw] at hwb
  have ht : 0 ≤ θ / (4 * Real.pi) := by positivity
  generalize θ / (4 * Real.pi) = t at *
  generalize Real.cos φ = p at *
  generalize Real.sin φ = q at *
  generalize Real.sin (wimperisAngle θ) = b at *
  have jC := Jet.cos Real.pi
  have jS := Jet.sin Real.pi
  have jc := Jet.cos (2 * Real.pi * t)
  have js := Jet.sin (2 * Real.pi * t)
  have k := Jet.const
  have jW0 := (jC.mul jC).sub ((jS.mul jS).mul (k (2 * (-t) ^ 2 - 1)))
  have jA := (jS.mul jC).mul (k (p * -t - q * b + (p * -t + q * b)))
  have jB := (jS.mul jC).mul (k (q * -t + p * b + (q * -t - p * b)))
  have jD := (jS.mul jS).neg.mul (k (2 * b * -t))
  have jp := js.mul (k p)
  have jq := js.mul (k q)
  have jw := ((((jW0.mul jc).sub (jA.mul jp)).sub (jB.mul jq)).sub (jD.mul (k 0))).sub (k 1)
  have jx := (((jW0.mul jp).add (jA.mul jc)).add (jB.mul (k 0))).sub (jD.mul jq)
  have jy := (((jW0.mul jq).sub (jA.mul (k 0))).add (jB.mul jc)).add (jD.mul jp)
  have jz := (((jW0.mul (k 0)).add (jA.mul jq)).sub (jB.mul jp)).add (jD.mul jc)
  have lw := (jw.congr (a' := 0) (b' := 0) (c' := 0) (by ring) (by ring)
    (by linear_combination (-4 * Real.pi ^ 2 * t ^ 2) * (1 - hφ)) rfl).tendsto_two
  have lx := (jx.congr (a' := 0) (b' := 0) (c' := 0) (by ring) (by ring) (by ring) rfl).tendsto_two
  have ly := (jy.congr (a' := 0) (b' := 0) (c' := 0) (by ring) (by ring) (by ring) rfl).tendsto_two
  have lz := (jz.congr (a' := 0) (b' := 0) (c' := 2 * Real.pi ^ 2 * t * b) (by ring) (by ring)
    (by ring) rfl).tendsto_two
  simp only [← sq] at hU lw lx ly lz
  have key := dist_tendsto 2 hU lw lx ly lz
  have hsq : (0 : ℝ) ^ 2 + 0 ^ 2 + 0 ^ 2 + (2 * Real.pi ^ 2 * t * b) ^ 2 =
      (2 * Real.pi ^ 2 * t) ^ 2 * (1 - t ^ 2) := by
    linear_combination (2 * Real.pi ^ 2 * t) ^ 2 * hwb
  rw [hsq, Real.sqrt_mul (sq_nonneg _), Real.sqrt_sq (by positivity)] at key
  exact key

end OpenControls
