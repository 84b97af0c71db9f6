import Verif.Proofs.Robustness
import Mathlib.Analysis.Real.Pi.Bounds
import Mathlib.Analysis.SpecialFunctions.Trigonometric.Bounds

/-!
# WAMF1 under a constant detuning error
-/

namespace OpenControls

open Spec RealInst

/-- the coefficient of the derivative of WAMF1 with amplitudes `(a, b)` with respect to a detuning -/
noncomputable def wamfSensitivity (a b : ℝ) : ℝ := (a / b - 1) * Real.sin b + Real.sin (a + b)

theorem wamf1_detuning_deriv (θ φ : ℝ) {Ω : ℝ} (hΩ : 0 < Ω) (name : Option String) :
    HasMatrixDerivAt (fun d => evolution (withDetuningError d (wamf1Control θ Ω φ name)))
      (su2 0 0 0 (wamfSensitivity (wamf1Angles θ).1 (wamf1Angles θ).2 / Ω)) 0 := by
  obtain ⟨ha, hb, -, -⟩ := wamf1Angles_pos θ
  unfold wamf1Control
  generalize (wamf1Angles θ).1 = a at *
  generalize (wamf1Angles θ).2 = b at *
  have h1 := segment_detuning_deriv hΩ φ (a / Ω)
  have h2 := segment_detuning_deriv (show 0 < Ω * b / a by positivity) φ (a / Ω)
  have hp := ((HasMatrixDerivAt.mul h1 h2).mul h2).mul h1
  have e1 : (fun d => evolution (withDetuningError d ⟨[Ω, Ω * b / a, Ω * b / a, Ω], [φ, φ, φ, φ],
      [0, 0, 0, 0], List.replicate 4 (a / Ω), name⟩)) =
      fun d => segmentUnitary Ω φ (0 + d) (a / Ω) * segmentUnitary (Ω * b / a) φ (0 + d) (a / Ω) *
        segmentUnitary (Ω * b / a) φ (0 + d) (a / Ω) * segmentUnitary Ω φ (0 + d) (a / Ω) := by
    funext d
    simp only [evolution, withDetuningError, List.map_cons, List.map_nil, List.replicate,
      controlEvolution_cons, controlEvolution_nil, one_mul]
  rw [e1]
  refine hp.congr ?_
  rw [zero_add]
  have r1 : Ω * (a / Ω) = a := by field_simp
  have r2 : Ω * b / a * (a / Ω) = b := by field_simp
  simp only [segmentUnitary_resonant, r1, r2]
  rw [rotation_eq, rotation_eq]
  have q := Real.cos_sq_add_sin_sq φ
  have qa := Real.cos_sq_add_sin_sq (a / 2)
  have qb := Real.cos_sq_add_sin_sq (b / 2)
  have sb : Real.sin b = 2 * Real.sin (b / 2) * Real.cos (b / 2) := by
    rw [← Real.sin_two_mul]; congr 1; ring
  have sa : Real.sin a = 2 * Real.sin (a / 2) * Real.cos (a / 2) := by
    rw [← Real.sin_two_mul]; congr 1; ring
  have cb : Real.cos b = 2 * Real.cos (b / 2) ^ 2 - 1 := by
    rw [← Real.cos_two_mul]; congr 1; ring
  have ca : Real.cos a = 2 * Real.cos (a / 2) ^ 2 - 1 := by
    rw [← Real.cos_two_mul]; congr 1; ring
  unfold wamfSensitivity
  rw [Real.sin_add, sa, sb, ca, cb]
  simp only [su2_mul, su2_add, su2_inj]
  generalize Real.cos φ = x at *
  generalize Real.sin φ = y at *
  generalize Real.cos (a / 2) = c at *
  generalize Real.sin (a / 2) = s at *
  generalize Real.cos (b / 2) = p at *
  generalize Real.sin (b / 2) = r at *
  have hx : x ^ 2 = 1 - y ^ 2 := by linarith
  have hc : c ^ 2 = 1 - s ^ 2 := by linarith
  have hpr : p ^ 2 = 1 - r ^ 2 := by linarith
  refine ⟨?_, ?_, ?_, ?_⟩
  · field_simp; ring
  · field_simp; ring
  · field_simp; ring
  · field_simp
    clear h1 h2 hp e1 r1 r2 sa sb ca cb q qa qb
    simp only [zero_mul, add_zero, zero_add, sub_zero]
    grind

/-- Taylor bound for the cosine -/
theorem cos_taylor {x : ℝ} (hx : |x| ≤ 1) :
    |Real.cos x - (1 - x ^ 2 / 2 + x ^ 4 / 24 - x ^ 6 / 720)| ≤ |x| ^ 8 * (9 / 322560) := by
  have hn : ‖(x : ℂ) * Complex.I‖ = |x| := by simp
  have h := Complex.exp_bound (x := (x : ℂ) * Complex.I) (by rw [hn]; exact hx) (n := 8) (by norm_num)
  rw [hn] at h
  have h2 := (Complex.abs_re_le_norm _).trans h
  have e : (Complex.exp (x * Complex.I) - ∑ m ∈ Finset.range 8,
      (x * Complex.I : ℂ) ^ m / (m.factorial : ℂ)).re =
      Real.cos x - (1 - x ^ 2 / 2 + x ^ 4 / 24 - x ^ 6 / 720) := by
    have i2 : Complex.I ^ 2 = -1 := Complex.I_sq
    have i4 : Complex.I ^ 4 = 1 := Complex.I_pow_four
    have e2 : (∑ m ∈ Finset.range 8, (x * Complex.I : ℂ) ^ m / (m.factorial : ℂ)) =
        ((1 - x ^ 2 / 2 + x ^ 4 / 24 - x ^ 6 / 720 : ℝ) : ℂ) +
          ((x - x ^ 3 / 6 + x ^ 5 / 120 - x ^ 7 / 5040 : ℝ) : ℂ) * Complex.I := by
      simp only [Finset.sum_range_succ, Finset.sum_range_zero, Nat.factorial]
      push_cast
      ring_nf
      have i3 : Complex.I ^ 3 = -Complex.I := by rw [pow_succ, i2]; ring
      have i5 : Complex.I ^ 5 = Complex.I := by rw [pow_succ, i4]; ring
      have i6 : Complex.I ^ 6 = -1 := by rw [pow_succ, i5, ← pow_two, i2]
      have i7 : Complex.I ^ 7 = -Complex.I := by rw [pow_succ, i6]; ring
      rw [i2, i3, i4, i5, i6, i7]
      ring
    rw [e2, Complex.sub_re, Complex.add_re, Complex.ofReal_re, Complex.re_ofReal_mul]
    rw [Complex.exp_ofReal_mul_I_re]
    simp
  rw [e] at h2
  norm_num [Nat.factorial] at h2 ⊢
  exact h2

theorem wamfSensitivity_pi : wamfSensitivity Real.pi (Real.pi / 2) = 0 := by
  have := Real.pi_pos
  unfold wamfSensitivity
  rw [Real.sin_pi_div_two, show Real.pi + Real.pi / 2 = Real.pi / 2 + Real.pi by ring,
    Real.sin_add_pi, Real.sin_pi_div_two]
  field_simp
  norm_num

/-- numeric core of the two tabulated cases: `q = 4 b / π`, `p = 4 a / π` -/
theorem wamf_numeric {x k s lo hi c₁ c₂ : ℝ} (hlo : lo ≤ x) (hhi : x ≤ hi) (h0 : 0 ≤ lo)
    (h1 : hi ≤ 1) (hk : 0 ≤ k)
    (hc1 : c₁ ≤ 1 - hi ^ 2 / 2 + lo ^ 4 / 24 - hi ^ 6 / 720 - hi ^ 8 * (9 / 322560))
    (hc2 : 1 - lo ^ 2 / 2 + hi ^ 4 / 24 - lo ^ 6 / 720 + hi ^ 8 * (9 / 322560) ≤ c₂)
    (hs1 : -1e-8 ≤ k * c₁ + s) (hs2 : k * c₂ + s ≤ -1e-9) :
    -1e-8 ≤ k * Real.cos x + s ∧ k * Real.cos x + s ≤ -1e-9 := by
  have hx0 : 0 ≤ x := h0.trans hlo
  have h := cos_taylor (x := x) (by rw [abs_of_nonneg hx0]; linarith)
  rw [abs_of_nonneg hx0, abs_le] at h
  have a2 := pow_le_pow_left₀ hx0 hhi 2
  have a4 := pow_le_pow_left₀ hx0 hhi 4
  have a6 := pow_le_pow_left₀ hx0 hhi 6
  have a8 := pow_le_pow_left₀ hx0 hhi 8
  have b2 := pow_le_pow_left₀ h0 hlo 2
  have b4 := pow_le_pow_left₀ h0 hlo 4
  have b6 := pow_le_pow_left₀ h0 hlo 6
  have l1 : c₁ ≤ Real.cos x := by linarith [h.1]
  have l2 : Real.cos x ≤ c₂ := by linarith [h.2]
  constructor
  · have := mul_le_mul_of_nonneg_left l1 hk; linarith
  · have := mul_le_mul_of_nonneg_left l2 hk; linarith

theorem sqrt_between {x lo hi : ℝ} (h0' : 0 ≤ hi) (h1 : lo ^ 2 ≤ x)
    (h2 : x ≤ hi ^ 2) : lo ≤ √x ∧ √x ≤ hi :=
  ⟨Real.le_sqrt_of_sq_le h1, Real.sqrt_le_iff.2 ⟨h0', h2⟩⟩

theorem wamfSensitivity_half :
    -1e-8 ≤ wamfSensitivity (Real.pi * (2.5 + 0.65667825) / 4) (Real.pi * (2.5 - 0.65667825) / 4) ∧
    wamfSensitivity (Real.pi * (2.5 + 0.65667825) / 4) (Real.pi * (2.5 - 0.65667825) / 4) ≤ -1e-9 := by
  have hpi := Real.pi_pos
  have p1 := Real.pi_gt_d20
  have p2 := Real.pi_lt_d20
  have hr := sqrt_between (x := 2) (lo := 1.4142135623) (hi := 1.4142135624)
    (by norm_num) (by norm_num) (by norm_num)
  have e1 : Real.pi * (2.5 - 0.65667825) / 4 = Real.pi / 2 - Real.pi * (2 - 2.5 + 0.65667825) / 4 := by ring
  have e2 : Real.pi * (2.5 + 0.65667825) / 4 + Real.pi * (2.5 - 0.65667825) / 4 =
      Real.pi / 4 + Real.pi := by ring
  have e3 : Real.pi * (2.5 + 0.65667825) / 4 / (Real.pi * (2.5 - 0.65667825) / 4) - 1 =
      2 * 0.65667825 / (2.5 - 0.65667825) := by
    rw [div_div_div_cancel_right₀ (by norm_num), mul_div_mul_left _ _ hpi.ne']; norm_num
  unfold wamfSensitivity
  rw [e2, e3, e1, Real.sin_pi_div_two_sub, Real.sin_add_pi, Real.sin_pi_div_four]
  refine wamf_numeric (lo := 0.12305480979) (hi := 0.12305480980) (c₁ := 0.9924383060) (c₂ := 0.9924383061)
    ?_ ?_ ?_ ?_ ?_ ?_ ?_ ?_ ?_
  · linarith
  · linarith
  · norm_num
  · norm_num
  · norm_num
  · norm_num
  · norm_num
  · refine le_trans (b := 2 * 0.65667825 / (2.5 - 0.65667825) * 0.9924383060 - 1.4142135624 / 2) ?_ ?_
    · norm_num
    · linarith [hr.2]
  · refine le_trans (b := 2 * 0.65667825 / (2.5 - 0.65667825) * 0.9924383061 - 1.4142135623 / 2) ?_ ?_
    · linarith [hr.1]
    · norm_num

theorem wamfSensitivity_quarter :
    -1e-8 ≤ wamfSensitivity (Real.pi * (2.25 + 0.36256159) / 4) (Real.pi * (2.25 - 0.36256159) / 4) ∧
    wamfSensitivity (Real.pi * (2.25 + 0.36256159) / 4) (Real.pi * (2.25 - 0.36256159) / 4) ≤ -1e-9 := by
  have hpi := Real.pi_pos
  have p1 := Real.pi_gt_d20
  have p2 := Real.pi_lt_d20
  have hr0 := sqrt_between (x := 2) (lo := 1.41421356237) (hi := 1.41421356238)
    (by norm_num) (by norm_num) (by norm_num)
  have hr := sqrt_between (x := 2 - √2) (lo := 0.7653668647) (hi := 0.7653668648)
    (by norm_num) (le_trans (b := 2 - 1.41421356238) (by norm_num) (by linarith [hr0.2]))
    (le_trans (b := 2 - 1.41421356237) (by linarith [hr0.1]) (by norm_num))
  have e1 : Real.pi * (2.25 - 0.36256159) / 4 = Real.pi / 2 - Real.pi * (2 - 2.25 + 0.36256159) / 4 := by ring
  have e2 : Real.pi * (2.25 + 0.36256159) / 4 + Real.pi * (2.25 - 0.36256159) / 4 =
      Real.pi / 8 + Real.pi := by ring
  have e3 : Real.pi * (2.25 + 0.36256159) / 4 / (Real.pi * (2.25 - 0.36256159) / 4) - 1 =
      2 * 0.36256159 / (2.25 - 0.36256159) := by
    rw [div_div_div_cancel_right₀ (by norm_num), mul_div_mul_left _ _ hpi.ne']; norm_num
  unfold wamfSensitivity
  rw [e2, e3, e1, Real.sin_pi_div_two_sub, Real.sin_add_pi, Real.sin_pi_div_eight]
  refine wamf_numeric (lo := 0.08840566605) (hi := 0.08840566606) (c₁ := 0.9960947635) (c₂ := 0.9960947636)
    ?_ ?_ ?_ ?_ ?_ ?_ ?_ ?_ ?_
  · linarith
  · linarith
  · norm_num
  · norm_num
  · norm_num
  · norm_num
  · norm_num
  · refine le_trans (b := 2 * 0.36256159 / (2.25 - 0.36256159) * 0.9960947635 - 0.7653668648 / 2) ?_ ?_
    · norm_num
    · linarith [hr.2]
  · refine le_trans (b := 2 * 0.36256159 / (2.25 - 0.36256159) * 0.9960947636 - 0.7653668647 / 2) ?_ ?_
    · linarith [hr.1]
    · norm_num

/-- the sensitivity of the tabulated WAMF1 controls: zero for `π`, tiny but not zero otherwise -/
theorem wamfSensitivity_table (θ : ℝ) :
    |wamfSensitivity (wamf1Angles θ).1 (wamf1Angles θ).2| ≤ 1e-8 ∧
    (wamfSensitivity (wamf1Angles θ).1 (wamf1Angles θ).2 = 0 ↔ Close θ Real.pi) := by
  unfold wamf1Angles
  split
  · rename_i h
    simp only [wamfSensitivity_pi, h]
    norm_num
  · rename_i h
    simp only [h, iff_false, abs_le]
    split
    · have := wamfSensitivity_half
      simp only
      exact ⟨⟨this.1, by linarith [this.2]⟩, fun h => by rw [h] at this; norm_num at this⟩
    · have := wamfSensitivity_quarter
      simp only
      exact ⟨⟨this.1, by linarith [this.2]⟩, fun h => by rw [h] at this; norm_num at this⟩

theorem norm_im (y : ℝ) : ‖(⟨0, y⟩ : ℂ)‖ = |y| := by
  rw [show (⟨0, y⟩ : ℂ) = y * Complex.I by apply Complex.ext <;> simp]
  simp

theorem norm_su2_z_le (w : ℝ) (i j : Fin 2) : ‖su2 0 0 0 w i j‖ ≤ |w| := by
  fin_cases i <;> fin_cases j <;> simp [su2, norm_im]

theorem su2_z_zero_zero (w : ℝ) : ‖su2 0 0 0 w 0 0‖ = |w| := by simp [su2, norm_im]

theorem primitive_detuning_deriv (θ φ : ℝ) {Ω : ℝ} (hΩ : 0 < Ω) (name : Option String) :
    HasMatrixDerivAt (fun d => evolution (withDetuningError d
      (ofTable Ω (primitiveTable θ φ) name))) (su2 0 0 0 (Real.sin (θ / 2) / Ω)) 0 := by
  have h := segment_detuning_deriv hΩ φ (θ / Ω)
  have e : (fun d => evolution (withDetuningError d (ofTable Ω (primitiveTable θ φ) name))) =
      fun d => segmentUnitary Ω φ (0 + d) (θ / Ω) := by
    funext d
    simp [evolution, withDetuningError, ofTable, primitiveTable, controlEvolution_cons,
      controlEvolution_nil]
  rw [e]
  convert h using 4
  field_simp

end OpenControls
