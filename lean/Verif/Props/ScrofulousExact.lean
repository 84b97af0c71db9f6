import Verif.Props.Composite
import Verif.Proofs.Wamf
import Mathlib.Analysis.Real.Pi.Bounds

/-!
# C20, C23: the tabulated degrees of SCROFULOUS are not exact
-/

namespace OpenControls

open Spec RealInst PyFloat Py

/-- Distance of the first diagonal entry of a SCROFULOUS evolution from that of the rotation with any phase. -/
theorem scrofulous_entry {θ₁ θ : ℝ} (φ : ℝ) (f : ScrofulousFacts θ₁ θ) (z : ℂ) (hz : ‖z‖ = 1) :
    |(|Real.pi * Real.sin θ₁ / (2 * θ₁)| - |Real.cos (θ / 2)|)| ≤
      ‖(tableEvolution (scrofulousTable θ₁ θ φ) - z • rotation θ φ) 0 0‖ := by
  obtain ⟨a, w, w', -, -, -, -, he⟩ := tableEvolution_scrofulous φ f.h1 f.h2 f.hs
  rw [he, rotation_eq]
  have e1 : su2 (Real.pi * Real.sin θ₁ / (2 * θ₁))
      (Real.sin (θ / 2) * Real.cos φ + (w - w') * Real.sin a)
      (Real.sin (θ / 2) * Real.sin φ - (w - w') * Real.cos a) 0 0 0 =
      ((Real.pi * Real.sin θ₁ / (2 * θ₁) : ℝ) : ℂ) := by
    simp only [su2, Matrix.of_apply, Matrix.cons_val', Matrix.cons_val_zero, neg_zero]
    rfl
  have e2 : su2 (Real.cos (θ / 2)) (Real.sin (θ / 2) * Real.cos φ)
      (Real.sin (θ / 2) * Real.sin φ) 0 0 0 = ((Real.cos (θ / 2) : ℝ) : ℂ) := by
    simp only [su2, Matrix.of_apply, Matrix.cons_val', Matrix.cons_val_zero, neg_zero]
    rfl
  rw [Matrix.sub_apply, Matrix.smul_apply, e1, e2]
  have h := abs_norm_sub_norm_le ((Real.pi * Real.sin θ₁ / (2 * θ₁) : ℝ) : ℂ)
    (z • ((Real.cos (θ / 2) : ℝ) : ℂ))
  rw [norm_smul, hz, one_mul, Complex.norm_real, Complex.norm_real, Real.norm_eq_abs,
    Real.norm_eq_abs] at h
  exact h

theorem scrofulous_gap_half {θ : ℝ} (h : |θ - Real.pi / 2| ≤ 2 / 10 ^ 5) :
    19 / 10 ^ 5 ≤ |(|Real.pi * Real.sin (115.2 / 180 * Real.pi) / (2 * (115.2 / 180 * Real.pi))| -
      |Real.cos (θ / 2)|)| := by
  have hl := Real.pi_gt_d6
  have hu := Real.pi_lt_d6
  have hb : |θ / 2 - Real.pi / 4| ≤ 1 / 10 ^ 5 := by
    rw [abs_le] at h ⊢
    constructor <;> linarith [h.1, h.2]
  have hc := (cos_sub_le (θ / 2) (Real.pi / 4)).trans hb
  rw [Real.cos_pi_div_four, abs_le] at hc
  have hq1 : (1.414213 : ℝ) < Real.sqrt 2 := by
    rw [Real.lt_sqrt (by norm_num)]; norm_num
  have e1 : (115.2 / 180 * Real.pi : ℝ) = 0.14 * Real.pi + Real.pi / 2 := by ring
  have hsin1 : Real.sin (115.2 / 180 * Real.pi) = Real.cos (0.14 * Real.pi) := by
    rw [e1, Real.sin_add_pi_div_two]
  have hx : |0.14 * Real.pi| ≤ 1 := by rw [abs_of_pos (by linarith)]; linarith
  have ht := cos_taylor hx
  rw [abs_of_pos (by linarith : 0 < 0.14 * Real.pi)] at ht
  have hxl : (0.43982282 : ℝ) ≤ 0.14 * Real.pi := by linarith
  have hxu : 0.14 * Real.pi ≤ 0.43982302 := by linarith
  generalize 0.14 * Real.pi = x at *
  have hx0 : 0 ≤ x := by linarith
  have h2 : (0.43982282 : ℝ) ^ 2 ≤ x ^ 2 := pow_le_pow_left₀ (by norm_num) hxl 2
  have h4 : x ^ 4 ≤ 0.43982302 ^ 4 := pow_le_pow_left₀ hx0 hxu 4
  have h6 : (0.43982282 : ℝ) ^ 6 ≤ x ^ 6 := pow_le_pow_left₀ (by norm_num) hxl 6
  have h8 : x ^ 8 ≤ 0.43982302 ^ 8 := pow_le_pow_left₀ hx0 hxu 8
  norm_num at h2 h4 h6 h8
  have hC : Real.cos x ≤ 0.904828 := by
    rw [abs_le] at ht
    linarith [ht.2]
  have hC0 : 0 ≤ Real.cos x := Real.cos_nonneg_of_neg_pi_div_two_le_of_le (by linarith) (by linarith)
  have e2 : Real.pi * Real.cos x / (2 * (115.2 / 180 * Real.pi)) = Real.cos x * 0.78125 := by
    rw [show Real.pi * Real.cos x / (2 * (115.2 / 180 * Real.pi)) =
      Real.cos x * 0.78125 * (Real.pi / Real.pi) by ring, div_self Real.pi_ne_zero, mul_one]
  have a1 : |Real.cos x * 0.78125| = Real.cos x * 0.78125 := abs_of_nonneg (by linarith)
  have a2 : |Real.cos (θ / 2)| = Real.cos (θ / 2) := abs_of_nonneg (by linarith)
  rw [hsin1, e2, a1, a2, abs_sub_comm]
  refine le_trans ?_ (le_abs_self _)
  linarith

theorem scrofulous_gap_quarter {θ : ℝ} (h : |θ - Real.pi / 4| ≤ 2 / 10 ^ 5) :
    19 / 10 ^ 5 ≤ |(|Real.pi * Real.sin (96.7 / 180 * Real.pi) / (2 * (96.7 / 180 * Real.pi))| -
      |Real.cos (θ / 2)|)| := by
  have hl := Real.pi_gt_d6
  have hu := Real.pi_lt_d6
  have hb : |θ / 2 - Real.pi / 8| ≤ 1 / 10 ^ 5 := by
    rw [abs_le] at h ⊢
    constructor <;> linarith [h.1, h.2]
  have hc := (cos_sub_le (θ / 2) (Real.pi / 8)).trans hb
  rw [Real.cos_pi_div_eight, abs_le] at hc
  have hq1 : (1.414213 : ℝ) < Real.sqrt 2 := by
    rw [Real.lt_sqrt (by norm_num)]; norm_num
  have hq2 : Real.sqrt 2 < (1.414214 : ℝ) := by
    rw [Real.sqrt_lt' (by norm_num)]; norm_num
  have hp1 : (1.847758 : ℝ) < Real.sqrt (2 + Real.sqrt 2) := by
    rw [Real.lt_sqrt (by norm_num)]; norm_num; linarith
  have hp2 : Real.sqrt (2 + Real.sqrt 2) < (1.847761 : ℝ) := by
    rw [Real.sqrt_lt' (by norm_num)]; norm_num; linarith
  have e1 : (96.7 / 180 * Real.pi : ℝ) = 6.7 / 180 * Real.pi + Real.pi / 2 := by ring
  have hsin1 : Real.sin (96.7 / 180 * Real.pi) = Real.cos (6.7 / 180 * Real.pi) := by
    rw [e1, Real.sin_add_pi_div_two]
  have hlow := Real.one_sub_sq_div_two_le_cos (x := 6.7 / 180 * Real.pi)
  have hxu : 6.7 / 180 * Real.pi ≤ 0.116938 := by linarith
  have hxl : 0 ≤ 6.7 / 180 * Real.pi := by linarith
  generalize 6.7 / 180 * Real.pi = x at *
  have h2 : x ^ 2 ≤ 0.116938 ^ 2 := pow_le_pow_left₀ hxl hxu 2
  norm_num at h2
  have hC : 0.99316 ≤ Real.cos x := by norm_num; linarith
  have e2 : Real.pi * Real.cos x / (2 * (96.7 / 180 * Real.pi)) = Real.cos x * (180 / 193.4) := by
    rw [show Real.pi * Real.cos x / (2 * (96.7 / 180 * Real.pi)) =
      Real.cos x * (180 / 193.4) * (Real.pi / Real.pi) by ring, div_self Real.pi_ne_zero, mul_one]
  have a1 : |Real.cos x * (180 / 193.4)| = Real.cos x * (180 / 193.4) :=
    abs_of_nonneg (by linarith)
  have a2 : |Real.cos (θ / 2)| = Real.cos (θ / 2) := abs_of_nonneg (by linarith)
  rw [hsin1, e2, a1, a2]
  refine le_trans ?_ (le_abs_self _)
  linarith

theorem close_sharper {θ a : ℝ} (ha : 0 < a) (ha' : a ≤ 1.9) (h : Close θ a) : |θ - a| ≤ 2 / 10 ^ 5 := by
  unfold Close at h
  rw [abs_of_pos ha] at h
  norm_num at h ha' ⊢
  linarith

/-- what both properties need -/
theorem scrofulous_inexact {θ : ℝ} (φ : ℝ) (ht : Tabulated θ) :
    (EqUpToPhase (tableEvolution (scrofulousTable (scrofulousAngle θ) θ φ)) (rotation θ φ) ↔
      θ = Real.pi) ∧
    (¬ Close θ Real.pi → ∀ z : ℂ, ‖z‖ = 1 → 19 / 10 ^ 5 ≤
      ‖(tableEvolution (scrofulousTable (scrofulousAngle θ) θ φ) - z • rotation θ φ) 0 0‖) := by
  have f := scrofulousFacts ht
  have hl := Real.pi_gt_d6
  have hu := Real.pi_lt_d6
  have far : ¬ Close θ Real.pi → ∀ z : ℂ, ‖z‖ = 1 → 19 / 10 ^ 5 ≤
      ‖(tableEvolution (scrofulousTable (scrofulousAngle θ) θ φ) - z • rotation θ φ) 0 0‖ := by
    intro hn z hz
    refine le_trans ?_ (scrofulous_entry φ f z hz)
    by_cases h2 : Close θ (Real.pi / 2)
    · rw [scrofulousAngle, if_neg hn, if_pos h2]
      exact scrofulous_gap_half (close_sharper (by linarith) (by linarith) h2)
    · have h4 : Close θ (Real.pi / 4) := by
        rcases ht with h | h | h
        · exact absurd h hn
        · exact absurd h h2
        · exact h
      rw [scrofulousAngle, if_neg hn, if_neg h2]
      exact scrofulous_gap_quarter (close_sharper (by linarith) (by linarith) h4)
  refine ⟨⟨?_, ?_⟩, far⟩
  · rintro ⟨z, hz, he⟩
    have hd : (tableEvolution (scrofulousTable (scrofulousAngle θ) θ φ) - z • rotation θ φ) 0 0 = 0 := by
      rw [he, sub_self]; rfl
    by_cases hn : Close θ Real.pi
    · have h0 := scrofulous_entry φ f z hz
      rw [hd, norm_zero, scrofulousAngle, if_pos hn, Real.sin_pi, mul_zero, zero_div, abs_zero,
        zero_sub, abs_neg, abs_abs] at h0
      have h1 : Real.cos (θ / 2) = 0 := abs_nonpos_iff.1 h0
      have hnear := Close.near Real.pi_pos (by linarith) hn
      rw [abs_le] at hnear
      have h2 : Real.sin (Real.pi / 2 - θ / 2) = 0 := by rw [Real.sin_pi_div_two_sub, h1]
      have := (Real.sin_eq_zero_iff_of_lt_of_lt (by linarith [hnear.2]) (by linarith [hnear.1])).1 h2
      linarith
    · have := far hn z hz
      rw [hd, norm_zero] at this
      norm_num at this
  · rintro rfl
    refine ⟨1, by simp, ?_⟩
    rw [one_smul]
    refine tableEvolution_scrofulous_exact φ f.h1 f.h2 f.hs ?_
    have hcl : Close Real.pi Real.pi := by unfold Close; simp; positivity
    rw [scrofulousAngle, if_pos hcl]
    simp

/-- **C20** An accepted SCROFULOUS control performs the requested rotation exactly (or up to a global phase) only
if the rotation angle is `π`. For the other tabulated angles the one-decimal degrees leave an error of at least
1.9e-4, whatever the global phase. -/
theorem C20_scrofulous_exact_iff (θ Ω φ : ℝ) (name : Option String) (c : DrivenControl ℝ)
    (hc : newScrofulousControl θ Ω φ name = .ok c) :
    (EqUpToPhase (evolution c) (rotation θ φ) ↔ θ = Real.pi) ∧
    (¬ Close θ Real.pi → ∀ z : ℂ, ‖z‖ = 1 →
      19 / 10 ^ 5 ≤ ‖(evolution c - z • rotation θ φ) 0 0‖) := by
  obtain ⟨⟨hΩ, ht⟩, rfl⟩ := (newScrofulousControl_spec θ Ω φ name).ok hc
  rw [evolution_ofTable hΩ.ne']
  exact scrofulous_inexact φ ht

/-- the hypotheses are met: a SCROFULOUS control for a rotation by `π/2` exists and is inexact -/
example : ∃ c, newScrofulousControl (Real.pi / 2) 1 0 none = .ok c ∧
    ¬ EqUpToPhase (evolution c) (rotation (Real.pi / 2) 0) := by
  have hcl : Close (Real.pi / 2) (Real.pi / 2) := by unfold Close; simp; positivity
  have hok := (newScrofulousControl_spec (Real.pi / 2) 1 0 none).1 ⟨one_pos, Or.inr (Or.inl hcl)⟩
  refine ⟨_, hok, fun h => ?_⟩
  have := ((C20_scrofulous_exact_iff _ _ _ _ _ hok).1).1 h
  linarith [Real.pi_pos]

/-- **C23** The same holds for CORPSE in SCROFULOUS. -/
theorem C23_exact_iff (θ Ω φ : ℝ) (name : Option String) (c : DrivenControl ℝ)
    (hc : newCorpseInScrofulousControl θ Ω φ name = .ok c) :
    (EqUpToPhase (evolution c) (rotation θ φ) ↔ θ = Real.pi) ∧
    (¬ Close θ Real.pi → ∀ z : ℂ, ‖z‖ = 1 →
      19 / 10 ^ 5 ≤ ‖(evolution c - z • rotation θ φ) 0 0‖) := by
  obtain ⟨⟨hΩ, ht⟩, rfl⟩ := (newCorpseInScrofulousControl_spec θ Ω φ name).ok hc
  rw [evolution_ofTable hΩ.ne', tableEvolution_corpseEach]
  exact scrofulous_inexact φ ht

end OpenControls
