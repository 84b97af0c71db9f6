import Verif.Proofs.ExactError
import Verif.Proofs.CorpseError
import Verif.Props.ResidualError
import Verif.Props.Robustness

/-!
# C107: exactly what is left of an error after the composite pulses

The distance is the operator norm of the difference of the two evolutions.  `t` is `θ / 4π`, the fraction of the
largest angle that BB1 and SK1 accept.
-/

namespace OpenControls

open Spec Filter Topology
open scoped Matrix.Norms.L2Operator

/-- **C107**, BB1: for every relative error `e` of the Rabi rates, the distance of the evolution from the requested
rotation is exactly `√(2 - 2 bb1Overlap t e)`; the same for CORPSE in BB1. -/
theorem C107_bb1 (θ Ω φ : ℝ) (name : Option String) (c : DrivenControl ℝ)
    (hc : newBB1Control θ Ω φ name = .ok c ∨ newCorpseInBB1Control θ Ω φ name = .ok c) (e : ℝ) :
    ‖evolution (withAmplitudeError e c) - rotation θ φ‖ =
      √(2 - 2 * bb1Overlap (θ / (4 * Real.pi)) e) := by
  rcases hc with hc | hc
  · obtain ⟨⟨hΩ, h0, h4⟩, rfl⟩ := (newBB1Control_spec θ Ω φ name).ok hc
    rw [evolution_amplitude hΩ.ne', bb1_dist h0 h4]
  · obtain ⟨⟨hΩ, h0, h4⟩, rfl⟩ := (newCorpseInBB1Control_spec θ Ω φ name).ok hc
    rw [evolution_amplitude hΩ.ne', corpseFirst_amplitude, bb1_dist h0 h4]

/-- **C107**, SK1 and CORPSE in SK1. -/
theorem C107_sk1 (θ Ω φ : ℝ) (name : Option String) (c : DrivenControl ℝ)
    (hc : newSK1Control θ Ω φ name = .ok c ∨ newCorpseInSK1Control θ Ω φ name = .ok c) (e : ℝ) :
    ‖evolution (withAmplitudeError e c) - rotation θ φ‖ =
      √(2 - 2 * sk1Overlap (θ / (4 * Real.pi)) e) := by
  rcases hc with hc | hc
  · obtain ⟨⟨hΩ, h0, h4⟩, rfl⟩ := (newSK1Control_spec θ Ω φ name).ok hc
    rw [evolution_amplitude hΩ.ne', sk1_dist h0 h4]
  · obtain ⟨⟨hΩ, h0, h4⟩, rfl⟩ := (newCorpseInSK1Control_spec θ Ω φ name).ok hc
    rw [evolution_amplitude hΩ.ne', corpseFirst_amplitude, sk1_dist h0 h4]

/-- **C107**, CORPSE does nothing against errors of the Rabi rate: exactly the distance of the primitive pulse. -/
theorem C107_corpse_amplitude (θ Ω φ : ℝ) (name : Option String) (c : DrivenControl ℝ)
    (hc : newCorpseControl θ Ω φ name = .ok c) (e : ℝ) :
    ‖evolution (withAmplitudeError e c) - rotation θ φ‖ = 2 * |Real.sin (θ * e / 4)| := by
  obtain ⟨hv, -⟩ := (newCorpseControl_spec θ Ω φ name).ok hc
  have hc' := (newPrimitiveControl_spec θ Ω φ name).1 hv
  rw [C57_nested_amplitude θ Ω φ name c _ (Or.inr (Or.inr (Or.inr ⟨hc, hc'⟩))) e,
    C102_primitive θ Ω φ name _ hc' e]

/-- **C107**, how small the errors are: for small relative errors `e` of the Rabi rates the distance is
`π³/3 · t √((1-t²)(1+8t²)) · |e|³` for BB1 and `2π² t √(1-t²) · e²` for SK1, to leading order. -/
theorem C107_amplitude_order (θ Ω φ : ℝ) (name : Option String) (c : DrivenControl ℝ) :
    (newBB1Control θ Ω φ name = .ok c ∨ newCorpseInBB1Control θ Ω φ name = .ok c →
      Tendsto (fun e : ℝ => ‖evolution (withAmplitudeError e c) - rotation θ φ‖ / |e| ^ 3) (𝓝[≠] 0)
        (𝓝 (Real.pi ^ 3 / 3 * (θ / (4 * Real.pi)) *
          √((1 - (θ / (4 * Real.pi)) ^ 2) * (1 + 8 * (θ / (4 * Real.pi)) ^ 2))))) ∧
    (newSK1Control θ Ω φ name = .ok c ∨ newCorpseInSK1Control θ Ω φ name = .ok c →
      Tendsto (fun e : ℝ => ‖evolution (withAmplitudeError e c) - rotation θ φ‖ / e ^ 2) (𝓝[≠] 0)
        (𝓝 (2 * Real.pi ^ 2 * (θ / (4 * Real.pi)) * √(1 - (θ / (4 * Real.pi)) ^ 2)))) := by
  constructor
  · rintro (hc | hc)
    · obtain ⟨⟨hΩ, h0, h4⟩, rfl⟩ := (newBB1Control_spec θ Ω φ name).ok hc
      simp only [evolution_amplitude hΩ.ne']
      exact bb1_limit h0 h4 φ
    · obtain ⟨⟨hΩ, h0, h4⟩, rfl⟩ := (newCorpseInBB1Control_spec θ Ω φ name).ok hc
      simp only [evolution_amplitude hΩ.ne', corpseFirst_amplitude]
      exact bb1_limit h0 h4 φ
  · rintro (hc | hc)
    · obtain ⟨⟨hΩ, h0, h4⟩, rfl⟩ := (newSK1Control_spec θ Ω φ name).ok hc
      simp only [evolution_amplitude hΩ.ne']
      simpa only [sq_abs] using sk1_limit h0 h4 φ
    · obtain ⟨⟨hΩ, h0, h4⟩, rfl⟩ := (newCorpseInSK1Control_spec θ Ω φ name).ok hc
      simp only [evolution_amplitude hΩ.ne', corpseFirst_amplitude]
      simpa only [sq_abs] using sk1_limit h0 h4 φ

/-- **C107**, complete immunity: BB1 and SK1 make the requested rotation whatever the error of the Rabi rates exactly
if the angle is `4π`; at every smaller angle some error shows. -/
theorem C107_immune_iff (θ Ω φ : ℝ) (name : Option String) (c : DrivenControl ℝ)
    (hc : (newBB1Control θ Ω φ name = .ok c ∨ newCorpseInBB1Control θ Ω φ name = .ok c) ∨
      (newSK1Control θ Ω φ name = .ok c ∨ newCorpseInSK1Control θ Ω φ name = .ok c)) :
    (∀ e : ℝ, evolution (withAmplitudeError e c) = rotation θ φ) ↔ θ = 4 * Real.pi := by
  have hpi := Real.pi_pos
  have hv : 0 < θ ∧ θ ≤ 4 * Real.pi := by
    rcases hc with (hc | hc) | (hc | hc)
    · exact ((newBB1Control_spec θ Ω φ name).ok hc).1.2
    · exact ((newCorpseInBB1Control_spec θ Ω φ name).ok hc).1.2
    · exact ((newSK1Control_spec θ Ω φ name).ok hc).1.2
    · exact ((newCorpseInSK1Control_spec θ Ω φ name).ok hc).1.2
  obtain ⟨h0, h4⟩ := hv
  have key : ∀ f : ℝ → ℝ → ℝ, (∀ e : ℝ, ‖evolution (withAmplitudeError e c) - rotation θ φ‖ =
      √(2 - 2 * f (θ / (4 * Real.pi)) e)) → (∀ t : ℝ, f t 1 = Real.cos (2 * Real.pi * t)) →
      (∀ e : ℝ, f 1 e = 1) →
      ((∀ e : ℝ, evolution (withAmplitudeError e c) = rotation θ φ) ↔ θ = 4 * Real.pi) := by
    intro f hf h1 hone
    constructor
    · intro h
      have h2 := hf 1
      rw [h 1, sub_self, norm_zero, h1] at h2
      have h3 := Real.sqrt_eq_zero'.1 h2.symm
      have h5 : Real.cos (2 * Real.pi * (θ / (4 * Real.pi))) = 1 :=
        le_antisymm (Real.cos_le_one _) (by linarith)
      have h6 : 2 * Real.pi * (θ / (4 * Real.pi)) = θ / 2 := by field_simp; ring
      rw [h6] at h5
      obtain ⟨n, hn⟩ := (Real.cos_eq_one_iff _).1 h5
      have hn1 : (0 : ℝ) < n := by
        by_contra hneg
        push Not at hneg
        nlinarith
      have hn2 : (n : ℝ) ≤ 1 := by
        by_contra hneg
        push Not at hneg
        nlinarith
      have hn3 : n = 1 := by
        have a : (0 : ℤ) < n := by exact_mod_cast hn1
        have b : n ≤ (1 : ℤ) := by exact_mod_cast hn2
        omega
      rw [hn3] at hn
      push_cast at hn
      linarith
    · intro h e
      have h2 := hf e
      rw [h, div_self (by positivity), hone, mul_one, sub_self, Real.sqrt_zero, ← h] at h2
      exact sub_eq_zero.1 (norm_eq_zero.1 h2)
  rcases hc with hc | hc
  · refine key bb1Overlap (C107_bb1 θ Ω φ name c hc) (fun t => ?_) fun e => ?_
    · unfold bb1Overlap; simp
    · unfold bb1Overlap
      have h1 : Real.cos (2 * Real.pi * 1 * e) = 2 * Real.cos (Real.pi * e) ^ 2 - 1 := by
        rw [← Real.cos_two_mul]; congr 1; ring
      have h2 : Real.sin (2 * Real.pi * 1 * e) = 2 * Real.sin (Real.pi * e) * Real.cos (Real.pi * e) := by
        rw [← Real.sin_two_mul]; congr 1; ring
      rw [h1, h2]
      have := Real.cos_sq_add_sin_sq (Real.pi * e)
      generalize Real.cos (Real.pi * e) = a at *
      generalize Real.sin (Real.pi * e) = b at *
      linear_combination 2 * this
  · refine key sk1Overlap (C107_sk1 θ Ω φ name c hc) (fun t => ?_) fun e => ?_
    · unfold sk1Overlap; simp
    · unfold sk1Overlap
      rw [show 2 * Real.pi * 1 * e = 2 * (Real.pi * e) by ring,
        show 2 * Real.pi * e = 2 * (Real.pi * e) by ring, Real.cos_two_mul, Real.sin_two_mul]
      have := Real.cos_sq_add_sin_sq (Real.pi * e)
      generalize Real.cos (Real.pi * e) = a at *
      generalize Real.sin (Real.pi * e) = b at *
      linear_combination 2 * this

/-- **C107**, the primitive pulse under a constant detuning of `e` times the largest Rabi rate: exactly
`√(2 - 2 detunedOverlap θ e)` from the requested rotation. -/
theorem C107_primitive_detuning (θ Ω φ : ℝ) (name : Option String) (c : DrivenControl ℝ)
    (hc : newPrimitiveControl θ Ω φ name = .ok c) (e : ℝ) :
    ‖evolution (withDetuningError (e * Ω) c) - rotation θ φ‖ = √(2 - 2 * detunedOverlap θ e) := by
  obtain ⟨⟨hΩ, -⟩, rfl⟩ := (newPrimitiveControl_spec θ Ω φ name).ok hc
  rw [← detuned_dist hΩ θ φ e]
  simp only [evolution, withDetuningError, ofTable, primitiveTable, List.map_cons, List.map_nil,
    controlEvolution_cons, controlEvolution_nil, one_mul, zero_add]

/-- **C107**, CORPSE under a constant detuning of `e` times the largest Rabi rate: to leading order the distance from
the requested rotation is `|sin 2k - (θ + sin θ)/4| · e²`, where `k = arcsin(sin(θ/2)/2)`. -/
theorem C107_corpse_detuning (θ Ω φ : ℝ) (name : Option String) (c : DrivenControl ℝ)
    (hc : newCorpseControl θ Ω φ name = .ok c) :
    Tendsto (fun e : ℝ => ‖evolution (withDetuningError (e * Ω) c) - rotation θ φ‖ / e ^ 2) (𝓝[≠] 0)
      (𝓝 |corpseResidue θ|) := by
  obtain ⟨⟨hΩ, -⟩, rfl⟩ := (newCorpseControl_spec θ Ω φ name).ok hc
  exact corpse_limit hΩ θ φ name

/-- **C107**, the coefficient is not zero at `θ = π`, where it is `√3/2 - π/4`, but it is at some angle between `π` and
`2π`; there CORPSE cancels the detuning to second order. -/
theorem C107_corpse_best_angle :
    |corpseResidue Real.pi| = √3 / 2 - Real.pi / 4 ∧ |corpseResidue Real.pi| ≠ 0 ∧
      ∃ θ, Real.pi < θ ∧ θ < 2 * Real.pi ∧ corpseResidue θ = 0 := by
  have h := corpseResidue_pi
  have hp := corpseResidue_pi_pos
  refine ⟨?_, ?_, corpseResidue_zero⟩
  · rw [abs_of_pos hp, h]
  · exact (abs_pos.2 hp.ne').ne'

/-! Non-vacuity: the functions return, and the formulas are not constant. -/

example : ∃ c, newBB1Control Real.pi 1 0 none = .ok c :=
  ⟨_, (newBB1Control_spec Real.pi 1 0 none).1 ⟨one_pos, Real.pi_pos, by linarith [Real.pi_pos]⟩⟩

example : ∃ c, newSK1Control Real.pi 1 0 none = .ok c :=
  ⟨_, (newSK1Control_spec Real.pi 1 0 none).1 ⟨one_pos, Real.pi_pos, by linarith [Real.pi_pos]⟩⟩

example : ∃ c, newCorpseControl Real.pi 1 0 none = .ok c :=
  ⟨_, (newCorpseControl_spec Real.pi 1 0 none).1 ⟨one_pos, Real.pi_pos⟩⟩

/-- a pulse by `π` with Rabi rates twice too large: BB1 ends at distance `√2` -/
example (c : DrivenControl ℝ) (hc : newBB1Control Real.pi 1 0 none = .ok c) :
    ‖evolution (withAmplitudeError 1 c) - rotation Real.pi 0‖ = √2 := by
  rw [C107_bb1 _ _ _ _ c (Or.inl hc)]
  congr 1
  have : 2 * Real.pi * (Real.pi / (4 * Real.pi)) = Real.pi / 2 := by
    have := Real.pi_pos.ne'
    field_simp; norm_num
  simp [bb1Overlap, this]

end OpenControls
