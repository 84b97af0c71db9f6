import Verif.Props.Composite
import Verif.Proofs.Robustness
import Verif.Proofs.Wamf

/-!
# C26-C28, C57-C59, C68: what the composite pulses are for
-/

namespace OpenControls

open Spec RealInst

/-- **C26.** Every accepted SK1 control is insensitive to amplitude errors to first order. -/
theorem C26_sk1_amplitude (θ Ω φ : ℝ) (name : Option String) (c : DrivenControl ℝ)
    (hc : newSK1Control θ Ω φ name = .ok c) :
    FirstOrderInsensitive fun e => evolution (withAmplitudeError e c) := by
  obtain ⟨⟨hΩ, h0, h4⟩, rfl⟩ := (newSK1Control_spec θ Ω φ name).ok hc
  simp only [evolution_amplitude hΩ.ne']
  exact sk1_first_order h0 h4 φ

/-- **C27.** Every accepted BB1 control is insensitive to amplitude errors to first and second
order. -/
theorem C27_bb1_amplitude (θ Ω φ : ℝ) (name : Option String) (c : DrivenControl ℝ)
    (hc : newBB1Control θ Ω φ name = .ok c) :
    SecondOrderInsensitive fun e => evolution (withAmplitudeError e c) := by
  obtain ⟨⟨hΩ, h0, h4⟩, rfl⟩ := (newBB1Control_spec θ Ω φ name).ok hc
  simp only [evolution_amplitude hΩ.ne']
  exact bb1_second_order h0 h4 φ

/-- **C28.** Every accepted CORPSE control is insensitive to detuning errors to first order. -/
theorem C28_corpse_detuning (θ Ω φ : ℝ) (name : Option String) (c : DrivenControl ℝ)
    (hc : newCorpseControl θ Ω φ name = .ok c) :
    FirstOrderInsensitive fun d => evolution (withDetuningError d c) := by
  obtain ⟨⟨hΩ, h0⟩, rfl⟩ := (newCorpseControl_spec θ Ω φ name).ok hc
  exact corpse_first_order hΩ θ φ name

/-- **C28**, nested controls: the part of CORPSE-in-BB1 and CORPSE-in-SK1 that replaces the first
segment of the enclosing control (its first three segments) is insensitive to detuning errors to
first order, and performs the rotation of the segment it replaces. -/
theorem C28_corpse_in_detuning (θ Ω φ : ℝ) (name : Option String) (c : DrivenControl ℝ)
    (hc : newCorpseInBB1Control θ Ω φ name = .ok c ∨ newCorpseInSK1Control θ Ω φ name = .ok c) :
    FirstOrderInsensitive (fun d => evolution (withDetuningError d (firstSegments 3 c))) ∧
    evolution (firstSegments 3 c) = rotation θ φ := by
  have key : 0 < Ω ∧ firstSegments 3 c = ofTable Ω (corpseTable θ φ) name := by
    rcases hc with hc | hc
    · obtain ⟨⟨hΩ, h0⟩, rfl⟩ := (newCorpseInBB1Control_spec θ Ω φ name).ok hc
      exact ⟨hΩ, by simp [firstSegments, ofTable, corpseFirst, bb1Table, corpseTable]⟩
    · obtain ⟨⟨hΩ, h0⟩, rfl⟩ := (newCorpseInSK1Control_spec θ Ω φ name).ok hc
      exact ⟨hΩ, by simp [firstSegments, ofTable, corpseFirst, sk1Table, corpseTable]⟩
  obtain ⟨hΩ, hk⟩ := key
  rw [hk]
  exact ⟨corpse_first_order hΩ θ φ name, by rw [evolution_ofTable hΩ.ne', tableEvolution_corpse]⟩

/-- **C57.** Under any amplitude error, the CORPSE-nested controls evolve exactly like the controls
they are nested in; so CORPSE-in-SK1 is insensitive to amplitude errors to first and CORPSE-in-BB1
to second order. -/
theorem C57_nested_amplitude (θ Ω φ : ℝ) (name : Option String) (c c' : DrivenControl ℝ)
    (hc : (newCorpseInBB1Control θ Ω φ name = .ok c ∧ newBB1Control θ Ω φ name = .ok c') ∨
      (newCorpseInSK1Control θ Ω φ name = .ok c ∧ newSK1Control θ Ω φ name = .ok c') ∨
      (newCorpseInScrofulousControl θ Ω φ name = .ok c ∧
        newScrofulousControl θ Ω φ name = .ok c') ∨
      (newCorpseControl θ Ω φ name = .ok c ∧ newPrimitiveControl θ Ω φ name = .ok c')) (e : ℝ) :
    evolution (withAmplitudeError e c) = evolution (withAmplitudeError e c') := by
  rcases hc with ⟨hc, hc'⟩ | ⟨hc, hc'⟩ | ⟨hc, hc'⟩ | ⟨hc, hc'⟩
  · obtain ⟨⟨hΩ, -⟩, rfl⟩ := (newCorpseInBB1Control_spec θ Ω φ name).ok hc
    obtain ⟨-, rfl⟩ := (newBB1Control_spec θ Ω φ name).ok hc'
    rw [evolution_amplitude hΩ.ne', evolution_amplitude hΩ.ne', corpseFirst_amplitude]
  · obtain ⟨⟨hΩ, -⟩, rfl⟩ := (newCorpseInSK1Control_spec θ Ω φ name).ok hc
    obtain ⟨-, rfl⟩ := (newSK1Control_spec θ Ω φ name).ok hc'
    rw [evolution_amplitude hΩ.ne', evolution_amplitude hΩ.ne', corpseFirst_amplitude]
  · obtain ⟨⟨hΩ, -⟩, rfl⟩ := (newCorpseInScrofulousControl_spec θ Ω φ name).ok hc
    obtain ⟨-, rfl⟩ := (newScrofulousControl_spec θ Ω φ name).ok hc'
    rw [evolution_amplitude hΩ.ne', evolution_amplitude hΩ.ne', corpseEach_amplitude]
  · obtain ⟨⟨hΩ, -⟩, rfl⟩ := (newCorpseControl_spec θ Ω φ name).ok hc
    obtain ⟨-, rfl⟩ := (newPrimitiveControl_spec θ Ω φ name).ok hc'
    rw [evolution_amplitude hΩ.ne', evolution_amplitude hΩ.ne', corpse_amplitude]
    simp [primitiveTable, tableEvolution]

/-- **C57**, consequences. -/
theorem C57_nested_insensitive (θ Ω φ : ℝ) (name : Option String) (c : DrivenControl ℝ) :
    (newCorpseInSK1Control θ Ω φ name = .ok c →
      FirstOrderInsensitive fun e => evolution (withAmplitudeError e c)) ∧
    (newCorpseInBB1Control θ Ω φ name = .ok c →
      SecondOrderInsensitive fun e => evolution (withAmplitudeError e c)) := by
  constructor
  · intro hc
    obtain ⟨⟨hΩ, h0, h4⟩, rfl⟩ := (newCorpseInSK1Control_spec θ Ω φ name).ok hc
    simp only [evolution_amplitude hΩ.ne', corpseFirst_amplitude]
    exact sk1_first_order h0 h4 φ
  · intro hc
    obtain ⟨⟨hΩ, h0, h4⟩, rfl⟩ := (newCorpseInBB1Control_spec θ Ω φ name).ok hc
    simp only [evolution_amplitude hΩ.ne', corpseFirst_amplitude]
    exact bb1_second_order h0 h4 φ

/-- **C58.** Every accepted SCROFULOUS control is insensitive to amplitude errors to first
order (although its rotation angle is only tabulated). -/
theorem C58_scrofulous_amplitude (θ Ω φ : ℝ) (name : Option String) (c : DrivenControl ℝ)
    (hc : newScrofulousControl θ Ω φ name = .ok c) :
    FirstOrderInsensitive fun e => evolution (withAmplitudeError e c) := by
  obtain ⟨⟨hΩ, ht⟩, rfl⟩ := (newScrofulousControl_spec θ Ω φ name).ok hc
  simp only [evolution_amplitude hΩ.ne']
  exact scrofulous_first_order (scrofulousAngle_pos θ).ne' (scrofulousFacts ht).h2 θ φ

/-- **C59.** Every accepted CORPSE-in-SCROFULOUS control is insensitive, to first order, to
amplitude errors and to detuning errors. -/
theorem C59_corpse_in_scrofulous (θ Ω φ : ℝ) (name : Option String) (c : DrivenControl ℝ)
    (hc : newCorpseInScrofulousControl θ Ω φ name = .ok c) :
    FirstOrderInsensitive (fun e => evolution (withAmplitudeError e c)) ∧
    FirstOrderInsensitive (fun d => evolution (withDetuningError d c)) := by
  obtain ⟨⟨hΩ, ht⟩, rfl⟩ := (newCorpseInScrofulousControl_spec θ Ω φ name).ok hc
  refine ⟨?_, corpseEach_detuning hΩ _ name⟩
  simp only [evolution_amplitude hΩ.ne', corpseEach_amplitude]
  exact scrofulous_first_order (scrofulousAngle_pos θ).ne' (scrofulousFacts ht).h2 θ φ

/-- **C68.** Every accepted WAMF1 control is almost insensitive to detuning errors: the derivative of
its evolution with respect to the error is at most `10⁻⁸/Ω` in every entry. -/
theorem C68_wamf1_detuning (θ Ω φ : ℝ) (name : Option String) (c : DrivenControl ℝ)
    (hc : newWamf1Control θ Ω φ name = .ok c) :
    ∃ U', HasMatrixDerivAt (fun d => evolution (withDetuningError d c)) U' 0 ∧
      ∀ i j, ‖U' i j‖ ≤ 1e-8 / Ω := by
  obtain ⟨⟨hΩ, ht⟩, rfl⟩ := (newWamf1Control_spec θ Ω φ name).ok hc
  refine ⟨_, wamf1_detuning_deriv θ φ hΩ name, fun i j => (norm_su2_z_le _ i j).trans ?_⟩
  rw [abs_div, abs_of_pos hΩ]
  exact div_le_div_of_nonneg_right (wamfSensitivity_table θ).1 hΩ.le

/-- **C68**, which controls are exactly insensitive: those for a rotation by `π`. For the two other
tabulated angles the rounding of the optimised constants leaves a first-order term. -/
theorem C68_wamf1_first_order (θ Ω φ : ℝ) (name : Option String) (c : DrivenControl ℝ)
    (hc : newWamf1Control θ Ω φ name = .ok c) :
    FirstOrderInsensitive (fun d => evolution (withDetuningError d c)) ↔ Close θ Real.pi := by
  obtain ⟨⟨hΩ, ht⟩, rfl⟩ := (newWamf1Control_spec θ Ω φ name).ok hc
  have h := wamf1_detuning_deriv θ φ hΩ name
  rw [← (wamfSensitivity_table θ).2]
  constructor
  · intro h'
    have e := (h' 0 0).unique (h 0 0)
    have e2 := congrArg norm e
    rw [su2_z_zero_zero] at e2
    simpa [hΩ.ne'] using e2.symm
  · intro h0
    rw [h0, zero_div, su2_zero] at h
    exact h

/-- **C68**, for comparison: the derivative for the primitive control has an entry of size
`|sin(θ/2)|/Ω`, which is `1/Ω` for a rotation by `π`. -/
theorem C68_primitive_detuning (θ Ω φ : ℝ) (name : Option String) (c : DrivenControl ℝ)
    (hc : newPrimitiveControl θ Ω φ name = .ok c) :
    ∃ U', HasMatrixDerivAt (fun d => evolution (withDetuningError d c)) U' 0 ∧
      ‖U' 0 0‖ = |Real.sin (θ / 2)| / Ω := by
  obtain ⟨⟨hΩ, ht⟩, rfl⟩ := (newPrimitiveControl_spec θ Ω φ name).ok hc
  refine ⟨_, primitive_detuning_deriv θ φ hΩ name, ?_⟩
  rw [su2_z_zero_zero, abs_div, abs_of_pos hΩ]

/-! ### Non-vacuity, and a pulse that is not robust -/

example : ∃ c, newBB1Control Real.pi 2 1 none = .ok c ∧
    SecondOrderInsensitive fun e => evolution (withAmplitudeError e c) := by
  obtain ⟨c, hc⟩ := build_pi_ok .bb1
  exact ⟨c, hc, C27_bb1_amplitude _ _ _ _ c hc⟩

example : ∃ c, newCorpseInScrofulousControl Real.pi 2 1 none = .ok c ∧
    FirstOrderInsensitive fun d => evolution (withDetuningError d c) := by
  obtain ⟨c, hc⟩ := build_pi_ok .corpseInScrofulous
  exact ⟨c, hc, (C59_corpse_in_scrofulous _ _ _ _ c hc).2⟩

example : ∃ c, newWamf1Control Real.pi 2 1 none = .ok c ∧
    FirstOrderInsensitive fun d => evolution (withDetuningError d c) := by
  obtain ⟨c, hc⟩ := build_pi_ok .wamf1
  refine ⟨c, hc, (C68_wamf1_first_order _ _ _ _ c hc).2 ?_⟩
  unfold Close
  have := Real.pi_pos
  simp
  positivity

/-- The primitive `π` pulse is sensitive to amplitude errors: the predicate is not trivial. -/
theorem C57_primitive_is_sensitive (c : DrivenControl ℝ)
    (hc : newPrimitiveControl Real.pi 1 0 none = .ok c) :
    ¬ FirstOrderInsensitive fun e => evolution (withAmplitudeError e c) := by
  obtain ⟨⟨hΩ, -⟩, rfl⟩ := (newPrimitiveControl_spec Real.pi 1 0 none).ok hc
  simp only [evolution_amplitude hΩ.ne']
  intro h
  have h1 := rotation_deriv Real.pi 0 1 0
  have e1 : (fun e => tableEvolution ((primitiveTable Real.pi 0).map
      fun p => ((1 + e) * p.1, p.2))) = fun e => rotation ((1 + e) * Real.pi) 0 := by
    funext e; simp [primitiveTable, tableEvolution]
  rw [e1] at h
  have h2 := (h 0 0).unique (h1 0 0)
  rw [generator, rotation_eq, su2_mul] at h2
  simp [su2, Complex.ext_iff] at h2

end OpenControls
