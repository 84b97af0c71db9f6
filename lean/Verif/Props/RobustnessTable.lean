import Verif.Props.Robustness
import Verif.Proofs.RobustnessTable
import Verif.Spec.Extended

/-!
# C83: which composite pulse cancels which error, exactly
-/

namespace OpenControls

open Spec RealInst

/-- **C83**, amplitude errors to first order: for every accepted composite pulse, the response
vanishes exactly for the schemes of the table. -/
theorem C83_amplitude_iff (s : Scheme) (θ Ω φ : ℝ) (name : Option String) (c : DrivenControl ℝ)
    (hc : s.call θ Ω φ name = .ok c) :
    FirstOrderInsensitive (fun e => evolution (withAmplitudeError e c)) ↔ s.cancelsAmplitude := by
  cases s
  case primitive =>
    obtain ⟨⟨hΩ, h0⟩, rfl⟩ := (newPrimitiveControl_spec θ Ω φ name).ok hc
    refine iff_of_false ?_ id
    simp only [evolution_amplitude hΩ.ne', primitiveTable, List.map_cons, List.map_nil,
      tableEvolution_cons, tableEvolution_nil, one_mul]
    exact rotation_sensitive h0.ne' φ
  case bb1 =>
    exact iff_of_true (C27_bb1_amplitude θ Ω φ name c hc).first trivial
  case sk1 => exact iff_of_true (C26_sk1_amplitude θ Ω φ name c hc) trivial
  case scrofulous => exact iff_of_true (C58_scrofulous_amplitude θ Ω φ name c hc) trivial
  case corpse =>
    obtain ⟨⟨hΩ, h0⟩, rfl⟩ := (newCorpseControl_spec θ Ω φ name).ok hc
    refine iff_of_false ?_ id
    simp only [evolution_amplitude hΩ.ne', corpse_amplitude]
    exact rotation_sensitive h0.ne' φ
  case corpseInBB1 =>
    exact iff_of_true ((C57_nested_insensitive θ Ω φ name c).2 hc).first trivial
  case corpseInSK1 => exact iff_of_true ((C57_nested_insensitive θ Ω φ name c).1 hc) trivial
  case corpseInScrofulous =>
    exact iff_of_true (C59_corpse_in_scrofulous θ Ω φ name c hc).1 trivial
  case wamf1 =>
    obtain ⟨⟨hΩ, ht⟩, rfl⟩ := (newWamf1Control_spec θ Ω φ name).ok hc
    obtain ⟨ha, hb, -, -⟩ := wamf1Angles_pos θ
    refine iff_of_false ?_ id
    simp only [wamf1_amplitude θ φ hΩ name]
    exact rotation_sensitive (by positivity) φ

/-- **C83**, amplitude errors to second order. -/
theorem C83_amplitude_twice_iff (s : Scheme) (θ Ω φ : ℝ) (name : Option String)
    (c : DrivenControl ℝ) (hc : s.call θ Ω φ name = .ok c) :
    SecondOrderInsensitive (fun e => evolution (withAmplitudeError e c)) ↔
      s.cancelsAmplitudeTwice θ := by
  have hfirst := C83_amplitude_iff s θ Ω φ name c hc
  cases s
  case primitive => exact iff_of_false (fun h => hfirst.1 h.first) id
  case corpse => exact iff_of_false (fun h => hfirst.1 h.first) id
  case wamf1 => exact iff_of_false (fun h => hfirst.1 h.first) id
  case bb1 => exact iff_of_true (C27_bb1_amplitude θ Ω φ name c hc) trivial
  case corpseInBB1 => exact iff_of_true ((C57_nested_insensitive θ Ω φ name c).2 hc) trivial
  case sk1 =>
    obtain ⟨⟨hΩ, h0, h4⟩, rfl⟩ := (newSK1Control_spec θ Ω φ name).ok hc
    simp only [evolution_amplitude hΩ.ne']
    exact sk1_second_iff h0 h4 φ
  case corpseInSK1 =>
    obtain ⟨⟨hΩ, h0, h4⟩, rfl⟩ := (newCorpseInSK1Control_spec θ Ω φ name).ok hc
    simp only [evolution_amplitude hΩ.ne', corpseFirst_amplitude]
    exact sk1_second_iff h0 h4 φ
  case scrofulous =>
    obtain ⟨⟨hΩ, ht⟩, rfl⟩ := (newScrofulousControl_spec θ Ω φ name).ok hc
    simp only [evolution_amplitude hΩ.ne']
    exact iff_of_false (scrofulous_not_second (scrofulousAngle_gt θ) θ φ) id
  case corpseInScrofulous =>
    obtain ⟨⟨hΩ, ht⟩, rfl⟩ := (newCorpseInScrofulousControl_spec θ Ω φ name).ok hc
    simp only [evolution_amplitude hΩ.ne', corpseEach_amplitude]
    exact iff_of_false (scrofulous_not_second (scrofulousAngle_gt θ) θ φ) id

/-- **C83**, detuning errors to first order. -/
theorem C83_detuning_iff (s : Scheme) (θ Ω φ : ℝ) (name : Option String) (c : DrivenControl ℝ)
    (hc : s.call θ Ω φ name = .ok c) :
    FirstOrderInsensitive (fun d => evolution (withDetuningError d c)) ↔ s.cancelsDetuning θ := by
  cases s
  case primitive =>
    obtain ⟨⟨hΩ, h0⟩, rfl⟩ := (newPrimitiveControl_spec θ Ω φ name).ok hc
    exact (firstOrder_iff_of_deriv (primitive_detuning_deriv θ φ hΩ name)).trans (whole_turns hΩ)
  case bb1 =>
    obtain ⟨⟨hΩ, h0⟩, rfl⟩ := (newBB1Control_spec θ Ω φ name).ok hc
    exact (detuning_append_iff hΩ.ne' [(θ, φ)] _ name (detuning_singleton hΩ _ name)
      (bb1_tail_detuning hΩ _ _ name)).trans (whole_turns hΩ)
  case sk1 =>
    obtain ⟨⟨hΩ, h0⟩, rfl⟩ := (newSK1Control_spec θ Ω φ name).ok hc
    exact (detuning_append_iff hΩ.ne' [(θ, φ)] _ name (detuning_singleton hΩ _ name)
      (sk1_tail_detuning hΩ _ _ name)).trans (whole_turns hΩ)
  case corpse => exact iff_of_true (C28_corpse_detuning θ Ω φ name c hc) trivial
  case corpseInBB1 =>
    obtain ⟨⟨hΩ, h0⟩, rfl⟩ := (newCorpseInBB1Control_spec θ Ω φ name).ok hc
    exact iff_of_true ((detuning_append_iff hΩ.ne' (corpseTable θ φ) _ name
      (corpse_first_order hΩ θ φ name) (bb1_tail_detuning hΩ _ _ name)).2 rfl) trivial
  case corpseInSK1 =>
    obtain ⟨⟨hΩ, h0⟩, rfl⟩ := (newCorpseInSK1Control_spec θ Ω φ name).ok hc
    exact iff_of_true ((detuning_append_iff hΩ.ne' (corpseTable θ φ) _ name
      (corpse_first_order hΩ θ φ name) (sk1_tail_detuning hΩ _ _ name)).2 rfl) trivial
  case scrofulous =>
    obtain ⟨⟨hΩ, ht⟩, rfl⟩ := (newScrofulousControl_spec θ Ω φ name).ok hc
    exact iff_of_false (scrofulous_detuning (scrofulousAngle_pos θ) (scrofulousFacts ht).h2 θ φ hΩ
      name) id
  case corpseInScrofulous =>
    exact iff_of_true (C59_corpse_in_scrofulous θ Ω φ name c hc).2 trivial
  case wamf1 => exact C68_wamf1_first_order θ Ω φ name c hc

/-! ### Non-vacuity: every scheme accepts a half turn, and both sides of each table occur -/

theorem call_pi_ok (s : Scheme) : ∃ c, s.call Real.pi 2 1 none = .ok c := by
  obtain ⟨c, hc⟩ := build_pi_ok s
  exact ⟨c, by cases s <;> exact hc⟩

/-- exactly four of the nine half turns cancel detuning errors because of CORPSE, and WAMF1 is the
fifth -/
example (s : Scheme) : ∃ c, s.call Real.pi 2 1 none = .ok c ∧
    (FirstOrderInsensitive (fun d => evolution (withDetuningError d c)) ↔
      s ∈ [Scheme.corpse, .corpseInBB1, .corpseInSK1, .corpseInScrofulous, .wamf1]) := by
  obtain ⟨c, hc⟩ := call_pi_ok s
  refine ⟨c, hc, (C83_detuning_iff s _ _ _ _ c hc).trans ?_⟩
  have hn : ¬ ∃ n : ℤ, Real.pi = n * (2 * Real.pi) := by
    rintro ⟨n, hn⟩
    have hp := Real.pi_pos
    have h1 : (1 : ℝ) = ((n * 2 : ℤ) : ℝ) := by
      push_cast
      have : Real.pi * 1 = Real.pi * (n * 2) := by linarith
      exact mul_left_cancel₀ hp.ne' this
    have h2 : (1 : ℤ) = n * 2 := by exact_mod_cast h1
    omega
  have hcl : Close Real.pi Real.pi := close_self _
  cases s <;> simp [Scheme.cancelsDetuning, hn, hcl]

/-- SK1 for two full turns cancels second order, for a half turn it does not -/
example : (∃ c, Scheme.sk1.call (4 * Real.pi) 2 1 none = .ok c ∧
      SecondOrderInsensitive fun e => evolution (withAmplitudeError e c)) ∧
    ∃ c, Scheme.sk1.call Real.pi 2 1 none = .ok c ∧
      ¬ SecondOrderInsensitive fun e => evolution (withAmplitudeError e c) := by
  have hp := Real.pi_pos
  constructor
  · obtain ⟨c, hc⟩ := ((newSK1Control_spec (4 * Real.pi) 2 1 none).iff).2
      ⟨by norm_num, by positivity, le_refl _⟩
    exact ⟨c, hc, (C83_amplitude_twice_iff .sk1 _ _ _ _ c hc).2 rfl⟩
  · obtain ⟨c, hc⟩ := call_pi_ok .sk1
    refine ⟨c, hc, fun h => ?_⟩
    have := (C83_amplitude_twice_iff .sk1 _ _ _ _ c hc).1 h
    simp only [Scheme.cancelsAmplitudeTwice] at this
    linarith

end OpenControls
