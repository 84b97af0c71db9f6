import Verif.Spec.ConversionError
import Verif.Props.Conversion
import Verif.Proofs.ExpLipschitz

/-!
# C91: how far the converted control is from the pulses
-/

namespace OpenControls

open Spec RealInst
open scoped Matrix.Norms.L2Operator

theorem pulse_dist (ω δ ω' δ' φ : ℝ) : ‖pulseUnitary ω φ δ - pulseUnitary ω' φ δ'‖ ≤
    Real.sqrt ((ω - ω') ^ 2 + (δ - δ') ^ 2) / 2 := by
  have h := field_dist (ω * Real.cos φ) (ω * Real.sin φ) δ 1 (ω' * Real.cos φ) (ω' * Real.sin φ) δ' 1
  have e : (ω * Real.cos φ * 1 - ω' * Real.cos φ * 1) ^ 2 +
      (ω * Real.sin φ * 1 - ω' * Real.sin φ * 1) ^ 2 + (δ * 1 - δ' * 1) ^ 2 =
      (ω - ω') ^ 2 + (δ - δ') ^ 2 := by
    linear_combination (ω - ω') ^ 2 * Real.cos_sq_add_sin_sq φ
  rw [e] at h
  simpa [pulseUnitary, hamiltonian] using h

theorem pulse_norm (ω δ φ : ℝ) : ‖pulseUnitary ω φ δ‖ ≤ 1 := by
  have := field_norm (ω * Real.cos φ) (ω * Real.sin φ) δ 1
  simp only [pulseUnitary, hamiltonian]
  simp at this ⊢
  exact this.le

theorem productOf_norm (ps : List Pulse) : ‖productOf ps‖ ≤ 1 := by
  induction ps with
  | nil => exact norm_one.le
  | cons p ps ih =>
    refine (norm_mul_le _ _).trans ?_
    have := pulse_norm p.rabi p.detuning p.azimuthal
    exact mul_le_one₀ ih (norm_nonneg _) this

theorem productOf_dist (f : Pulse → Pulse) (e : Pulse → ℝ)
    (h : ∀ p, ‖pulseUnitary (f p).rabi (f p).azimuthal (f p).detuning -
      pulseUnitary p.rabi p.azimuthal p.detuning‖ ≤ e p / 2) (ps : List Pulse) :
    ‖productOf (ps.map f) - productOf ps‖ ≤ (ps.map e).sum / 2 := by
  induction ps with
  | nil => simp [productOf]
  | cons p ps ih =>
    have := mul_dist (A := productOf (ps.map f)) (A' := productOf ps)
      (B := pulseUnitary (f p).rabi (f p).azimuthal (f p).detuning)
      (B' := pulseUnitary p.rabi p.azimuthal p.detuning) (pulse_norm _ _ _) (productOf_norm ps)
    rw [List.map_cons, List.map_cons, List.sum_cons]
    refine le_trans this ?_
    linarith [h p]

theorem leftOut_dist (p : Pulse) :
    ‖pulseUnitary (effective p).rabi (effective p).azimuthal (effective p).detuning -
      pulseUnitary p.rabi p.azimuthal p.detuning‖ ≤ leftOut p / 2 := by
  unfold effective leftOut Pulse.angle
  split_ifs
  · have := pulse_dist 0 0 p.rabi p.detuning p.azimuthal
    simpa using this
  · have := pulse_dist 0 p.detuning p.rabi p.detuning p.azimuthal
    simpa [Real.sqrt_sq_eq_abs] using this
  · have := pulse_dist p.rabi 0 p.rabi p.detuning p.azimuthal
    simpa [Real.sqrt_sq_eq_abs] using this

theorem pulses_list {s : Sequence ℝ} (hs : s.Constructed) : pulses s = productOf (pulseList s) := by
  obtain ⟨-, -, hr, ha, hd⟩ := hs.facts
  obtain ⟨h1, h2, h3⟩ := pulseList_columns s hr ha hd
  unfold productOf
  rw [h1, h2, h3]
  rfl

/-- **C91.** The evolution under the converted control of a sequence longer than 1e-8 differs from the product of
the ideal pulses, in the operator norm, by at most half of all the rotation angles that the conversion leaves out.
There is no condition on the pulses. -/
theorem C91_error_bound (s : Sequence ℝ) (hs : s.Constructed) (hT : 1 / 10 ^ 8 < s.duration)
    (R D m : ℝ) (name : Option String) (c : DrivenControl ℝ) (h : convertDDS s R D m name = .ok c) :
    ‖evolution c - pulses s‖ ≤ ((pulseList s).map leftOut).sum / 2 := by
  rw [C49_evolution_exact s hs hT R D m name c h, pulses_list hs]
  exact productOf_dist effective leftOut leftOut_dist _

/-- **C91**, pulses that are rotations of a single kind: at most half of 1e-8 for each pulse. -/
theorem C91_single_kind (s : Sequence ℝ) (hs : s.Constructed) (hT : 1 / 10 ^ 8 < s.duration)
    (hp : ∀ p ∈ pulseList s, p.rabi = 0 ∨ p.detuning = 0) (R D m : ℝ) (name : Option String)
    (c : DrivenControl ℝ) (h : convertDDS s R D m name = .ok c) :
    ‖evolution c - pulses s‖ ≤ s.offsets.length / (2 * 10 ^ 8) := by
  refine (C91_error_bound s hs hT R D m name c h).trans ?_
  have hl : (pulseList s).length = s.offsets.length := by
    obtain ⟨-, -, hr, ha, hd⟩ := hs.facts
    have := congrArg List.length (pulseList_offsets s hr ha hd)
    simpa using this
  have key : ∀ ps : List Pulse, (∀ p ∈ ps, p.rabi = 0 ∨ p.detuning = 0) →
      (ps.map leftOut).sum ≤ ps.length * (1 / 10 ^ 8) := by
    intro ps
    induction ps with
    | nil => simp
    | cons p ps ih =>
      intro hps
      have h1 := ih fun q hq => hps q (List.mem_cons_of_mem _ hq)
      have h2 : leftOut p ≤ 1 / 10 ^ 8 := by
        have hz : Negligible 0 := by simp [Negligible]
        unfold leftOut Pulse.angle
        rcases hps p List.mem_cons_self with h0 | h0 <;> rw [h0]
        · rw [if_neg (not_not.mpr hz)]
          split_ifs with hd
          · rw [zero_pow two_ne_zero, zero_add, Real.sqrt_sq_eq_abs]
            exact hd
          · simp
        · by_cases hr : Negligible p.rabi
          · rw [if_neg (not_not.mpr hr), if_neg (not_not.mpr hz), zero_pow two_ne_zero, add_zero,
              Real.sqrt_sq_eq_abs]
            exact hr
          · rw [if_pos hr]
            simp
      rw [List.map_cons, List.sum_cons, List.length_cons]
      push_cast
      linarith
  have := key _ hp
  rw [hl] at this
  rw [div_le_div_iff₀ (by norm_num) (by norm_num)]
  linarith

/-- **C91**, sequences of at most 1e-8 without overlapping pulses: all pulses are left out. -/
theorem C91_short (s : Sequence ℝ) (hs : s.Constructed) (hT : s.duration ≤ 1 / 10 ^ 8)
    (R D m : ℝ) (hno : NoOverlap R D m s) (name : Option String) (c : DrivenControl ℝ)
    (h : convertDDS s R D m name = .ok c) :
    ‖evolution c - pulses s‖ ≤ ((pulseList s).map Pulse.angle).sum / 2 := by
  rw [(C53_short_is_free s hs hT R D m hno name c h).2, pulses_list hs]
  have h1 := productOf_dist (fun p => { p with rabi := 0, detuning := 0 }) Pulse.angle (fun p => by
    have := pulse_dist 0 0 p.rabi p.detuning p.azimuthal
    simpa [Pulse.angle] using this) (pulseList s)
  have h2 : ∀ ps : List Pulse,
      productOf (ps.map fun p => { p with rabi := 0, detuning := 0 }) = 1 := by
    intro ps
    induction ps with
    | nil => rfl
    | cons p ps ih =>
      show productOf (ps.map _) * pulseUnitary 0 p.azimuthal 0 = 1
      rw [ih, one_mul, pulseUnitary_eq_segmentUnitary, segmentUnitary_resonant, mul_one, rotation_zero]
  rwa [h2] at h1

/-! ### Non-vacuity -/

/-- The sequence of `C49_false`, where a rotation is left out, meets the hypotheses: it is off, within the bound. -/
example : ∃ (s : Sequence ℝ) (c : DrivenControl ℝ), s.Constructed ∧ 1 / 10 ^ 8 < s.duration ∧
    convertDDS s 1 1 0 none = .ok c ∧ evolution c ≠ pulses s ∧
    ‖evolution c - pulses s‖ ≤ s.offsets.length / (2 * 10 ^ 8) := by
  obtain ⟨s, c, hs, hT, hp, hc, h1, h2⟩ := C49_false
  exact ⟨s, c, hs, hT, hc, h2, C91_single_kind s hs hT hp 1 1 0 none c hc⟩

end OpenControls
