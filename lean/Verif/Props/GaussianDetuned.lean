import Verif.Proofs.GaussianDetuned
import Verif.Props.Gaussian

/-!
# C145: the modulated Gaussian control with errors of Rabi rates and detunings

A modulation makes the rates change their sign about the middle of the control. With errors of the Rabi rates alone it then
undoes itself (C88); with errors of the detunings too it never rotates about the axis it drives along.
-/

namespace OpenControls

open Spec RealInst

/-- **C145** With a modulation, and errors of Rabi rates and detunings that are symmetric about the middle of the control,
the axis of the rotation is in the YZ plane, although the control drives along X only. -/
theorem C145_modulated (Ω d T f : ℝ) (c : DrivenControl ℝ) (hc : newModulatedGaussianControl Ω d T f = .ok c)
    (_hw : Modulates T f ⌈T / d⌉₊) (hf : f ≠ 0) (a e : ℕ → ℝ) (ha : SymmetricErrors c.durations.length a)
    (he : SymmetricErrors c.durations.length e) :
    ∃ ω δ, evolution (withSegmentErrors a e c) = pulseUnitary ω (Real.pi / 2) δ := by
  obtain ⟨-, hn, m, m₀, -, -, rfl⟩ := gaussian_result hc
  simp only [signedControl, List.length_replicate] at ha he
  have h2 : 2 * (Real.pi / 2) = Real.pi := by ring
  refine signed_errors_plane (s := -1) (by rw [h2, Real.cos_pi]) (by rw [h2, Real.sin_pi]) (by norm_num) (fun i hi => ?_)
    ha he
  rw [if_pos hf, if_pos hf, waveform_mirror T f (by omega) hi]
  ring

/-- **C145** Without a modulation the axis of the rotation is in the XZ plane. -/
theorem C145_unmodulated (Ω d T : ℝ) (c : DrivenControl ℝ) (hc : newModulatedGaussianControl Ω d T 0 = .ok c)
    (a e : ℕ → ℝ) (ha : SymmetricErrors c.durations.length a) (he : SymmetricErrors c.durations.length e) :
    ∃ ω δ, evolution (withSegmentErrors a e c) = pulseUnitary ω 0 δ := by
  obtain ⟨-, hn, m, m₀, -, -, rfl⟩ := gaussian_result hc
  simp only [signedControl, List.length_replicate] at ha he
  refine signed_errors_plane (s := 1) (by simp) (by simp) (by norm_num) (fun i hi => ?_) ha he
  rw [if_neg (by simp), if_neg (by simp), envelope_mirror T (by omega) hi]
  ring

/-- **C145** in terms of the matrix: with a modulation and symmetric errors the part of the evolution along X, which is
`⟨0|U|1⟩ + ⟨1|U|0⟩` up to a factor, is zero. -/
theorem C145_no_turn_about_X (Ω d T f : ℝ) (c : DrivenControl ℝ) (hc : newModulatedGaussianControl Ω d T f = .ok c)
    (hw : Modulates T f ⌈T / d⌉₊) (hf : f ≠ 0) (a e : ℕ → ℝ) (ha : SymmetricErrors c.durations.length a)
    (he : SymmetricErrors c.durations.length e) :
    evolution (withSegmentErrors a e c) 0 1 + evolution (withSegmentErrors a e c) 1 0 = 0 := by
  obtain ⟨ω, δ, h⟩ := C145_modulated Ω d T f c hc hw hf a e ha he
  rw [h, pulseUnitary_eq_segmentUnitary]
  obtain ⟨w, x, y, -, hq⟩ := segment_quaternion ω (Real.pi / 2) δ 1
  rw [hq]
  simp [su2]
  apply Complex.ext <;> simp

/-- Three segments of a constant error, and errors in the middle only, are symmetric; the control exists and its waveform does
not vanish. -/
example : (∃ c, newModulatedGaussianControl (9 : ℝ) 2 3 (1 / 3) = .ok c ∧
    SymmetricErrors c.durations.length fun _ => (1 / 10 : ℝ)) ∧
    Modulates 3 (1 / 3) ⌈(3 : ℝ) / 2⌉₊ ∧ SymmetricErrors 3 fun i => if i = 1 then (1 / 10 : ℝ) else 0 := by
  have hm : Modulates 3 (1 / 3) ⌈(3 : ℝ) / 2⌉₊ := by
    have h2 : ⌈(3 : ℝ) / 2⌉₊ = 2 := by
      rw [Nat.ceil_eq_iff (by norm_num)]; norm_num
    rw [h2]
    refine .inr ⟨1, by norm_num, mul_ne_zero (envelope_pos _ _).ne' ?_⟩
    rw [sampleTime]
    norm_num
    rw [show 2 * Real.pi * (1 / 3) * (3 / 4) = Real.pi / 2 by ring]
    simp
  refine ⟨?_, hm, ?_⟩
  · obtain ⟨c, hc⟩ := (C29_accepts 9 2 3 (1 / 3) fun _ => hm).1 gaussian_args_example
    exact ⟨c, hc, fun _ _ => rfl⟩
  · intro i hi
    interval_cases i <;> simp

end OpenControls
