import Verif.Spec.GaussianErrors
import Verif.Props.Gaussian
import Verif.Proofs.RobustnessTable

/-!
# C88: modulated Gaussian controls and amplitude noise
-/

namespace OpenControls

open Spec RealInst

theorem withAmplitudeNoise_signed (e : ℕ → ℝ) (T : ℝ) (n : ℕ) (v : ℕ → ℝ) :
    evolution (withAmplitudeNoise e (signedControl T n v)) =
      rotation (((List.range n).map fun i => (1 + e i) * v i * (T / n)).sum) 0 := by
  unfold evolution withAmplitudeNoise signedControl
  simp only
  have hm : ((List.range n).map fun i => |v i|).mapIdx (fun i r => (1 + e i) * r) =
      (List.range n).map fun i => (1 + e i) * |v i| := by
    apply List.ext_getElem <;> simp
  rw [hm]
  have key : ∀ (l : List ℕ) (τ : ℝ), controlEvolution (l.map fun i => (1 + e i) * |v i|)
      (l.map fun i => if 0 ≤ v i then 0 else Real.pi) (List.replicate l.length 0)
      (List.replicate l.length τ) = rotation ((l.map fun i => (1 + e i) * v i * τ).sum) 0 := by
    intro l τ
    induction l with
    | nil => simp [controlEvolution, rotation_zero]
    | cons a l ih =>
      simp only [List.map_cons, List.length_cons, List.replicate_succ, controlEvolution_cons, ih,
        List.sum_cons, segmentUnitary_resonant]
      have : rotation ((1 + e a) * |v a| * τ) (if 0 ≤ v a then 0 else Real.pi) =
          rotation ((1 + e a) * v a * τ) 0 := by
        split
        · rw [abs_of_nonneg ‹_›]
        · rw [abs_of_neg (not_le.mp ‹_›)]
          have := rotation_axis_add_pi ((1 + e a) * -v a * τ) 0
          rw [zero_add] at this
          rw [this]; congr 1; ring
      rw [this, rotation_mul_same, add_comm]
  have := key (List.range n) (T / n)
  simpa using this

theorem withAmplitudeError_eq (e : ℝ) (c : DrivenControl ℝ) :
    withAmplitudeError e c = withAmplitudeNoise (fun _ => e) c := by
  unfold withAmplitudeError withAmplitudeNoise
  congr 1
  apply List.ext_getElem <;> simp

theorem signed_noise_angle (e : ℕ → ℝ) (T : ℝ) (n : ℕ) (v : ℕ → ℝ) :
    evolution (withAmplitudeNoise e (signedControl T n v)) =
      rotation (∑ i ∈ Finset.range (signedControl T n v).durations.length, (1 + e i) *
        ((signedControl T n v).rabiRates.getD i 0 *
          Real.cos ((signedControl T n v).azimuthalAngles.getD i 0) *
          (signedControl T n v).durations.getD i 0)) 0 := by
  rw [withAmplitudeNoise_signed]
  congr 1
  change ∑ i ∈ Finset.range _, _ = _
  simp only [signedControl, List.length_replicate]
  refine Finset.sum_congr rfl fun i hi => ?_
  have hi := Finset.mem_range.mp hi
  simp only [List.getD_eq_getElem?_getD, List.getElem?_map, List.getElem?_range hi, Option.map_some,
    Option.getD_some, List.getElem?_replicate, hi, if_true]
  by_cases hv : 0 ≤ v i
  · rw [if_pos hv, abs_of_nonneg hv, Real.cos_zero]; ring
  · rw [if_neg hv, abs_of_neg (not_le.mp hv), Real.cos_pi]; ring

/-- **C88.** With amplitude noise, that is, a relative error `e i` of the Rabi rate of each segment, the evolution of
a Gaussian control is exactly the rotation about X by the sum of the noisy angles, an angle counting as negative if
the drive points along -X. -/
theorem C88_noise (Ω d T f : ℝ) (c : DrivenControl ℝ)
    (hc : newModulatedGaussianControl Ω d T f = .ok c) (_hw : Modulates T f ⌈T / d⌉₊) (e : ℕ → ℝ) :
    evolution (withAmplitudeNoise e c) =
      rotation (∑ i ∈ Finset.range c.durations.length, (1 + e i) *
        (c.rabiRates.getD i 0 * Real.cos (c.azimuthalAngles.getD i 0) * c.durations.getD i 0)) 0 := by
  obtain ⟨-, hn, m, m₀, -, -, rfl⟩ := gaussian_result hc
  exact signed_noise_angle e T _ _

/-- **C88.** A modulated Gaussian control undoes itself in spite of any amplitude noise that is symmetric about the
middle of the control, whatever its size. -/
theorem C88_symmetric_noise (Ω d T f : ℝ) (c : DrivenControl ℝ)
    (hc : newModulatedGaussianControl Ω d T f = .ok c) (_hw : Modulates T f ⌈T / d⌉₊) (hf : f ≠ 0)
    (e : ℕ → ℝ) (he : ∀ i < c.durations.length, e (c.durations.length - 1 - i) = e i) :
    evolution (withAmplitudeNoise e c) = 1 := by
  obtain ⟨-, hn, m, m₀, -, -, rfl⟩ := gaussian_result hc
  rw [withAmplitudeNoise_signed, sum_antisymmetric, rotation_zero]
  intro i hi
  have he' := he i (by simpa [signedControl] using hi)
  simp only [signedControl, List.length_replicate] at he'
  rw [if_pos hf, if_pos hf, waveform_mirror T f (by omega) hi, he']
  ring

/-- **C88.** With the same relative error `e` of all Rabi rates a modulated control still does nothing, while an
unmodulated one rotates by `1 + e` times its full turns. -/
theorem C88_amplitude_error (Ω d T f : ℝ) (c : DrivenControl ℝ)
    (hc : newModulatedGaussianControl Ω d T f = .ok c) (hw : Modulates T f ⌈T / d⌉₊) :
    (f ≠ 0 → ∀ e, evolution (withAmplitudeError e c) = 1) ∧
    (f = 0 → ∃ N : ℕ, 1 ≤ N ∧
      ∀ e, evolution (withAmplitudeError e c) = rotation ((1 + e) * (2 * Real.pi * N)) 0) := by
  constructor
  · intro hf e
    rw [withAmplitudeError_eq]
    exact C88_symmetric_noise Ω d T f c hc hw hf _ fun _ _ => rfl
  · rintro rfl
    obtain ⟨m, hm, ⟨s, hs, hr⟩, -, hsum, -⟩ := C30_unmodulated_rates Ω d T c hc
    obtain ⟨⟨hΩ, hd, hT, -⟩, hn, m₁, m₀, -, hm₀, rfl⟩ := gaussian_result hc
    obtain ⟨N, hN, hFN⟩ := fullRotationAngle_eq
      (fullScaleAngle_pos hΩ (by linarith) (by omega) hm)
    have hpos : ∀ i, 0 ≤ envelope T (sampleTime T ⌈T / d⌉₊ i) / m₀ * Ω *
        (fullRotationAngle (fullScaleAngle Ω T ⌈T / d⌉₊ m₀) / fullScaleAngle Ω T ⌈T / d⌉₊ m₀) := by
      intro i
      have h1 := fullScaleAngle_pos hΩ (by linarith : 0 < T) (by omega) hm₀
      have h2 := fullRotationAngle_pos (fullScaleAngle Ω T ⌈T / d⌉₊ m₀)
      have h3 := envelope_pos T (sampleTime T ⌈T / d⌉₊ i)
      have h4 : 0 < m₀ := by
        obtain ⟨⟨i, -, rfl⟩, -⟩ := hm₀
        exact envelope_pos _ _
      positivity
    refine ⟨N, hN, fun e => ?_⟩
    rw [withAmplitudeError_eq, withAmplitudeNoise_signed]
    congr 1
    have : ((List.range ⌈T / d⌉₊).map fun i => (if (0 : ℝ) ≠ 0 then
        Ω * waveform T 0 (sampleTime T ⌈T / d⌉₊ i) / m₁ else
        envelope T (sampleTime T ⌈T / d⌉₊ i) / m₀ * Ω *
        (fullRotationAngle (fullScaleAngle Ω T ⌈T / d⌉₊ m₀) / fullScaleAngle Ω T ⌈T / d⌉₊ m₀)) *
        (T / ⌈T / d⌉₊)).sum = 2 * Real.pi * N := by
      rw [← hFN, ← hsum]
      congr 1
      simp only [signedControl, ne_eq, not_true_eq_false, if_false, abs_of_nonneg (hpos _)]
      apply List.ext_getElem <;> simp
    rw [← this, ← List.sum_map_mul_left]
    congr 1
    exact List.map_congr_left fun i _ => by ring

/-- **C88.** So a Gaussian control is insensitive to a small amplitude error exactly if it is modulated. -/
theorem C88_insensitive_iff (Ω d T f : ℝ) (c : DrivenControl ℝ)
    (hc : newModulatedGaussianControl Ω d T f = .ok c) (hw : Modulates T f ⌈T / d⌉₊) :
    FirstOrderInsensitive (fun e => evolution (withAmplitudeError e c)) ↔ f ≠ 0 := by
  obtain ⟨h1, h2⟩ := C88_amplitude_error Ω d T f c hc hw
  constructor
  · intro h hf
    obtain ⟨N, hN, hU⟩ := h2 hf
    simp only [hU] at h
    have h0 := (rotation_deriv (2 * Real.pi * N) 0 1 0).unique h
    have hN0 : 2 * Real.pi * (N : ℝ) ≠ 0 := by positivity
    simp only [add_zero, one_mul, generator, rotation_eq] at h0
    rw [su2_mul, ← su2_zero, su2_inj] at h0
    have hq := Real.cos_sq_add_sin_sq (2 * Real.pi * N / 2)
    obtain ⟨a, b, -, -⟩ := h0
    simp only [Real.cos_zero, Real.sin_zero] at a b
    have ha : Real.sin (2 * Real.pi * N / 2) = 0 := by
      by_contra hne
      exact hN0 ((mul_eq_zero.mp (by linear_combination -2 * a :
        2 * Real.pi * (N : ℝ) * Real.sin (2 * Real.pi * N / 2) = 0)).resolve_right hne)
    have hb : Real.cos (2 * Real.pi * N / 2) = 0 := by
      by_contra hne
      exact hN0 ((mul_eq_zero.mp (by linear_combination 2 * b :
        2 * Real.pi * (N : ℝ) * Real.cos (2 * Real.pi * N / 2) = 0)).resolve_right hne)
    rw [ha, hb] at hq
    norm_num at hq
  · intro hf i j
    simp only [h1 hf]
    exact hasDerivAt_const _ _

/-- The calls of the example of C29-C31 meet the hypotheses; noise that grows towards the middle is symmetric. -/
example : GaussianArgs 9 2 3 ∧ Modulates 3 0 ⌈(3 : ℝ) / 2⌉₊ ∧ Modulates 3 (1 / 3) ⌈(3 : ℝ) / 2⌉₊ ∧
    ∀ i < 3, (fun i : ℕ => if i = 1 then (1 / 10 : ℝ) else 0) (3 - 1 - i) =
      (fun i : ℕ => if i = 1 then (1 / 10 : ℝ) else 0) i := by
  refine ⟨gaussian_args_example, .inl rfl, .inr ?_, ?_⟩
  · have h2 : ⌈(3 : ℝ) / 2⌉₊ = 2 := by
      rw [Nat.ceil_eq_iff (by norm_num)]; norm_num
    rw [h2]
    refine ⟨1, by norm_num, mul_ne_zero (envelope_pos _ _).ne' ?_⟩
    rw [sampleTime]
    norm_num
    rw [show 2 * Real.pi * (1 / 3) * (3 / 4) = Real.pi / 2 by ring]
    simp
  · intro i hi
    interval_cases i <;> simp

end OpenControls
