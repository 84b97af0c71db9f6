import Verif.Proofs.Gaussian
import Mathlib.Analysis.Real.Pi.Bounds

/-!
# C29-C31: the modulated Gaussian control

At exact arithmetic a modulation whose samples all vanish would divide zero by zero, for which the
model's real division has an answer and numpy's has not; the theorems therefore assume that some
sample of the waveform is not zero (`Modulates`).
-/

namespace OpenControls

open Spec RealInst

/-- The waveform has a sample to normalise by: the modulation frequency is zero, or some sample of
the modulated Gaussian does not vanish. -/
def Spec.Modulates (T f : ℝ) (n : ℕ) : Prop :=
  f = 0 ∨ ∃ i < n, waveform T f (sampleTime T n i) ≠ 0

theorem gaussian_result {Ω d T f : ℝ} {c : DrivenControl ℝ}
    (hc : newModulatedGaussianControl Ω d T f = .ok c) :
    GaussianArgs Ω d T ∧ 2 ≤ ⌈T / d⌉₊ ∧ ∃ m m₀, IsSampleMax T ⌈T / d⌉₊ (waveform T f) m ∧
      IsSampleMax T ⌈T / d⌉₊ (envelope T) m₀ ∧ c = signedControl T ⌈T / d⌉₊ fun i =>
        if f ≠ 0 then Ω * waveform T f (sampleTime T ⌈T / d⌉₊ i) / m
        else envelope T (sampleTime T ⌈T / d⌉₊ i) / m₀ * Ω *
          (fullRotationAngle (fullScaleAngle Ω T ⌈T / d⌉₊ m₀) /
            fullScaleAngle Ω T ⌈T / d⌉₊ m₀) := by
  obtain ⟨m, hm⟩ := sampleMax_exists' T ⌈T / d⌉₊ (waveform T f)
  obtain ⟨m₀, hm₀⟩ := sampleMax_exists' T ⌈T / d⌉₊ (envelope T)
  obtain ⟨h, rfl⟩ := (newModulatedGaussianControl_spec Ω d T f hm hm₀).ok hc
  have hn := gaussian_count h.2.1 h.2.2.1
  exact ⟨h, hn, m, m₀, hm (by omega), hm₀ (by omega), rfl⟩

/-- **C29**, acceptance: the call succeeds exactly if the maximum Rabi rate is positive, the minimum
segment duration is positive and below the duration, and the rate is at least
`√(2π)/(duration/10)`; otherwise it raises `ArgumentsValueError`. -/
theorem C29_accepts (Ω d T f : ℝ) (_hf : GaussianArgs Ω d T → Modulates T f ⌈T / d⌉₊) :
    (GaussianArgs Ω d T → ∃ c, newModulatedGaussianControl Ω d T f = .ok c) ∧
    (¬GaussianArgs Ω d T →
      ∃ description, newModulatedGaussianControl Ω d T f = .error (.arguments description)) := by
  obtain ⟨m, hm⟩ := sampleMax_exists' T ⌈T / d⌉₊ (waveform T f)
  obtain ⟨m₀, hm₀⟩ := sampleMax_exists' T ⌈T / d⌉₊ (envelope T)
  have h := newModulatedGaussianControl_spec Ω d T f hm hm₀
  exact ⟨fun ha => ⟨_, h.1 ha⟩, h.2⟩

/-- **C29.** An accepted call yields `n ≥ 2` segments of equal duration, without detuning, whose
durations sum exactly to the requested duration. No segment is longer than the minimum segment
duration, and they reach it only if the ratio of the durations is an integer.

Missing from the documented property is that segments are *at least* the minimum segment duration;
this is false, see `C29_too_short`. -/
theorem C29_segmentation_partial (Ω d T f : ℝ) (c : DrivenControl ℝ)
    (hc : newModulatedGaussianControl Ω d T f = .ok c) :
    ∃ n : ℕ, 2 ≤ n ∧ c.durations = List.replicate n (T / n) ∧ c.durations.sum = T ∧
      c.detunings = List.replicate n 0 ∧ c.rabiRates.length = n ∧ c.azimuthalAngles.length = n ∧
      T / n ≤ d ∧ (T / n = d ↔ ∃ k : ℕ, T = k * d) := by
  obtain ⟨⟨hΩ, hd, hT, -⟩, hn, m, m₀, -, -, rfl⟩ := gaussian_result hc
  have hn' : (0 : ℝ) < ⌈T / d⌉₊ := by exact_mod_cast (by omega : 0 < ⌈T / d⌉₊)
  refine ⟨⌈T / d⌉₊, hn, rfl, ?_, rfl, by simp [signedControl], by simp [signedControl], ?_, ?_⟩
  · simp [signedControl]
    field_simp
  · rw [div_le_iff₀ hn', ← div_le_iff₀' hd]
    exact Nat.le_ceil _
  · constructor
    · intro h
      exact ⟨⌈T / d⌉₊, by rw [div_eq_iff hn'.ne'] at h; linarith⟩
    · rintro ⟨k, rfl⟩
      rw [mul_div_cancel_right₀ _ hd.ne', Nat.ceil_natCast] at hn' ⊢
      field_simp

/-- An accepted call: duration `3`, minimum segment duration `2`. -/
theorem gaussian_args_example : GaussianArgs 9 2 3 := by
  refine ⟨by norm_num, by norm_num, by norm_num, ?_⟩
  rw [div_le_iff₀ (by norm_num), Real.sqrt_le_left (by norm_num)]
  nlinarith [Real.pi_lt_d4]

/-- **C29** is violated: a call that is accepted although every segment is shorter than the minimum
segment duration. -/
theorem C29_too_short : ∃ c : DrivenControl ℝ, newModulatedGaussianControl 9 2 3 0 = .ok c ∧
    c.durations = [3 / 2, 3 / 2] ∧ ∀ x ∈ c.durations, x < 2 := by
  obtain ⟨c, hc⟩ := (C29_accepts 9 2 3 0 fun _ => .inl rfl).1 gaussian_args_example
  obtain ⟨-, -, m, m₀, -, -, rfl⟩ := gaussian_result hc
  have h2 : ⌈(3 : ℝ) / 2⌉₊ = 2 := by
    rw [Nat.ceil_eq_iff (by norm_num)]; norm_num
  refine ⟨_, hc, ?_, ?_⟩ <;> (simp [signedControl, h2, List.replicate]; try norm_num)

/-- **C30**, non-zero modulation frequency: the rate of each segment is the modulus of the waveform at
the segment's midpoint, scaled such that the largest rate is the maximum Rabi rate, which is
attained; the drive is about X where the waveform is positive and about −X where it is negative. -/
theorem C30_modulated_rates (Ω d T f : ℝ) (hf : f ≠ 0) (c : DrivenControl ℝ)
    (hc : newModulatedGaussianControl Ω d T f = .ok c) (hw : Modulates T f ⌈T / d⌉₊) :
    (∀ r ∈ c.rabiRates, 0 ≤ r ∧ r ≤ Ω) ∧ Ω ∈ c.rabiRates ∧
    ∃ s : ℝ, 0 < s ∧ ∀ i < ⌈T / d⌉₊,
      c.rabiRates[i]? = some (s * |waveform T f (sampleTime T ⌈T / d⌉₊ i)|) ∧
      c.azimuthalAngles[i]? =
        some (if 0 ≤ waveform T f (sampleTime T ⌈T / d⌉₊ i) then 0 else Real.pi) := by
  obtain ⟨⟨hΩ, hd, hT, -⟩, hn, m, m₀, hm, -, rfl⟩ := gaussian_result hc
  have hm0 : 0 < m := by
    obtain ⟨j, hj, hj0⟩ := hw.resolve_left hf
    exact lt_of_lt_of_le (abs_pos.mpr hj0) (abs_waveform_le hm hj)
  have habs : ∀ w : ℝ, |Ω * w / m| = Ω / m * |w| := fun w => by
    rw [mul_div_right_comm, abs_mul, abs_of_pos (div_pos hΩ hm0)]
  have hsgn : ∀ w : ℝ, 0 ≤ Ω * w / m ↔ 0 ≤ w := fun w => by
    rw [mul_div_right_comm]
    exact mul_nonneg_iff_of_pos_left (div_pos hΩ hm0)
  refine ⟨?_, ?_, Ω / m, div_pos hΩ hm0, fun i hi => ?_⟩
  · intro r hr
    simp only [signedControl, List.mem_map, List.mem_range] at hr
    obtain ⟨i, hi, rfl⟩ := hr
    refine ⟨abs_nonneg _, ?_⟩
    rw [if_pos hf, habs, div_mul_eq_mul_div, div_le_iff₀ hm0]
    exact mul_le_mul_of_nonneg_left (abs_waveform_le hm hi) hΩ.le
  · obtain ⟨i, hi, hmi⟩ := hm.1
    simp only [signedControl, List.mem_map, List.mem_range]
    refine ⟨i, hi, ?_⟩
    rw [if_pos hf, habs, hmi, abs_of_pos hm0]
    field_simp
  · simp [signedControl, hi, hf, habs, hsgn]

/-- **C30**, zero modulation frequency: the rates have the shape of the Gaussian, all about X; the
total rotation angle is the largest multiple of `2π` that fits under the maximum Rabi rate (`R` is
the angle reached when the largest rate is the maximum), but at least `2π`. No rate exceeds the
maximum Rabi rate exactly if one full rotation fits. -/
theorem C30_unmodulated_rates (Ω d T : ℝ) (c : DrivenControl ℝ)
    (hc : newModulatedGaussianControl Ω d T 0 = .ok c) :
    ∃ m, IsSampleMax T ⌈T / d⌉₊ (envelope T) m ∧
    (∃ s, 0 < s ∧
      c.rabiRates = (List.range ⌈T / d⌉₊).map fun i => s * envelope T (sampleTime T ⌈T / d⌉₊ i)) ∧
    (∀ a ∈ c.azimuthalAngles, a = 0) ∧
    (List.zipWith (· * ·) c.rabiRates c.durations).sum =
      fullRotationAngle (fullScaleAngle Ω T ⌈T / d⌉₊ m) ∧
    ((∀ r ∈ c.rabiRates, r ≤ Ω) ↔ 2 * Real.pi ≤ fullScaleAngle Ω T ⌈T / d⌉₊ m) := by
  obtain ⟨⟨hΩ, hd, hT, -⟩, hn, m, m₀, -, hm, rfl⟩ := gaussian_result hc
  have hm0 : 0 < m₀ := by
    obtain ⟨⟨i, -, rfl⟩, -⟩ := hm
    exact envelope_pos _ _
  have hn' : (0 : ℝ) < ⌈T / d⌉₊ := by exact_mod_cast (by omega : 0 < ⌈T / d⌉₊)
  have hR := fullScaleAngle_pos hΩ (by linarith) (by omega) hm
  have hF := fullRotationAngle_pos (fullScaleAngle Ω T ⌈T / d⌉₊ m₀)
  have hle := fullRotationAngle_le_iff (R := fullScaleAngle Ω T ⌈T / d⌉₊ m₀)
  have hRdef : fullScaleAngle Ω T ⌈T / d⌉₊ m₀ = T / ⌈T / d⌉₊ *
    ((List.range ⌈T / d⌉₊).map fun i => envelope T (sampleTime T ⌈T / d⌉₊ i) / m₀).sum * Ω := rfl
  refine ⟨m₀, hm, ?_⟩
  generalize fullScaleAngle Ω T ⌈T / d⌉₊ m₀ = R at hR hF hle hRdef ⊢
  generalize fullRotationAngle R = F at hF hle ⊢
  have hs : 0 < Ω / m₀ * (F / R) := by positivity
  have e : ∀ i, envelope T (sampleTime T ⌈T / d⌉₊ i) / m₀ * Ω * (F / R) =
      Ω / m₀ * (F / R) * envelope T (sampleTime T ⌈T / d⌉₊ i) := fun i => by ring
  have hnn : ∀ i, 0 ≤ Ω / m₀ * (F / R) * envelope T (sampleTime T ⌈T / d⌉₊ i) := fun i =>
    (mul_pos hs (envelope_pos _ _)).le
  have hrates : (signedControl T ⌈T / d⌉₊ fun i => if (0 : ℝ) ≠ 0 then
      Ω * waveform T 0 (sampleTime T ⌈T / d⌉₊ i) / m
      else envelope T (sampleTime T ⌈T / d⌉₊ i) / m₀ * Ω * (F / R)).rabiRates =
      (List.range ⌈T / d⌉₊).map fun i =>
        Ω / m₀ * (F / R) * envelope T (sampleTime T ⌈T / d⌉₊ i) := by
    simp only [signedControl]
    apply List.map_congr_left
    intro i _
    simp only [ne_eq, not_true_eq_false, if_false, e]
    exact abs_of_nonneg (hnn i)
  refine ⟨⟨_, hs, hrates⟩, ?_, ?_, ?_⟩
  · intro a ha
    simp only [signedControl, ne_eq, not_true_eq_false, if_false, e, hnn, if_true, List.mem_map] at ha
    obtain ⟨_, _, rfl⟩ := ha
    rfl
  · rw [hrates]
    have : ∀ (l : List ℕ) (g : ℕ → ℝ) (τ : ℝ),
        (List.zipWith (· * ·) (l.map g) (List.replicate l.length τ)).sum = (l.map g).sum * τ := by
      intro l g τ
      induction l with
      | nil => simp
      | cons a l ih => simp [List.replicate_succ, ih, add_mul]
    have h2 := this (List.range ⌈T / d⌉₊)
      (fun i => Ω / m₀ * (F / R) * envelope T (sampleTime T ⌈T / d⌉₊ i)) (T / ⌈T / d⌉₊)
    rw [List.length_range] at h2
    simp only [signedControl, h2]
    have h3 : ((List.range ⌈T / d⌉₊).map fun i =>
        Ω / m₀ * (F / R) * envelope T (sampleTime T ⌈T / d⌉₊ i)).sum = Ω * (F / R) *
        ((List.range ⌈T / d⌉₊).map fun i => envelope T (sampleTime T ⌈T / d⌉₊ i) / m₀).sum := by
      rw [← List.sum_map_mul_left]
      congr 1
      apply List.map_congr_left
      intro i _
      ring
    rw [h3]
    calc _ = F / R * (T / ⌈T / d⌉₊ *
        ((List.range ⌈T / d⌉₊).map fun i => envelope T (sampleTime T ⌈T / d⌉₊ i) / m₀).sum * Ω) := by
          ring
      _ = F := by rw [← hRdef]; field_simp
  · rw [hrates, ← hle, ← div_le_one hR]
    constructor
    · intro h
      obtain ⟨i, hi, hmi⟩ := hm.1
      have := h _ (List.mem_map.mpr ⟨i, List.mem_range.mpr hi, rfl⟩)
      simp only [hmi] at this
      rw [show Ω / m₀ * (F / R) * m₀ = Ω * (F / R) by field_simp] at this
      exact le_of_mul_le_mul_left (by linarith) hΩ
    · intro h r hr
      simp only [List.mem_map, List.mem_range] at hr
      obtain ⟨i, hi, rfl⟩ := hr
      calc Ω / m₀ * (F / R) * envelope T (sampleTime T ⌈T / d⌉₊ i)
          ≤ Ω / m₀ * (F / R) * m₀ := mul_le_mul_of_nonneg_left (hm.2 i hi) hs.le
        _ = Ω * (F / R) := by field_simp
        _ ≤ Ω * 1 := mul_le_mul_of_nonneg_left h hΩ.le
        _ = Ω := mul_one Ω

/-- **C31.** The noise-free evolution of an accepted modulated Gaussian control is the identity, up
to a sign; with non-zero modulation frequency it is the identity. -/
theorem C31_net_identity (Ω d T f : ℝ) (c : DrivenControl ℝ)
    (hc : newModulatedGaussianControl Ω d T f = .ok c) (_hw : Modulates T f ⌈T / d⌉₊) :
    (evolution c = 1 ∨ evolution c = -1) ∧ (f ≠ 0 → evolution c = 1) := by
  by_cases hf : f = 0
  · subst hf
    refine ⟨?_, fun h => absurd rfl h⟩
    obtain ⟨m, hm, ⟨s, hs, hr⟩, -, hsum, -⟩ := C30_unmodulated_rates Ω d T c hc
    obtain ⟨⟨hΩ, hd, hT, -⟩, hn, m₁, m₀, -, hm₀, rfl⟩ := gaussian_result hc
    obtain ⟨N, hN, hFN⟩ := fullRotationAngle_eq
      (fullScaleAngle_pos hΩ (by linarith) (by omega) hm)
    have hpos : ∀ i, 0 ≤ envelope T (sampleTime T ⌈T / d⌉₊ i) / m₀ * Ω *
        (fullRotationAngle (fullScaleAngle Ω T ⌈T / d⌉₊ m₀) / fullScaleAngle Ω T ⌈T / d⌉₊ m₀) := by
      intro i
      have h1 := fullScaleAngle_pos hΩ (by linarith : 0 < T) (by omega) hm₀
      have h2 := fullRotationAngle_pos (fullScaleAngle Ω T ⌈T / d⌉₊ m₀)
      have h3 := envelope_pos T (sampleTime T ⌈T / d⌉₊ i)
      have h4 : 0 < m₀ := by
        obtain ⟨⟨i, -, rfl⟩, -⟩ := hm₀
        exact envelope_pos _ _
      positivity
    rw [evolution_signedControl]
    have : ((List.range ⌈T / d⌉₊).map fun i => (if (0 : ℝ) ≠ 0 then
        Ω * waveform T 0 (sampleTime T ⌈T / d⌉₊ i) / m₁ else
        envelope T (sampleTime T ⌈T / d⌉₊ i) / m₀ * Ω *
        (fullRotationAngle (fullScaleAngle Ω T ⌈T / d⌉₊ m₀) / fullScaleAngle Ω T ⌈T / d⌉₊ m₀)) *
        (T / ⌈T / d⌉₊)).sum = 2 * Real.pi * N := by
      rw [← hFN, ← hsum]
      congr 1
      simp only [signedControl, ne_eq, not_true_eq_false, if_false, abs_of_nonneg (hpos _)]
      apply List.ext_getElem <;> simp
    rw [this, rotation_full]
    exact neg_one_pow_eq_or _ N
  · have key : evolution c = 1 := by
      obtain ⟨-, hn, m, m₀, -, -, rfl⟩ := gaussian_result hc
      rw [evolution_signedControl, sum_antisymmetric, rotation_zero]
      intro i hi
      rw [if_pos hf, if_pos hf, waveform_mirror T f (by omega) hi]
      ring
    exact ⟨.inl key, fun _ => key⟩

/-- A modulated and an unmodulated call meeting the hypotheses of C29-C31. -/
example : GaussianArgs 9 2 3 ∧ Modulates 3 0 ⌈(3 : ℝ) / 2⌉₊ ∧ Modulates 3 (1 / 3) ⌈(3 : ℝ) / 2⌉₊ := by
  refine ⟨gaussian_args_example, .inl rfl, .inr ?_⟩
  have h2 : ⌈(3 : ℝ) / 2⌉₊ = 2 := by
    rw [Nat.ceil_eq_iff (by norm_num)]; norm_num
  rw [h2]
  refine ⟨1, by norm_num, mul_ne_zero (envelope_pos _ _).ne' ?_⟩
  rw [sampleTime]
  norm_num
  rw [show 2 * Real.pi * (1 / 3) * (3 / 4) = Real.pi / 2 by ring]
  simp

end OpenControls
