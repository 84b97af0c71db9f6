import Verif.Proofs.GaussianAlias

/-!
# C147: modulation frequencies that give the same modulated Gaussian control

The modulation is sampled once per segment, at the sampling rate `n/T` of `n` segments in the duration `T`.
-/

namespace OpenControls

open Spec RealInst

/-- **C147** The opposite modulation frequency gives the control run backwards. -/
theorem C147_sign (Ω d T f : ℝ) (c : DrivenControl ℝ) (hc : newModulatedGaussianControl Ω d T f = .ok c)
    (_hw : Modulates T f ⌈T / d⌉₊) : newModulatedGaussianControl Ω d T (-f) = .ok (reversed c) := by
  by_cases hf : f = 0
  · subst hf
    rw [neg_zero, hc]
    obtain ⟨-, hn, m, m₀, -, -, rfl⟩ := gaussian_result hc
    congr 1
    refine signed_reversed fun i hi => ?_
    rw [if_neg (by simp), if_neg (by simp), envelope_mirror T (by omega) hi]
  · refine gaussian_opposite hc hf (neg_ne_zero.mpr hf) fun i _ => ?_
    unfold waveform
    rw [show 2 * Real.pi * -f * (sampleTime T ⌈T / d⌉₊ i - T / 2) = -(2 * Real.pi * f * (sampleTime T ⌈T / d⌉₊ i - T / 2)) by
      ring, Real.sin_neg, mul_neg]

/-- **C147** Modulation frequencies that differ by a multiple of the sampling rate cannot be told apart: the controls are the
same, or, if the multiple is odd and the number of segments even, the same run backwards. (The frequency 0 is no modulation.) -/
theorem C147_alias (Ω d T f : ℝ) (c : DrivenControl ℝ) (hc : newModulatedGaussianControl Ω d T f = .ok c)
    (_hw : Modulates T f ⌈T / d⌉₊) (k : ℤ) (hf : f ≠ 0) (hg : f + k * (c.durations.length / T) ≠ 0) :
    (Even k ∨ Odd c.durations.length → newModulatedGaussianControl Ω d T (f + k * (c.durations.length / T)) = .ok c) ∧
    (Odd k → Even c.durations.length →
      newModulatedGaussianControl Ω d T (f + k * (c.durations.length / T)) = .ok (reversed c)) := by
  obtain ⟨⟨hΩ, hd, hT, -⟩, hn, m, m₀, -, -, e⟩ := gaussian_result hc
  have hl : c.durations.length = ⌈T / d⌉₊ := by rw [e]; simp [signedControl]
  rw [hl] at hg ⊢
  have hT' : T ≠ 0 := by linarith
  constructor
  · intro h
    refine gaussian_same hc hf hg fun i _ => ?_
    rw [waveform_shift hT' (by omega)]
    have he : Even (k * (2 * (i : ℤ) + 1 - (⌈T / d⌉₊ : ℤ))) := by
      rcases h with h | h
      · exact h.mul_right _
      · refine Even.mul_left ?_ _
        obtain ⟨j, hj⟩ := h
        rw [hj]
        exact ⟨i - j, by push_cast; ring⟩
    rw [he.neg_one_zpow, one_mul]
  · intro h1 h2
    refine gaussian_opposite hc hf hg fun i _ => ?_
    rw [waveform_shift hT' (by omega)]
    have ho : Odd (k * (2 * (i : ℤ) + 1 - (⌈T / d⌉₊ : ℤ))) := by
      refine h1.mul ?_
      obtain ⟨j, hj⟩ := h2
      rw [hj]
      exact ⟨i - j, by push_cast; ring⟩
    rw [ho.neg_one_zpow, neg_one_mul]

/-- **C147** Every control with a modulation is one with a modulation frequency up to half the sampling rate, or one run
backwards. -/
theorem C147_nyquist (Ω d T f : ℝ) (c : DrivenControl ℝ) (hc : newModulatedGaussianControl Ω d T f = .ok c)
    (hw : Modulates T f ⌈T / d⌉₊) (hf : f ≠ 0) :
    ∃ g, 0 < g ∧ g ≤ c.durations.length / T / 2 ∧
      (newModulatedGaussianControl Ω d T g = .ok c ∨ newModulatedGaussianControl Ω d T g = .ok (reversed c)) := by
  obtain ⟨⟨hΩ, hd, hT, -⟩, hn, m, m₀, -, -, e⟩ := gaussian_result hc
  have hl : c.durations.length = ⌈T / d⌉₊ := by rw [e]; simp [signedControl]
  have hT0 : 0 < T := by linarith
  have hrate : 0 < (c.durations.length : ℝ) / T := by
    rw [hl]
    have : (0 : ℝ) < ⌈T / d⌉₊ := by exact_mod_cast (by omega : 0 < ⌈T / d⌉₊)
    positivity
  set r := (c.durations.length : ℝ) / T with hr
  set k := round (f / r) with hk
  have hdist : |f + (-k : ℤ) * r| ≤ r / 2 := by
    have h := abs_sub_round (f / r)
    rw [← hk] at h
    have : f + ((-k : ℤ) : ℝ) * r = (f / r - k) * r := by
      push_cast
      field_simp
      ring
    rw [this, abs_mul, abs_of_pos hrate]
    nlinarith
  have h0 : f + (-k : ℤ) * r ≠ 0 := by
    intro h0
    rcases hw with h | ⟨i, hi, h⟩
    · exact hf h
    · apply h
      have hs := waveform_shift (f := 0) hT0.ne' (by omega : 0 < ⌈T / d⌉₊) k i
      have hfk : f = 0 + k * ((⌈T / d⌉₊ : ℝ) / T) := by
        rw [← hl, ← hr]
        push_cast at h0
        linarith
      rw [← hfk] at hs
      rw [hs]
      simp [waveform]
  have ha := C147_alias Ω d T f c hc hw (-k) hf (by rw [← hr]; exact h0)
  rw [← hr] at ha
  have hcases : newModulatedGaussianControl Ω d T (f + (-k : ℤ) * r) = .ok c ∨
      newModulatedGaussianControl Ω d T (f + (-k : ℤ) * r) = .ok (reversed c) := by
    by_cases h1 : Even (-k) ∨ Odd c.durations.length
    · exact .inl (ha.1 h1)
    · rw [not_or, Int.not_even_iff_odd, Nat.not_odd_iff_even] at h1
      exact .inr (ha.2 h1.1 h1.2)
  have hinv : reversed (reversed c) = c := by
    cases c
    simp [reversed]
  rcases lt_or_gt_of_ne h0 with hneg | hpos
  · refine ⟨-(f + (-k : ℤ) * r), by linarith, (neg_le_abs _).trans hdist, ?_⟩
    have hmod : ∀ c', newModulatedGaussianControl Ω d T (f + (-k : ℤ) * r) = .ok c' →
        newModulatedGaussianControl Ω d T (-(f + (-k : ℤ) * r)) = .ok (reversed c') := fun c' h =>
      C147_sign Ω d T _ c' h (by
        rcases hw with h | ⟨i, hi, h⟩
        · exact absurd h hf
        · refine .inr ⟨i, hi, ?_⟩
          rw [hr, hl, waveform_shift hT0.ne' (by omega : 0 < ⌈T / d⌉₊)]
          exact mul_ne_zero (zpow_ne_zero _ (by norm_num)) h)
    rcases hcases with h | h
    · exact .inr (hmod c h)
    · exact .inl (by rw [hmod _ h, hinv])
  · exact ⟨_, hpos, (le_abs_self _).trans hdist, hcases⟩

/-- **C147** The modulation with a frequency that is a multiple of the sampling rate is zero at all samples: there is nothing to normalise by (the code divides zero by zero). -/
theorem C147_nothing (T : ℝ) (hT : T ≠ 0) (n : ℕ) (hn : 0 < n) (k : ℤ) (hk : k ≠ 0) : ¬ Modulates T (k * (n / T)) n := by
  rintro (h | ⟨i, -, h⟩)
  · have hn' : (n : ℝ) ≠ 0 := by exact_mod_cast hn.ne'
    have hk' : (k : ℝ) ≠ 0 := by exact_mod_cast hk
    exact mul_ne_zero hk' (div_ne_zero hn' hT) h
  · have hs := waveform_shift (f := 0) hT hn k i
    rw [zero_add] at hs
    rw [hs] at h
    simp [waveform] at h

/-- A control of two segments with the frequency 1/3; the sampling rate is 2/3, and the frequencies 1 and -1/3 give the control
run backwards. -/
example : ∃ c, newModulatedGaussianControl (9 : ℝ) 2 3 (1 / 3) = .ok c ∧
    newModulatedGaussianControl (9 : ℝ) 2 3 1 = .ok (reversed c) ∧
    newModulatedGaussianControl (9 : ℝ) 2 3 (-(1 / 3)) = .ok (reversed c) := by
  have h2 : ⌈(3 : ℝ) / 2⌉₊ = 2 := by
    rw [Nat.ceil_eq_iff (by norm_num)]; norm_num
  have hm : Modulates 3 (1 / 3) ⌈(3 : ℝ) / 2⌉₊ := by
    rw [h2]
    refine .inr ⟨1, by norm_num, mul_ne_zero (envelope_pos _ _).ne' ?_⟩
    rw [sampleTime]
    norm_num
    rw [show 2 * Real.pi * (1 / 3) * (3 / 4) = Real.pi / 2 by ring]
    simp
  obtain ⟨c, hc⟩ := (C29_accepts 9 2 3 (1 / 3) fun _ => hm).1 gaussian_args_example
  have hl : c.durations.length = 2 := by
    obtain ⟨-, -, m, m₀, -, -, e⟩ := gaussian_result hc
    rw [e]
    simp [signedControl, h2]
  refine ⟨c, hc, ?_, C147_sign 9 2 3 (1 / 3) c hc hm⟩
  have := (C147_alias 9 2 3 (1 / 3) c hc hm 1 (by norm_num) (by rw [hl]; norm_num)).2 (by decide) (by rw [hl]; decide)
  rw [hl] at this
  norm_num at this
  exact this

end OpenControls
