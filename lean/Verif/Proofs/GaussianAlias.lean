import Verif.Props.Gaussian
import Verif.Spec.Reversal

/-!
# Modulated Gaussian controls for related modulation frequencies: auxiliary results
-/

namespace OpenControls

open Spec RealInst

theorem sampleMax_congr {T m : ℝ} {n : ℕ} {w w' : ℝ → ℝ} (h : ∀ i < n, w' (sampleTime T n i) = w (sampleTime T n i))
    (hm : IsSampleMax T n w m) : IsSampleMax T n w' m := by
  obtain ⟨⟨i, hi, e⟩, hle⟩ := hm
  exact ⟨⟨i, hi, by rw [h i hi, e]⟩, fun j hj => by rw [h j hj]; exact hle j hj⟩

/-- the largest sample is the same for the opposite waveform -/
theorem sampleMax_opposite {T f g m : ℝ} {n : ℕ}
    (h : ∀ i < n, waveform T g (sampleTime T n i) = -waveform T f (sampleTime T n i))
    (hm : IsSampleMax T n (waveform T f) m) : IsSampleMax T n (waveform T g) m := by
  obtain ⟨⟨i, hi, e⟩, hle⟩ := hm
  refine ⟨⟨n - 1 - i, by omega, ?_⟩, fun j hj => ?_⟩
  · rw [h _ (by omega), waveform_mirror T f (by omega) hi, neg_neg, e]
  · rw [h j hj, ← waveform_mirror T f (by omega) hj]
    exact hle _ (by omega)

theorem signed_congr {T : ℝ} {n : ℕ} {v w : ℕ → ℝ} (h : ∀ i < n, v i = w i) : signedControl T n v = signedControl T n w := by
  simp only [signedControl, DrivenControl.mk.injEq, and_true]
  constructor <;> refine List.map_congr_left fun i hi => ?_ <;> rw [h i (List.mem_range.mp hi)]

theorem signed_reversed {T : ℝ} {n : ℕ} {v w : ℕ → ℝ} (h : ∀ i < n, v i = w (n - 1 - i)) :
    signedControl T n v = reversed (signedControl T n w) := by
  simp only [signedControl, reversed, DrivenControl.mk.injEq, and_true, List.reverse_replicate]
  constructor <;>
  · refine List.ext_getElem (by simp) fun i hi hi' => ?_
    have hi'' : i < n := by simpa using hi
    rw [List.getElem_reverse]
    simp only [List.getElem_map, List.getElem_range, List.length_map, List.length_range]
    rw [h i hi'']

/-- two frequencies with the same waveform -/
theorem gaussian_same {Ω d T f g : ℝ} {c : DrivenControl ℝ} (hc : newModulatedGaussianControl Ω d T f = .ok c)
    (hf : f ≠ 0) (hg : g ≠ 0)
    (h : ∀ i < ⌈T / d⌉₊, waveform T g (sampleTime T ⌈T / d⌉₊ i) = waveform T f (sampleTime T ⌈T / d⌉₊ i)) :
    newModulatedGaussianControl Ω d T g = .ok c := by
  obtain ⟨ha, hn, m, m₀, hm, hm₀, rfl⟩ := gaussian_result hc
  rw [(newModulatedGaussianControl_spec Ω d T g (fun _ => sampleMax_congr h hm) fun _ => hm₀).1 ha]
  congr 1
  refine signed_congr fun i hi => ?_
  rw [if_pos hg, if_pos hf, h i hi]

/-- two frequencies with opposite waveforms -/
theorem gaussian_opposite {Ω d T f g : ℝ} {c : DrivenControl ℝ} (hc : newModulatedGaussianControl Ω d T f = .ok c)
    (hf : f ≠ 0) (hg : g ≠ 0)
    (h : ∀ i < ⌈T / d⌉₊, waveform T g (sampleTime T ⌈T / d⌉₊ i) = -waveform T f (sampleTime T ⌈T / d⌉₊ i)) :
    newModulatedGaussianControl Ω d T g = .ok (reversed c) := by
  obtain ⟨ha, hn, m, m₀, hm, hm₀, rfl⟩ := gaussian_result hc
  rw [(newModulatedGaussianControl_spec Ω d T g (fun _ => sampleMax_opposite h hm) fun _ => hm₀).1 ha]
  congr 1
  refine signed_reversed fun i hi => ?_
  rw [if_pos hg, if_pos hf, h i hi, waveform_mirror T f (by omega) hi]

/-- the phase that a multiple of the sampling rate adds at a sample -/
theorem waveform_shift {T f : ℝ} {n : ℕ} (hT : T ≠ 0) (hn : 0 < n) (k : ℤ) (i : ℕ) :
    waveform T (f + k * (n / T)) (sampleTime T n i) =
      (-1 : ℝ) ^ (k * (2 * i + 1 - n)) * waveform T f (sampleTime T n i) := by
  have hn' : (n : ℝ) ≠ 0 := by exact_mod_cast hn.ne'
  have e : 2 * Real.pi * (f + k * (n / T)) * (sampleTime T n i - T / 2) =
      2 * Real.pi * f * (sampleTime T n i - T / 2) + ((k * (2 * i + 1 - n) : ℤ) : ℝ) * Real.pi := by
    unfold sampleTime
    push_cast
    field_simp
  unfold waveform
  rw [e, Real.sin_add_int_mul_pi]
  ring

end OpenControls
