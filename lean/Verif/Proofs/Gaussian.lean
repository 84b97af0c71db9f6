import Verif.Proofs.Composite
import Verif.Spec.Gaussian

/-!
# The modulated Gaussian control at exact arithmetic
-/

namespace OpenControls

open Spec RealInst

theorem gaussianMidpoints_eq (T : ℝ) (n : ℕ) :
    gaussianMidpoints n (T / n) = (List.range n).map (sampleTime T n) := by
  unfold gaussianMidpoints
  apply List.map_congr_left
  intro i _
  simp [sampleTime]; ring

theorem baseGaussian_eq (T : ℝ) (n : ℕ) :
    baseGaussian T (gaussianMidpoints n (T / n)) =
      (List.range n).map fun i => envelope T (sampleTime T n i) := by
  rw [gaussianMidpoints_eq, baseGaussian, List.map_map]
  apply List.map_congr_left
  intro i _
  simp [envelope]
  ring_nf

theorem isSampleMax_iff (T : ℝ) (n : ℕ) (w : ℝ → ℝ) (m : ℝ) :
    Py.npAmax ((List.range n).map fun i => w (sampleTime T n i)) = .ok m ↔ IsSampleMax T n w m := by
  rw [npAmax_ok_iff]
  simp [IsSampleMax]

theorem sampleMax_exists (T : ℝ) {n : ℕ} (hn : 0 < n) (w : ℝ → ℝ) : ∃ m, IsSampleMax T n w m := by
  obtain ⟨m, hm⟩ := npAmax_exists (l := (List.range n).map fun i => w (sampleTime T n i))
    (by simp; omega)
  exact ⟨m, (isSampleMax_iff T n w m).mp hm⟩

theorem sampleMax_exists' (T : ℝ) (n : ℕ) (w : ℝ → ℝ) : ∃ m, 0 < n → IsSampleMax T n w m := by
  by_cases hn : 0 < n
  · obtain ⟨m, hm⟩ := sampleMax_exists T hn w
    exact ⟨m, fun _ => hm⟩
  · exact ⟨0, fun h => absurd h hn⟩

theorem sampleMax_unique {T : ℝ} {n : ℕ} {w : ℝ → ℝ} {m m' : ℝ} (h : IsSampleMax T n w m)
    (h' : IsSampleMax T n w m') : m = m' := by
  have a := (isSampleMax_iff T n w m).mpr h
  have b := (isSampleMax_iff T n w m').mpr h'
  rw [a] at b; injection b

theorem modulatedSegments_eq (Ω T f : ℝ) (n : ℕ) {m : ℝ} (hm : IsSampleMax T n (waveform T f) m) :
    modulatedSegments Ω T f (gaussianMidpoints n (T / n))
      (baseGaussian T (gaussianMidpoints n (T / n))) =
      .ok ((List.range n).map fun i => Ω * waveform T f (sampleTime T n i) / m) := by
  unfold modulatedSegments
  have e : List.zipWith (fun g s : ℝ => g * s) (baseGaussian T (gaussianMidpoints n (T / n)))
      ((gaussianMidpoints n (T / n)).map fun t =>
        PyFloat.sin (PyFloat.lit 2 * PyFloat.pi * f * (t - T / PyFloat.lit 2))) =
      (List.range n).map fun i => waveform T f (sampleTime T n i) := by
    rw [baseGaussian_eq, gaussianMidpoints_eq, List.map_map, List.zipWith_map]
    simp [waveform, List.zipWith_self]
  simp only [e, (isSampleMax_iff T n _ m).mpr hm, except_ok_bind, List.map_map]
  rfl

theorem unmodulatedSegments_eq (Ω T : ℝ) (n : ℕ) {m : ℝ} (hm : IsSampleMax T n (envelope T) m) :
    unmodulatedSegments Ω (T / n) (baseGaussian T (gaussianMidpoints n (T / n))) =
      .ok ((List.range n).map fun i => envelope T (sampleTime T n i) / m * Ω *
        (fullRotationAngle (fullScaleAngle Ω T n m) / fullScaleAngle Ω T n m)) := by
  unfold unmodulatedSegments
  simp only [baseGaussian_eq, (isSampleMax_iff T n _ m).mpr hm, except_ok_bind, List.map_map]
  simp [fullRotationAngle, fullScaleAngle, Function.comp_def]
  rfl

theorem signedControl_new {T : ℝ} {n : ℕ} (hT : 0 < T) (hn : 0 < n) (v : ℕ → ℝ)
    (segments : List ℝ) (hs : segments = (List.range n).map v) :
    DrivenControl.new (List.replicate n (T / Py.nat n)) (some (segments.map PyFloat.abs))
      (some (segments.map fun v => if Py.ge v (PyFloat.lit 0) then PyFloat.lit 0 else PyFloat.pi))
      (some (List.replicate n (PyFloat.lit 0))) none = .ok (signedControl T n v) := by
  subst hs
  have hn' : (0 : ℝ) < n := by exact_mod_cast hn
  rw [DrivenControl.new_eq, if_pos, if_pos, if_pos]
  · simp [signedControl, List.map_map, Function.comp_def]
  · simp
  · simp
  · simp [hn.ne']; positivity

theorem gaussian_count {d T : ℝ} (hd : 0 < d) (hT : d < T) : 2 ≤ ⌈T / d⌉₊ := by
  have : 1 < T / d := by rw [lt_div_iff₀ hd]; linarith
  have := Nat.lt_ceil.mpr (by simpa using this : ((1 : ℕ) : ℝ) < T / d)
  omega

/-- Everything `new_modulated_gaussian_control` does, at exact arithmetic. -/
theorem newModulatedGaussianControl_spec (Ω d T f : ℝ) {m m₀ : ℝ}
    (hm : 0 < ⌈T / d⌉₊ → IsSampleMax T ⌈T / d⌉₊ (waveform T f) m)
    (hm₀ : 0 < ⌈T / d⌉₊ → IsSampleMax T ⌈T / d⌉₊ (envelope T) m₀) :
    AcceptsExactly (newModulatedGaussianControl Ω d T f) (GaussianArgs Ω d T)
      (signedControl T ⌈T / d⌉₊ fun i =>
        if f ≠ 0 then Ω * waveform T f (sampleTime T ⌈T / d⌉₊ i) / m
        else envelope T (sampleTime T ⌈T / d⌉₊ i) / m₀ * Ω *
          (fullRotationAngle (fullScaleAngle Ω T ⌈T / d⌉₊ m₀) /
            fullScaleAngle Ω T ⌈T / d⌉₊ m₀)) := by
  unfold newModulatedGaussianControl
  refine AcceptsExactly.congr (Q := GaussianArgs Ω d T) (AcceptsExactly.check
    (Q := 0 < Ω) (by simp) fun hΩ => AcceptsExactly.check (Q := 0 < d) (by simp) fun hd =>
    AcceptsExactly.check (Q := d < T) (by simp) fun hT => AcceptsExactly.check
    (Q := Real.sqrt (2 * Real.pi) / (T / 10) ≤ Ω)
    (by simp; rw [show (10 : ℝ)⁻¹ * T = T / 10 by ring]) fun _ => (?_ : AcceptsExactly _ True _)) (by simp [GaussianArgs])
  refine ⟨fun _ => ?_, fun h => absurd trivial h⟩
  have hn := gaussian_count hd hT
  replace hm := hm (by omega)
  replace hm₀ := hm₀ (by omega)
  rw [pyCeil_eq, except_ok_bind]
  simp only [nat_eq]
  by_cases hf : f = 0
  · have hne : ¬ (Py.ne f (PyFloat.lit 0) = true) := by simp [hf]
    rw [if_neg hne, unmodulatedSegments_eq Ω T _ hm₀, except_ok_bind]
    simp only [hf, ne_eq, not_true_eq_false, if_false]
    exact signedControl_new (T := T) (n := ⌈T / d⌉₊) (by linarith) (by omega) _ _ rfl
  · have hne : (Py.ne f (PyFloat.lit 0) = true) := by simp [hf]
    rw [if_pos hne, modulatedSegments_eq Ω T f _ hm, except_ok_bind]
    simp only [hf, ne_eq, not_false_eq_true, if_true]
    exact signedControl_new (T := T) (n := ⌈T / d⌉₊) (by linarith) (by omega) _ _ rfl

/-- The evolution of a signed control is the rotation by the total signed angle. -/
theorem evolution_signedControl (T : ℝ) (n : ℕ) (v : ℕ → ℝ) :
    evolution (signedControl T n v) =
      rotation (((List.range n).map fun i => v i * (T / n)).sum) 0 := by
  unfold evolution signedControl
  simp only
  have key : ∀ (l : List ℕ) (τ : ℝ), controlEvolution (l.map fun i => |v i|)
      (l.map fun i => if 0 ≤ v i then 0 else Real.pi) (List.replicate l.length 0)
      (List.replicate l.length τ) = rotation ((l.map fun i => v i * τ).sum) 0 := by
    intro l τ
    induction l with
    | nil => simp [controlEvolution, rotation_zero]
    | cons a l ih =>
      simp only [List.map_cons, List.length_cons, List.replicate_succ, controlEvolution_cons, ih,
        List.sum_cons, segmentUnitary_resonant]
      have : rotation (|v a| * τ) (if 0 ≤ v a then 0 else Real.pi) = rotation (v a * τ) 0 := by
        split
        · rw [abs_of_nonneg ‹_›]
        · rw [abs_of_neg (not_le.mp ‹_›)]
          have := rotation_axis_add_pi (-v a * τ) 0
          rw [zero_add] at this
          rw [this]; congr 1; ring
      rw [this, rotation_mul_same, add_comm]
  have := key (List.range n) (T / n)
  simpa using this

theorem sampleTime_mirror (T : ℝ) {n i : ℕ} (hn : 0 < n) (hi : i < n) :
    sampleTime T n (n - 1 - i) - T / 2 = -(sampleTime T n i - T / 2) := by
  have h1 : ((n - 1 - i : ℕ) : ℝ) = n - 1 - i := by
    have : n - 1 - i + (1 + i) = n := by omega
    have : ((n - 1 - i : ℕ) : ℝ) + (1 + i) = n := by exact_mod_cast this
    linarith
  have hn' : (n : ℝ) ≠ 0 := by exact_mod_cast hn.ne'
  simp only [sampleTime, h1]
  field_simp
  ring

theorem envelope_mirror (T : ℝ) {n i : ℕ} (hn : 0 < n) (hi : i < n) :
    envelope T (sampleTime T n (n - 1 - i)) = envelope T (sampleTime T n i) := by
  simp only [envelope, sampleTime_mirror T hn hi, neg_div, neg_sq]

theorem waveform_mirror (T f : ℝ) {n i : ℕ} (hn : 0 < n) (hi : i < n) :
    waveform T f (sampleTime T n (n - 1 - i)) = -waveform T f (sampleTime T n i) := by
  simp only [waveform, envelope_mirror T hn hi, sampleTime_mirror T hn hi, mul_neg, Real.sin_neg]

theorem sum_antisymmetric (n : ℕ) (w : ℕ → ℝ) (h : ∀ i < n, w (n - 1 - i) = -w i) :
    ((List.range n).map w).sum = 0 := by
  have h1 : ((List.range n).map w).sum = ∑ i ∈ Finset.range n, w i := by
    rfl
  rw [h1]
  have h2 := Finset.sum_range_reflect w n
  have h3 : ∑ j ∈ Finset.range n, w (n - 1 - j) = -∑ j ∈ Finset.range n, w j := by
    rw [← Finset.sum_neg_distrib]
    exact Finset.sum_congr rfl fun i hi => h i (Finset.mem_range.mp hi)
  linarith

/-- The largest sample of an antisymmetric waveform bounds all of them in modulus. -/
theorem abs_waveform_le {T f m : ℝ} {n i : ℕ} (hm : IsSampleMax T n (waveform T f) m)
    (hi : i < n) : |waveform T f (sampleTime T n i)| ≤ m := by
  rw [abs_le]
  refine ⟨?_, hm.2 i hi⟩
  have := hm.2 (n - 1 - i) (by omega)
  rw [waveform_mirror T f (by omega) hi] at this
  linarith

theorem envelope_pos (T t : ℝ) : 0 < envelope T t := Real.exp_pos _

theorem fullScaleAngle_pos {Ω T m : ℝ} {n : ℕ} (hΩ : 0 < Ω) (hT : 0 < T) (hn : 0 < n)
    (hm : IsSampleMax T n (envelope T) m) : 0 < fullScaleAngle Ω T n m := by
  have hn' : (0 : ℝ) < n := by exact_mod_cast hn
  have hm0 : 0 < m := by
    obtain ⟨⟨i, -, rfl⟩, -⟩ := hm
    exact envelope_pos _ _
  unfold fullScaleAngle
  have : 0 < ((List.range n).map fun i => envelope T (sampleTime T n i) / m).sum := by
    apply List.sum_pos
    · intro x hx
      obtain ⟨i, -, rfl⟩ := List.mem_map.mp hx
      exact div_pos (envelope_pos _ _) hm0
    · simp; omega
  positivity

theorem fullRotationAngle_pos (R : ℝ) : 0 < fullRotationAngle R :=
  lt_of_lt_of_le (by positivity) (le_max_right _ _)

theorem fullRotationAngle_le_iff {R : ℝ} :
    fullRotationAngle R ≤ R ↔ 2 * Real.pi ≤ R := by
  have hpi := Real.two_pi_pos
  unfold fullRotationAngle
  rw [max_le_iff, and_iff_right_iff_imp]
  intro _
  have := Int.floor_le (R / (2 * Real.pi))
  rw [le_div_iff₀ hpi] at this
  linarith

theorem fullRotationAngle_eq {R : ℝ} (hR : 0 < R) :
    ∃ N : ℕ, 1 ≤ N ∧ fullRotationAngle R = 2 * Real.pi * N := by
  have hpi := Real.two_pi_pos
  unfold fullRotationAngle
  have h0 : 0 ≤ ⌊R / (2 * Real.pi)⌋ := Int.floor_nonneg.mpr (by positivity)
  obtain ⟨k, hk⟩ := Int.eq_ofNat_of_zero_le h0
  rw [hk]
  rcases Nat.eq_zero_or_pos k with rfl | hk0
  · exact ⟨1, le_refl _, by simp; positivity⟩
  · refine ⟨k, hk0, ?_⟩
    have : (1 : ℝ) ≤ k := by exact_mod_cast hk0
    rw [max_eq_left]
    · simp
    · simp; nlinarith

theorem rotation_full (N : ℕ) (φ : ℝ) : rotation (2 * Real.pi * N) φ = (-1) ^ N := by
  induction N with
  | zero => simp [rotation_zero]
  | succ N ih =>
    rw [show 2 * Real.pi * ((N + 1 : ℕ) : ℝ) = 2 * Real.pi * N + 2 * Real.pi by push_cast; ring,
      rotation_add_two_pi, ih, pow_succ]
    simp

end OpenControls
