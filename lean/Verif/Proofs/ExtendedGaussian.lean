import Verif.Proofs.Extended
import Verif.Props.Gaussian

/-!
# The modulated Gaussian control with infinities and NaN
-/

namespace OpenControls

open PyFloat Py XR Spec

theorem gaussianMidpoints_fin (n : ℕ) (d : ℝ) :
    gaussianMidpoints n (fin d) = (gaussianMidpoints n d).map fin := by
  have h2 : (2 : ℝ) ≠ 0 := two_ne_zero
  unfold gaussianMidpoints
  rw [List.map_map]
  apply List.map_congr_left
  intro i _
  simp [fin_div _ h2]

theorem baseGaussian_fin {T : ℝ} (hT : T ≠ 0) (l : List ℝ) :
    baseGaussian (fin T) (l.map fin) = (baseGaussian T l).map fin := by
  unfold baseGaussian
  rw [List.map_map, List.map_map]
  apply List.map_congr_left
  intro i _
  have h : (((1 / 10 : ℚ) : ℝ) * T) ≠ 0 := by
    have : ((1 / 10 : ℚ) : ℝ) ≠ 0 := by norm_num
    positivity
  simp only [XR.lit_eq, fin_mul, Function.comp_apply, fin_sub, fin_div _ h, exp_fin]
  rfl

/-- the samples of the modulated Gaussian, with infinities and NaN -/
theorem modulated_samples_fin (T f : ℝ) (l base : List ℝ) :
    List.zipWith (fun g s : XR => g * s) (base.map fin) ((l.map fin).map fun t =>
      sin (lit 2 * PyFloat.pi * fin f * (t - fin T / lit 2))) =
    (List.zipWith (fun g s : ℝ => g * s) base (l.map fun t =>
      sin (lit 2 * PyFloat.pi * f * (t - T / lit 2)))).map fin := by
  have h2 : (2 : ℝ) ≠ 0 := two_ne_zero
  rw [List.map_zipWith, List.zipWith_map_left]
  simp only [List.map_map, List.zipWith_map_right]
  congr 1
  funext g t
  simp [fin_div _ h2]

theorem modulatedSegments_fin {Ω T f m : ℝ} {l base : List ℝ} (hm : m ≠ 0)
    (h : npAmax (List.zipWith (fun g s : ℝ => g * s) base (l.map fun t =>
      sin (lit 2 * PyFloat.pi * f * (t - T / lit 2)))) = .ok m) :
    modulatedSegments (fin Ω) (fin T) (fin f) (l.map fin) (base.map fin) =
      (modulatedSegments Ω T f l base).map (List.map fin) := by
  unfold modulatedSegments
  simp only [modulated_samples_fin, npAmax_fin, h, except_map_ok, except_ok_bind]
  show Except.ok _ = Except.ok _
  congr 1
  rw [List.map_map, List.map_map]
  apply List.map_congr_left
  intro i _
  simp [fin_div _ hm]

theorem unmodulatedSegments_fin {Ω d m : ℝ} {base : List ℝ} (hm : m ≠ 0)
    (h : npAmax base = .ok m)
    (hR : d * (base.map fun g => g / m).sum * Ω ≠ 0) :
    unmodulatedSegments (fin Ω) (fin d) (base.map fin) =
      (unmodulatedSegments Ω d base).map (List.map fin) := by
  have hp : (2 * Real.pi : ℝ) ≠ 0 := by have := Real.pi_pos; positivity
  unfold unmodulatedSegments
  simp only [npAmax_fin, h, except_map_ok, except_ok_bind]
  show Except.ok _ = Except.ok _
  congr 1
  have e : (base.map fin).map (fun g => g / fin m) = (base.map fun g => g / m).map fin := by
    rw [List.map_map, List.map_map]
    apply List.map_congr_left
    intro i _
    simp [fin_div _ hm]
  rw [e, sum_fin]
  simp only [List.map_map]
  apply List.map_congr_left
  intro i _
  simp only [RealInst.sum_eq, fin_mul, XR.lit_eq, XR.pi_eq, Rat.cast_ofNat, mod_fin _ hp, fin_sub,
    pyMax_fin, Function.comp_apply, fin_div _ hR]
  simp

/-- finite arguments, with a sample to normalise by -/
theorem newModulatedGaussianControl_fin (Ω d T f : ℝ)
    (hf : GaussianArgs Ω d T → Modulates T f ⌈T / d⌉₊) :
    newModulatedGaussianControl (fin Ω) (fin d) (fin T) (fin f) =
      (newModulatedGaussianControl Ω d T f).map (DrivenControl.map fin) := by
  unfold newModulatedGaussianControl
  have g1 : ∀ a b : ℝ, Py.gt (fin a) (fin b) = Py.gt a b := fun a b => by
    rw [Bool.eq_iff_iff]; simp
  have g2 : ∀ a : ℝ, Py.gt (fin a) (lit 0) = Py.gt a (lit 0) := fun a => by
    rw [Bool.eq_iff_iff]; simp
  simp only [map_check, checkArguments_bind, g1, g2]
  split
  swap; · rfl
  split
  swap; · rfl
  split
  swap; · rfl
  rename_i hΩ hd hT
  simp only [RealInst.gt_iff, RealInst.lit_eq, Rat.cast_zero] at hΩ hd hT
  have hT0 : 0 < T := hd.trans hT
  have h10 : (((1 / 10 : ℚ) : ℝ) * T) ≠ 0 := by
    have : ((1 / 10 : ℚ) : ℝ) ≠ 0 := by norm_num
    positivity
  have h2p : (0 : ℝ) ≤ ((2 : ℚ) : ℝ) * Real.pi := by have := Real.pi_pos; positivity
  have hs : Py.ge (fin Ω) (sqrt (lit 2 * PyFloat.pi) / (lit (1 / 10) * fin T)) =
      Py.ge Ω (sqrt (lit 2 * PyFloat.pi) / (lit (1 / 10) * T)) := by
    simp only [XR.lit_eq, XR.pi_eq, fin_mul, sqrt_fin h2p, fin_div _ h10]
    rw [Bool.eq_iff_iff]; simp
  rw [hs]
  split
  swap; · rfl
  rename_i hb
  have hargs : GaussianArgs Ω d T := by
    refine ⟨hΩ, hd, hT, ?_⟩
    simp only [RealInst.ge_iff, RealInst.sqrt_eq, RealInst.lit_eq, RealInst.pi_eq] at hb
    push_cast at hb
    have e : (1 / 10 : ℝ) * T = T / 10 := by ring
    rwa [e] at hb
  have hmod := hf hargs
  have hn := gaussian_count hd hT
  have hn0 : ((⌈T / d⌉₊ : ℕ) : ℝ) ≠ 0 := by
    have : ⌈T / d⌉₊ ≠ 0 := by omega
    exact_mod_cast this
  simp only [fin_div _ hd.ne', pyCeil_fin, RealInst.pyCeil_eq, except_ok_bind, map_bind, XR.nat_eq,
    fin_div _ hn0, RealInst.nat_eq, gaussianMidpoints_fin, baseGaussian_fin hT0.ne']
  have hne : Py.ne (fin f) (lit 0) = Py.ne f (lit 0) := by rw [Bool.eq_iff_iff]; simp
  have hseg : (if Py.ne (fin f) (lit 0) = true then
        modulatedSegments (fin Ω) (fin T) (fin f)
          ((gaussianMidpoints ⌈T / d⌉₊ (T / ⌈T / d⌉₊)).map fin)
          ((baseGaussian T (gaussianMidpoints ⌈T / d⌉₊ (T / ⌈T / d⌉₊))).map fin)
      else unmodulatedSegments (fin Ω) (fin (T / ⌈T / d⌉₊))
          ((baseGaussian T (gaussianMidpoints ⌈T / d⌉₊ (T / ⌈T / d⌉₊))).map fin)) =
      (if Py.ne f (lit 0) = true then
        modulatedSegments Ω T f (gaussianMidpoints ⌈T / d⌉₊ (T / ⌈T / d⌉₊))
          (baseGaussian T (gaussianMidpoints ⌈T / d⌉₊ (T / ⌈T / d⌉₊)))
      else unmodulatedSegments Ω (T / ⌈T / d⌉₊)
          (baseGaussian T (gaussianMidpoints ⌈T / d⌉₊ (T / ⌈T / d⌉₊)))).map (List.map fin) := by
    rw [hne]
    split
    · rename_i hf0
      simp only [RealInst.ne_iff, RealInst.lit_eq, Rat.cast_zero] at hf0
      obtain ⟨j, hj, hj0⟩ := hmod.resolve_left hf0
      obtain ⟨m, hm⟩ := sampleMax_exists T (show 0 < ⌈T / d⌉₊ by omega) (waveform T f)
      have hm0 : 0 < m := lt_of_lt_of_le (abs_pos.mpr hj0) (abs_waveform_le hm hj)
      refine modulatedSegments_fin hm0.ne' ?_
      rw [← isSampleMax_iff] at hm
      rw [← hm]
      congr 1
      rw [baseGaussian_eq, gaussianMidpoints_eq, List.map_map, List.zipWith_map]
      simp [waveform, List.zipWith_self]
    · obtain ⟨m, hm⟩ := sampleMax_exists T (show 0 < ⌈T / d⌉₊ by omega) (envelope T)
      have hm0 : 0 < m := by
        obtain ⟨⟨i, -, rfl⟩, -⟩ := hm
        exact envelope_pos _ _
      have hR := fullScaleAngle_pos hΩ hT0 (show 0 < ⌈T / d⌉₊ by omega) hm
      refine unmodulatedSegments_fin hm0.ne' ?_ ?_
      · rw [baseGaussian_eq]; exact (isSampleMax_iff T _ _ m).mpr hm
      · rw [baseGaussian_eq, List.map_map]
        exact hR.ne'
  rw [hseg]
  cases (if Py.ne f (lit 0) = true then
        modulatedSegments Ω T f (gaussianMidpoints ⌈T / d⌉₊ (T / ⌈T / d⌉₊))
          (baseGaussian T (gaussianMidpoints ⌈T / d⌉₊ (T / ⌈T / d⌉₊)))
      else unmodulatedSegments Ω (T / ⌈T / d⌉₊)
          (baseGaussian T (gaussianMidpoints ⌈T / d⌉₊ (T / ⌈T / d⌉₊)))) with
  | error e => rfl
  | ok segs =>
    simp only [except_map_ok, except_ok_bind]
    rw [← DrivenControl.new_fin]
    simp only [Option.map_some, List.map_map, List.map_replicate, Function.comp_def]
    congr 3
    · funext v
      by_cases hv : 0 ≤ v <;> simp [hv]

theorem npMaximum_zeros (n : ℕ) :
    npAmax (List.replicate (n + 1) (0 : ℝ)) = .ok 0 := by
  rw [List.replicate_succ]
  show Except.ok _ = _
  congr 1
  induction n with
  | zero => rfl
  | succ n ih => rw [List.replicate_succ, List.foldl_cons, RealInst.npMaximum_eq, max_self, ih]

/-- finite arguments, all samples of the waveform vanish: the normalisation computes `0 / 0` and the
resulting NaN is rejected as a Rabi rate -/
theorem newModulatedGaussianControl_nan {Ω d T f : ℝ} (h : GaussianArgs Ω d T) (hf : f ≠ 0)
    (h0 : ∀ i < ⌈T / d⌉₊, waveform T f (sampleTime T ⌈T / d⌉₊ i) = 0) :
    newModulatedGaussianControl (fin Ω) (fin d) (fin T) (fin f) =
      .error (.arguments "All rabi rates must be greater than zero.") := by
  obtain ⟨hΩ, hd, hT, hb⟩ := h
  have hT0 : 0 < T := hd.trans hT
  have h10 : (((1 / 10 : ℚ) : ℝ) * T) ≠ 0 := by
    have : ((1 / 10 : ℚ) : ℝ) ≠ 0 := by norm_num
    positivity
  have h2p : (0 : ℝ) ≤ ((2 : ℚ) : ℝ) * Real.pi := by have := Real.pi_pos; positivity
  have hn := gaussian_count hd hT
  have hn0 : ((⌈T / d⌉₊ : ℕ) : ℝ) ≠ 0 := by
    have : ⌈T / d⌉₊ ≠ 0 := by omega
    exact_mod_cast this
  have hn1 : 0 < T / (⌈T / d⌉₊ : ℝ) := by
    have : (0 : ℝ) ≤ (⌈T / d⌉₊ : ℝ) := by positivity
    positivity
  have hs : Py.ge (fin Ω) (sqrt (lit 2 * PyFloat.pi) / (lit (1 / 10) * fin T)) = true := by
    simp only [XR.lit_eq, XR.pi_eq, fin_mul, sqrt_fin h2p, fin_div _ h10]
    have e : ((1 / 10 : ℚ) : ℝ) * T = T / 10 := by push_cast; ring
    rw [e]
    simpa using hb
  have hz : List.zipWith (fun g s : ℝ => g * s)
      (baseGaussian T (gaussianMidpoints ⌈T / d⌉₊ (T / ⌈T / d⌉₊)))
      ((gaussianMidpoints ⌈T / d⌉₊ (T / ⌈T / d⌉₊)).map fun t =>
        sin (lit 2 * PyFloat.pi * f * (t - T / lit 2))) = List.replicate ⌈T / d⌉₊ 0 := by
    rw [baseGaussian_eq, gaussianMidpoints_eq, List.map_map, List.zipWith_map,
      List.eq_replicate_iff]
    refine ⟨by simp, fun x hx => ?_⟩
    simp only [List.zipWith_self, List.mem_map, List.mem_range] at hx
    obtain ⟨i, hi, rfl⟩ := hx
    have := h0 i hi
    simpa [waveform] using this
  obtain ⟨k, hk⟩ : ∃ k, ⌈T / d⌉₊ = k + 1 := ⟨⌈T / d⌉₊ - 1, by omega⟩
  unfold newModulatedGaussianControl
  have c1 : Py.gt (fin Ω) (lit 0) = true := by simpa using hΩ
  have c2 : Py.gt (fin d) (lit 0) = true := by simpa using hd
  have c3 : Py.gt (fin T) (fin d) = true := by simpa using hT
  have c4 : Py.ne (fin f) (lit 0) = true := by simpa using hf
  simp only [checkArguments_bind, c1, c2, c3, c4, hs, if_true]
  simp only [fin_div _ hd.ne', pyCeil_fin, RealInst.pyCeil_eq, except_ok_bind, XR.nat_eq,
    fin_div _ hn0, gaussianMidpoints_fin, baseGaussian_fin hT0.ne']
  have hseg : modulatedSegments (fin Ω) (fin T) (fin f)
      ((gaussianMidpoints ⌈T / d⌉₊ (T / ⌈T / d⌉₊)).map fin)
      ((baseGaussian T (gaussianMidpoints ⌈T / d⌉₊ (T / ⌈T / d⌉₊))).map fin) =
      .ok (List.replicate ⌈T / d⌉₊ nan) := by
    unfold modulatedSegments
    simp only [modulated_samples_fin, hz, npAmax_fin]
    rw [hk, npMaximum_zeros]
    show Except.ok _ = Except.ok _
    congr 1
    rw [List.map_replicate, List.map_replicate, fin_mul, mul_zero, fin_div_zero]
    simp [infOf]
  rw [hseg, except_ok_bind, DrivenControl.new_eq, if_pos, if_pos, if_neg]
  · have : ¬ Le (fin 0) nan := fun h => h
    rw [hk]
    simp [PyFloat.abs, this]
  · simp
  · simp [hn1]

end OpenControls
