import Verif.Proofs.RoundedGaussianAngle
import Verif.Spec.RoundedGaussian
import Verif.Props.Rounding

/-!
# C85: the modulated Gaussian control in floating-point arithmetic

`Fl r` are the numbers of a floating-point arithmetic with unit roundoff `r.u` (double precision:
`r = Rounding.double`, `u = 2⁻⁵³`), `T.val` is the real number `T` stands for.  All bounds are for
any such arithmetic, any arguments and any number of segments up to `1/(200 u)`.
-/

namespace OpenControls

open Spec Fl

open scoped Matrix.Norms.L2Operator

variable {r : Rounding}

theorem roundedBound_rel {T : Fl r} :
    Rel r 5 (roundedBound T).val (Real.sqrt (2 * Real.pi) / (T.val / 10)) := by
  have h1 : Rel r 1 (Real.sqrt (2 * r.rnd Real.pi)) (Real.sqrt (2 * Real.pi)) := by
    obtain ⟨e, he, h⟩ := two_pi_rel (r := r)
    refine ⟨e / 2, ?_, ?_⟩
    · rw [abs_div, abs_two]
      have := abs_nonneg e
      linarith
    · rw [h, Real.sqrt_mul (by positivity), Real.sqrt_eq_rpow (Real.exp e), ← Real.exp_mul]
      ring_nf
  have h2 : Rel r 2 (PyFloat.lit (1 / 10) * T : Fl r).val (T.val / 10) := by
    rw [val_mul, val_lit]
    push_cast
    have := ((Rel.of_rnd (r := r) (1 / 10)).mul (Rel.refl T.val)).rnd
    rw [show (1 : ℝ) / 10 * T.val = T.val / 10 by ring] at this
    exact this.mono (by norm_num)
  unfold roundedBound
  rw [val_div, val_sqrt, two_pi_rounded]
  exact ((h1.rnd.div h2).rnd).mono (by norm_num)

theorem gaussian_rounded_result (Ω d T f : Fl r) :
    ∃ m m₀ : Fl r, AcceptsExactly (newModulatedGaussianControl Ω d T f)
      (0 < Ω.val ∧ 0 < d.val ∧ d.val < T.val ∧ (roundedBound T).val ≤ Ω.val)
      (roundedSigned T (roundedCount T d) fun i =>
        if f.val ≠ 0 then modulatedRate Ω T f (roundedCount T d) m i
        else unmodulatedRate Ω T (roundedCount T d) m₀ i) ∧
      (0 < roundedCount T d →
        IsRoundedMax (roundedCount T d) (modulatedSample T f (roundedCount T d)) m ∧
        IsRoundedMax (roundedCount T d) (baseSample T (roundedCount T d)) m₀) := by
  by_cases hn : 0 < roundedCount T d
  · obtain ⟨m, h1, h2⟩ := npAmax_range hn (modulatedSample T f (roundedCount T d))
    obtain ⟨m₀, h3, h4⟩ := npAmax_range hn (baseSample T (roundedCount T d))
    exact ⟨m, m₀, newModulatedGaussianControl_rounded Ω d T f (fun _ => ⟨h2, h1⟩)
      (fun _ => ⟨h4, h3⟩), fun _ => ⟨h2, h4⟩⟩
  · exact ⟨T, T, newModulatedGaussianControl_rounded Ω d T f (fun h => absurd h hn)
      (fun h => absurd h hn), fun h => absurd h hn⟩

/-- **C85**, acceptance. The argument checks are those of C29, except that the smallest admissible
maximum Rabi rate is computed with a relative error of at most `11u`; every rejection is an
`ArgumentsValueError`. -/
theorem C85_accepts (Ω d T f : Fl r) :
    (∀ c, newModulatedGaussianControl Ω d T f = .ok c → 0 < Ω.val ∧ 0 < d.val ∧ d.val < T.val ∧
      Real.sqrt (2 * Real.pi) / (T.val / 10) * (1 - 11 * r.u) ≤ Ω.val) ∧
    (0 < Ω.val → 0 < d.val → d.val < T.val →
      Real.sqrt (2 * Real.pi) / (T.val / 10) * (1 + 11 * r.u) ≤ Ω.val →
      ∃ c, newModulatedGaussianControl Ω d T f = .ok c) ∧
    (∀ e, newModulatedGaussianControl Ω d T f = .error e → e.isArguments = true) := by
  obtain ⟨m, m₀, h, -⟩ := gaussian_rounded_result Ω d T f
  have hu := u_small r
  have hb := (roundedBound_rel (T := T)).abs_error (by norm_num) (by linarith)
  have hu0 := r.u_nonneg
  have key : 0 < T.val → |(roundedBound T).val - Real.sqrt (2 * Real.pi) / (T.val / 10)| ≤
      11 * r.u * (Real.sqrt (2 * Real.pi) / (T.val / 10)) := by
    intro hT
    refine hb.trans ?_
    have h0 : 0 ≤ Real.sqrt (2 * Real.pi) / (T.val / 10) := by positivity
    rw [abs_of_nonneg h0]
    gcongr
    norm_num
  refine ⟨fun c hc => ?_, fun hΩ hd hT hbound => ?_, fun e he => ?_⟩
  · obtain ⟨⟨hΩ, hd, hT, hbound⟩, -⟩ := h.ok hc
    refine ⟨hΩ, hd, hT, ?_⟩
    have := (abs_le.mp (key (by linarith))).1
    linarith
  · have := (abs_le.mp (key (by linarith))).2
    exact ⟨_, h.1 ⟨hΩ, hd, hT, by linarith⟩⟩
  · by_cases hP : 0 < Ω.val ∧ 0 < d.val ∧ d.val < T.val ∧ (roundedBound T).val ≤ Ω.val
    · rw [h.1 hP] at he
      cases he
    · obtain ⟨desc, h2⟩ := h.2 hP
      rw [h2] at he
      cases he
      rfl

/-- **C85**, segmentation. The segments have equal durations, no detuning, and fill the requested
duration up to one rounding; none is longer than the minimum segment duration except by rounding.
Their number is the exact quotient of the durations rounded up, or one less if the quotient exceeds
an integer by no more than rounding. -/
theorem C85_segments (Ω d T f : Fl r) (c : DrivenControl (Fl r))
    (hc : newModulatedGaussianControl Ω d T f = .ok c) (hn : T.val / d.val * r.u ≤ 1 / 200) :
    ∃ (n : ℕ) (τ : Fl r), 0 < n ∧ c.durations = List.replicate n τ ∧
      c.rabiRates.length = n ∧ c.azimuthalAngles.length = n ∧
      c.detunings = List.replicate n (PyFloat.lit 0) ∧
      |n * τ.val - T.val| ≤ r.u * T.val ∧ τ.val ≤ d.val * (1 + 3 * r.u) ∧
      (n = ⌈T.val / d.val⌉₊ ∨
        n + 1 = ⌈T.val / d.val⌉₊ ∧ T.val / d.val ≤ n + r.u * (T.val / d.val)) := by
  obtain ⟨m, m₀, h, -⟩ := gaussian_rounded_result Ω d T f
  obtain ⟨⟨hΩ, hd, hT, -⟩, rfl⟩ := h.ok hc
  have hT0 : 0 < T.val := by linarith
  have hn0 := roundedCount_pos hd hT
  have hn' : (0 : ℝ) < roundedCount T d := by exact_mod_cast hn0
  have hsmall := roundedCount_small hd hT hn
  have hcases := roundedCount_cases hd hT hn
  have hu := r.u_nonneg
  have hu' := u_small r
  refine ⟨roundedCount T d, T / Py.nat (roundedCount T d), hn0, rfl, by simp [roundedSigned],
    by simp [roundedSigned], rfl, ?_, ?_, hcases⟩
  · rw [val_div, val_nat (by linarith)]
    have h1 := r.close (T.val / roundedCount T d)
    rw [abs_of_pos (by positivity : 0 < T.val / (roundedCount T d : ℝ))] at h1
    have h2 := mul_le_mul_of_nonneg_left h1 hn'.le
    rw [← abs_of_pos hn', ← abs_mul, abs_of_pos hn'] at h2
    have e1 : (roundedCount T d : ℝ) * (r.rnd (T.val / roundedCount T d) - T.val / roundedCount T d) =
        roundedCount T d * r.rnd (T.val / roundedCount T d) - T.val := by field_simp
    have e2 : (roundedCount T d : ℝ) * (r.u * (T.val / roundedCount T d)) = r.u * T.val := by
      field_simp
    rwa [e1, e2] at h2
  · have h1 : T.val / d.val * (1 - r.u) ≤ roundedCount T d := by
      have hle := Nat.le_ceil (T.val / d.val)
      have hq : 0 < T.val / d.val := by positivity
      rcases hcases with h | h
      · rw [← h] at hle; nlinarith
      · linarith [h.2]
    have h2 : T.val / roundedCount T d * (1 - r.u) ≤ d.val := by
      rw [div_mul_eq_mul_div, div_le_iff₀ hn']
      rw [div_mul_eq_mul_div, div_le_iff₀ hd] at h1
      linarith
    rw [val_div, val_nat (by linarith)]
    have h3 := (abs_le.mp (r.close (T.val / roundedCount T d))).2
    have hq : 0 < T.val / (roundedCount T d : ℝ) := by positivity
    rw [abs_of_pos hq] at h3
    have h4 := mul_le_mul_of_nonneg_right h2 (by linarith : 0 ≤ 1 + 3 * r.u)
    have h5 : 1 + r.u ≤ (1 - r.u) * (1 + 3 * r.u) := by nlinarith
    have h6 := mul_le_mul_of_nonneg_left h5 hq.le
    linarith

/-- **C85**, no modulation. The computed rates are nonnegative about the fixed axis `x`, and
integrate to an integer number `k ≥ 1` of full rotations with relative error `(7n + 17)u`, so that
the control returns the qubit to its initial state.  `k` is the number of full rotations that fit in
the Gaussian at the maximum Rabi rate, where that ratio is known up to a relative error of
`(7n + 2500)u`; if one fits, no rate exceeds the maximum by more than a relative `6u`. -/
theorem C85_unmodulated (Ω d T f : Fl r) (c : DrivenControl (Fl r))
    (hc : newModulatedGaussianControl Ω d T f = .ok c) (hf : f.val = 0)
    (hn : T.val / d.val * r.u ≤ 1 / 200) (m : ℝ)
    (hm : IsSampleMax T.val c.durations.length (envelope T.val) m) :
    ∃ (k : ℕ) (x : ℝ), k = max 1 ⌊x⌋₊ ∧
      |x - fullScaleAngle Ω.val T.val c.durations.length m / (2 * Real.pi)| ≤
        (7 * c.durations.length + 2500) * r.u *
          (fullScaleAngle Ω.val T.val c.durations.length m / (2 * Real.pi)) ∧
      |accumulatedAngle c - 2 * Real.pi * k| ≤
        (7 * c.durations.length + 17) * r.u * (2 * Real.pi * k) ∧
      PerformsWithin ((7 * c.durations.length + 17) * r.u * (Real.pi * k)) c ((-1) ^ k) ∧
      (∀ w ∈ c.rabiRates, 0 ≤ w.val ∧ (1 ≤ x → w.val ≤ Ω.val * (1 + 6 * r.u))) ∧
      (∀ φ ∈ c.azimuthalAngles, φ.val = 0) := by
  obtain ⟨m', m₀, h, hmax⟩ := gaussian_rounded_result Ω d T f
  obtain ⟨⟨hΩ, hd, hT, -⟩, rfl⟩ := h.ok hc
  have hT0 : 0 < T.val := by linarith
  have hn0 := roundedCount_pos hd hT
  have hn' : (0 : ℝ) < roundedCount T d := by exact_mod_cast hn0
  have hsmall := roundedCount_small hd hT hn
  have hm₀ := (hmax hn0).2
  have hu := r.u_nonneg
  have hu' := u_small r
  set n := roundedCount T d with hndef
  have hlen : (roundedSigned T n fun i => if f.val ≠ 0 then modulatedRate Ω T f n m' i
    else unmodulatedRate Ω T n m₀ i).durations.length = n := by simp [roundedSigned]
  rw [hlen] at hm ⊢
  simp only [hf, ne_eq, not_true_eq_false, if_false]
  have hR := roundedFullScale_pos hΩ hT0 hn0 hsmall hm₀
  have htot := unmodulated_total hΩ hT0 hn0 hsmall hm₀
  have hv0 : ∀ i < n, 0 ≤ (unmodulatedRate Ω T n m₀ i).val := fun i hi =>
    unmodulatedRate_nonneg hΩ hT0 hn0 hsmall hm₀ hi
  set k := max 1 (rotations Ω T n m₀) with hk
  have hk0 : (0 : ℝ) ≤ k := by positivity
  have hacc : accumulatedAngle (roundedSigned T n (unmodulatedRate Ω T n m₀)) =
      ((List.range n).map fun i => (unmodulatedRate Ω T n m₀ i).val * (T / Py.nat n).val).sum := by
    unfold accumulatedAngle roundedSigned
    have e : List.replicate n (T / Py.nat n) = (List.range n).map fun _ => T / Py.nat n := by
      rw [List.map_const', List.length_range]
    dsimp only
    rw [e, List.zipWith_map, List.zipWith_self]
    congr 1
    apply List.map_congr_left
    intro i hi
    rw [val_abs, abs_of_nonneg (hv0 i (List.mem_range.mp hi))]
  have herr : |accumulatedAngle (roundedSigned T n (unmodulatedRate Ω T n m₀)) - 2 * Real.pi * k| ≤
      (7 * n + 17) * r.u * (2 * Real.pi * k) := by
    rw [hacc]
    refine (htot.abs_error (by positivity) (by nlinarith)).trans ?_
    rw [abs_of_nonneg (by positivity)]
    gcongr
    nlinarith
  refine ⟨k, (roundedFullScale Ω T n m₀).val / (2 * r.rnd Real.pi), rfl, ?_, herr, ?_, ?_, ?_⟩
  · have h1 := (roundedFullScale_rel (Ω := Ω) hT0 hsmall hm₀ hm).div (two_pi_rel (r := r))
    have hpos : 0 < fullScaleAngle Ω.val T.val n m / (2 * Real.pi) :=
      div_pos (fullScaleAngle_pos hΩ hT0 hn0 hm) (by positivity)
    refine (h1.abs_error (by positivity) (by nlinarith)).trans ?_
    rw [abs_of_pos hpos]
    gcongr
    nlinarith
  · intro i j
    refine (entry_le_norm _ i j).trans ?_
    have h1 := evolution_roundedSigned T n (unmodulatedRate Ω T n m₀)
    rw [← hacc] at h1
    have h2 : ((List.range n).map fun i => if 0 ≤ (unmodulatedRate Ω T n m₀ i).val then 0
        else Real.pi * r.u).sum = 0 := by
      apply List.sum_eq_zero
      intro x hx
      obtain ⟨i, hi, rfl⟩ := List.mem_map.mp hx
      rw [if_pos (hv0 i (List.mem_range.mp hi))]
    rw [h2] at h1
    have h3 := rotation_angle_dist (accumulatedAngle (roundedSigned T n (unmodulatedRate Ω T n m₀)))
      (2 * Real.pi * k) 0
    rw [rotation_full] at h3
    have h4 := norm_sub_le_norm_sub_add_norm_sub
      (evolution ((roundedSigned T n (unmodulatedRate Ω T n m₀)).map val))
      (rotation (accumulatedAngle (roundedSigned T n (unmodulatedRate Ω T n m₀))) 0) ((-1) ^ k)
    refine (h4.trans (add_le_add h1 h3)).trans ?_
    linarith
  · intro w hw
    obtain ⟨i, hi, rfl⟩ := List.mem_map.mp hw
    have hi' := List.mem_range.mp hi
    rw [val_abs]
    refine ⟨abs_nonneg _, fun hx => ?_⟩
    rw [abs_of_nonneg (hv0 i hi')]
    refine (unmodulatedRate_le hΩ hT0 hn0 hsmall hm₀ ?_ hi').2
    unfold rotations
    rw [Nat.le_floor_iff' (by norm_num)]
    simpa using hx
  · intro φ hφ
    obtain ⟨i, hi, rfl⟩ := List.mem_map.mp hφ
    rw [if_pos (by rw [ge_iff, val_lit_zero]; exact hv0 i (List.mem_range.mp hi)), val_lit_zero]

/-- **C85**, modulation. If the largest exact sample `M` of the modulated Gaussian is at least twice
the tolerance of a sample, the computed control is the identity operation up to the tolerance
relative to `M`, scaled by the rotation angle `Ω T`, and no rate exceeds the maximum Rabi rate by
more than five times the relative tolerance. -/
theorem C85_modulated (Ω d T f : Fl r) (c : DrivenControl (Fl r))
    (hc : newModulatedGaussianControl Ω d T f = .ok c) (hf : f.val ≠ 0)
    (hn : T.val / d.val * r.u ≤ 1 / 200) (M : ℝ)
    (hM : IsSampleMax T.val c.durations.length (waveform T.val f.val) M) (hM0 : 0 < M)
    (hE : 2 * sampleTolerance r f.val T.val ≤ M) :
    PerformsWithin (Ω.val * T.val * (5 / 4 * (sampleTolerance r f.val T.val / M)) +
      4 * c.durations.length * r.u) c 1 ∧
    (∀ w ∈ c.rabiRates, 0 ≤ w.val ∧
      w.val ≤ Ω.val * (1 + 5 * (sampleTolerance r f.val T.val / M))) ∧
    (∀ φ ∈ c.azimuthalAngles, φ.val = 0 ∨ φ = PyFloat.pi) := by
  obtain ⟨m', m₀, h, hmax⟩ := gaussian_rounded_result Ω d T f
  obtain ⟨⟨hΩ, hd, hT, -⟩, rfl⟩ := h.ok hc
  have hT0 : 0 < T.val := by linarith
  have hn0 := roundedCount_pos hd hT
  have hn' : (0 : ℝ) < roundedCount T d := by exact_mod_cast hn0
  have hsmall := roundedCount_small hd hT hn
  have hm' := (hmax hn0).1
  have hu := r.u_nonneg
  have hu' := u_small r
  set n := roundedCount T d with hndef
  have hlen : (roundedSigned T n fun i => if f.val ≠ 0 then modulatedRate Ω T f n m' i
    else unmodulatedRate Ω T n m₀ i).durations.length = n := by simp [roundedSigned]
  rw [hlen] at hM ⊢
  simp only [hf, ne_eq, not_false_eq_true, if_true]
  refine ⟨?_, ?_, ?_⟩
  · intro i j
    refine (entry_le_norm _ i j).trans ?_
    have h1 := evolution_roundedSigned T n (modulatedRate Ω T f n m')
    have h2 := modulated_total hΩ hT0 hn0 hsmall hm' hM hE hM0
    set A := ((List.range n).map fun i => (modulatedRate Ω T f n m' i).val * (T / Py.nat n).val).sum
    have h3 := rotation_angle_dist A 0 0
    rw [rotation_zero, sub_zero] at h3
    have h4 : ((List.range n).map fun i => if 0 ≤ (modulatedRate Ω T f n m' i).val then 0
        else Real.pi * r.u).sum ≤ n * (4 * r.u) := by
      have := List.sum_le_card_nsmul ((List.range n).map fun i =>
        if 0 ≤ (modulatedRate Ω T f n m' i).val then 0 else Real.pi * r.u) (4 * r.u) (by
          intro x hx
          obtain ⟨i, -, rfl⟩ := List.mem_map.mp hx
          have := Real.pi_lt_four
          split
          · linarith
          · nlinarith)
      simpa using this
    have h5 := norm_sub_le_norm_sub_add_norm_sub
      (evolution ((roundedSigned T n (modulatedRate Ω T f n m')).map val)) (rotation A 0) 1
    refine (h5.trans (add_le_add h1 h3)).trans ?_
    have e : Ω.val * T.val / M * (5 / 2 * sampleError r (|f.val| * T.val)) =
        2 * (Ω.val * T.val * (5 / 4 * (sampleTolerance r f.val T.val / M))) := by
      unfold sampleTolerance sampleError
      ring
    rw [e] at h2
    linarith
  · intro w hw
    obtain ⟨i, hi, rfl⟩ := List.mem_map.mp hw
    rw [val_abs]
    exact ⟨abs_nonneg _, modulatedRate_le hΩ hT0 hsmall hm' hM hE hM0 (List.mem_range.mp hi)⟩
  · intro φ hφ
    obtain ⟨i, hi, rfl⟩ := List.mem_map.mp hφ
    dsimp only
    split
    · exact .inl val_lit_zero
    · exact .inr rfl

/-! ### A lost segment, in double precision -/

/-- `1 + 2⁻⁵²` and `3 + 2⁻⁵⁰`: the quotient is above 3 but rounds to 3 -/
noncomputable def lostMinimum : Fl Rounding.double := round _ (1 + 1 / 2 ^ 52)
/-- see `lostMinimum` -/
noncomputable def lostDuration : Fl Rounding.double := round _ (3 + 1 / 2 ^ 50)

theorem double_eq {m : ℕ} (hm : m ≤ 2 ^ 53) (j : ℤ) :
    Rounding.double.rnd (m * 2 ^ j) = m * 2 ^ j := by
  show Bits.rnd 53 _ = _
  rw [Bits.rnd_of_nonneg (by positivity)]
  exact Bits.roundPos_exact (by norm_num) hm j

theorem lostMinimum_val : lostMinimum.val = 1 + 1 / 2 ^ 52 := by
  have := double_eq (m := 2 ^ 52 + 1) (by norm_num) (-52)
  rw [show (((2 ^ 52 + 1 : ℕ) : ℝ) * 2 ^ (-52 : ℤ)) = 1 + 1 / 2 ^ 52 by norm_num] at this
  exact this

theorem lostDuration_val : lostDuration.val = 3 + 1 / 2 ^ 50 := by
  have := double_eq (m := 3 * 2 ^ 50 + 1) (by norm_num) (-50)
  rw [show (((3 * 2 ^ 50 + 1 : ℕ) : ℝ) * 2 ^ (-50 : ℤ)) = 3 + 1 / 2 ^ 50 by norm_num] at this
  exact this

theorem sqrt_two_pi_le : Real.sqrt (2 * Real.pi) ≤ 3 := by
  rw [Real.sqrt_le_left (by norm_num)]
  have := Real.pi_lt_d2; norm_num at this; linarith

theorem lost_count : roundedCount lostDuration lostMinimum = 3 := by
  have h : Rounding.double.rnd ((3 + 1 / 2 ^ 50) / (1 + 1 / 2 ^ 52)) = 3 := by
    show Bits.rnd 53 _ = 3
    rw [Bits.rnd_of_nonneg (by positivity)]
    have h := Bits.roundPos_scaled (p := 53) (y := (3 + 1 / 2 ^ 50) / (1 + 1 / 2 ^ 52) * 2 ^ 51)
      (j := -51) (k := 0) (by norm_num) (by norm_num)
    have e : Bits.nearest ((3 + 1 / 2 ^ 50) / (1 + 1 / 2 ^ 52) * 2 ^ 51 / 2 ^ 0) = 3 * 2 ^ 51 :=
      Bits.nearest_eq (by norm_num [abs_lt])
    rw [e] at h
    have e2 : ((3 + 1 / 2 ^ 50) / (1 + 1 / 2 ^ 52) * 2 ^ 51 * 2 ^ (-51 : ℤ) : ℝ) =
        (3 + 1 / 2 ^ 50) / (1 + 1 / 2 ^ 52) := by norm_num
    rw [e2] at h
    rw [h]
    norm_num
  unfold roundedCount
  rw [val_div, lostDuration_val, lostMinimum_val, h]
  norm_num

/-- **C85**, witness: in double precision the number of segments can be one less than the exact
quotient rounded up (the second alternative of `C85_segments` does occur). -/
theorem C85_lost_segment : ∃ (Ω d T f : Fl Rounding.double) (c : DrivenControl (Fl Rounding.double)),
    newModulatedGaussianControl Ω d T f = .ok c ∧ c.durations.length = 3 ∧
      ⌈T.val / d.val⌉₊ = 4 := by
  have h16 : (round Rounding.double 16).val = 16 := by simpa using double_nat (n := 16) (by norm_num)
  obtain ⟨m, m₀, h, -⟩ := gaussian_rounded_result (round Rounding.double 16) lostMinimum lostDuration
    (round Rounding.double 0)
  have hacc := (C85_accepts (round Rounding.double 16) lostMinimum lostDuration
    (round Rounding.double 0)).2.1
  rw [h16, lostMinimum_val, lostDuration_val, double_u] at hacc
  obtain ⟨c, hc⟩ := hacc (by norm_num) (by norm_num) (by norm_num) (by
    have h1 := sqrt_two_pi_le
    have h2 : Real.sqrt (2 * Real.pi) / ((3 + 1 / 2 ^ 50) / 10) ≤ 10 := by
      rw [div_le_iff₀ (by norm_num)]
      refine h1.trans ?_
      norm_num
    have h3 : 0 ≤ Real.sqrt (2 * Real.pi) / ((3 + 1 / 2 ^ 50) / 10) := by positivity
    nlinarith)
  refine ⟨_, _, _, _, c, hc, ?_, ?_⟩
  · obtain ⟨-, rfl⟩ := h.ok hc
    simp [roundedSigned, lost_count]
  · rw [lostDuration_val, lostMinimum_val, Nat.ceil_eq_iff (by norm_num)]
    norm_num

/-! ### The hypotheses can be met: double precision -/

/-- with maximum rate 16, minimum segment duration 1 and duration 2: two segments, and a modulation
with half a period in the duration -/
example : ∃ c c' : DrivenControl (Fl Rounding.double),
    newModulatedGaussianControl (round _ 16) (round _ 1) (round _ 2) (round _ 0) = .ok c ∧
    newModulatedGaussianControl (round _ 16) (round _ 1) (round _ 2) (round _ (1 / 2)) = .ok c' ∧
    c'.durations.length = 2 ∧
    IsSampleMax 2 2 (waveform 2 (1 / 2)) (Real.exp (-(25 / 8))) ∧
    2 * sampleTolerance Rounding.double (1 / 2) 2 ≤ Real.exp (-(25 / 8)) := by
  have h16 : (round Rounding.double 16).val = 16 := by simpa using double_nat (n := 16) (by norm_num)
  have h1 : (round Rounding.double 1).val = 1 := by simpa using double_nat (n := 1) (by norm_num)
  have h2 : (round Rounding.double 2).val = 2 := by simpa using double_nat (n := 2) (by norm_num)
  have hacc : ∀ f, ∃ c, newModulatedGaussianControl (round Rounding.double 16) (round _ 1) (round _ 2) f =
      .ok c := by
    intro f
    have hacc := (C85_accepts (round Rounding.double 16) (round _ 1) (round _ 2) f).2.1
    rw [h16, h1, h2, double_u] at hacc
    refine hacc (by norm_num) (by norm_num) (by norm_num) ?_
    have h1 := sqrt_two_pi_le
    have h2 : Real.sqrt (2 * Real.pi) / (2 / 10) ≤ 15 := by
      rw [div_le_iff₀ (by norm_num)]; linarith
    have h3 : 0 ≤ Real.sqrt (2 * Real.pi) / (2 / 10) := by positivity
    nlinarith
  obtain ⟨c, hc⟩ := hacc (round _ 0)
  obtain ⟨c', hc'⟩ := hacc (round _ (1 / 2))
  refine ⟨c, c', hc, hc', ?_, ?_, ?_⟩
  · obtain ⟨n, τ, -, h3, -, -, -, -, -, h4⟩ := C85_segments _ _ _ _ c' hc' (by
      rw [h1, h2, double_u]; norm_num)
    have h5 : n = 2 := by
      have e : ⌈(2 : ℝ) / 1⌉₊ = 2 := by norm_num
      rw [h1, h2, e, double_u] at h4
      rcases h4 with h | ⟨h, h'⟩
      · exact h
      · have : n = 1 := by omega
        rw [this] at h'
        norm_num at h'
    rw [h3, h5, List.length_replicate]
  · have w0 : waveform 2 (1 / 2) (sampleTime 2 2 0) = -Real.exp (-(25 / 8)) := by
      unfold waveform envelope sampleTime
      rw [show 2 * Real.pi * (1 / 2) * (((0 : ℕ) + 1 / 2 : ℝ) * (2 / (2 : ℕ)) - 2 / 2) = -(Real.pi / 2) by
        push_cast; ring, Real.sin_neg, Real.sin_pi_div_two]
      norm_num
    have w1 : waveform 2 (1 / 2) (sampleTime 2 2 1) = Real.exp (-(25 / 8)) := by
      unfold waveform envelope sampleTime
      rw [show 2 * Real.pi * (1 / 2) * (((1 : ℕ) + 1 / 2 : ℝ) * (2 / (2 : ℕ)) - 2 / 2) = Real.pi / 2 by
        push_cast; ring, Real.sin_pi_div_two]
      norm_num
    refine ⟨⟨1, by norm_num, w1⟩, fun i hi => ?_⟩
    have := Real.exp_pos (-(25 / 8))
    interval_cases i
    · rw [w0]; linarith
    · rw [w1]
  · unfold sampleTolerance
    rw [double_u]
    have h := Real.add_one_le_exp (-(25 / 8 : ℝ) / 4)
    have h3 : Real.exp (-(25 / 8)) = Real.exp (-(25 / 8 : ℝ) / 4) ^ 4 := by
      rw [← Real.exp_nat_mul]; norm_num
    rw [h3]
    have h4 : (7 / 32 : ℝ) ≤ Real.exp (-(25 / 8 : ℝ) / 4) := by linarith
    have h5 : (7 / 32 : ℝ) ^ 4 ≤ Real.exp (-(25 / 8 : ℝ) / 4) ^ 4 := by gcongr
    refine le_trans ?_ h5
    norm_num [abs_of_pos]

end OpenControls
