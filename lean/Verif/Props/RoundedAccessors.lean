import Verif.Proofs.RoundedReload
import Verif.Proofs.RoundingInst
import Verif.Props.Export

/-!
# C86: reading and exporting a control in floating-point arithmetic

`r : Rounding` is any floating-point arithmetic of `Verif/Rounding.lean`, `Fl r` are its numbers and `val` is the
real number a floating-point number stands for.  The same model of the code is run on `Fl r`; the results are
compared with exact arithmetic on the same control.
-/

namespace OpenControls

open Spec Fl PyFloat Py

open scoped Matrix.Norms.L2Operator

variable {r : Rounding}

/-- **C86** `times` never decreases; its `n`-th entry is the sum of the first `n` durations up to a relative error
of `3 n u`, `duration` is the sum of all durations up to a relative error of `2 n u`. -/
theorem C86_times (c : DrivenControl (Fl r)) (h : c.Constructed) :
    (c.times.Pairwise fun a b => a.val ≤ b.val) ∧
    (∀ n : ℕ, n ≤ c.numberOfSegments → n * r.u ≤ 1 / 100 → ∃ t, c.times[n]? = some t ∧
      |t.val - ((c.durations.take n).map val).sum| ≤ 3 * n * r.u * ((c.durations.take n).map val).sum) ∧
    (c.numberOfSegments * r.u ≤ 1 / 100 →
      |c.duration.val - (c.durations.map val).sum| ≤
        2 * c.numberOfSegments * r.u * (c.durations.map val).sum ∧
      ∀ t, c.times.getLast? = some t →
        |c.duration.val - t.val| ≤ 5 * c.numberOfSegments * r.u * (c.durations.map val).sum) := by
  have hpos := (constructed_rounded h).1
  have hlen := h.lengths.2.2.2
  have hu := r.u_nonneg
  have hsum0 : ∀ n, 0 ≤ ((c.durations.take n).map val).sum := by
    intro n
    apply List.sum_nonneg
    intro x hx
    obtain ⟨y, hy, rfl⟩ := List.mem_map.mp hx
    exact (hpos y (List.mem_of_mem_take hy)).le
  have htimes : ∀ n : ℕ, n ≤ c.numberOfSegments → n * r.u ≤ 1 / 100 → ∃ t, c.times[n]? = some t ∧
      |t.val - ((c.durations.take n).map val).sum| ≤
        3 * n * r.u * ((c.durations.take n).map val).sum := by
    intro n hn hnu
    obtain ⟨t, h1, h2⟩ := times_rounded c h n (by omega)
    refine ⟨t, h1, (h2.abs_error (by positivity) (by linarith)).trans ?_⟩
    rw [abs_of_nonneg (hsum0 n)]
    refine mul_le_mul_of_nonneg_right ?_ (hsum0 n)
    have : 0 ≤ (n : ℝ) * r.u := by positivity
    linarith
  refine ⟨times_mono_rounded c h, htimes, fun hn => ?_⟩
  have hfull : ((c.durations.take c.numberOfSegments).map val).sum = (c.durations.map val).sum := by
    rw [← hlen, List.take_length]
  have hdur : |c.duration.val - (c.durations.map val).sum| ≤
      2 * c.numberOfSegments * r.u * (c.durations.map val).sum := by
    have := r.sum_close (c.durations.map val) (by rw [List.length_map, hlen]; linarith)
    rw [List.length_map, hlen, List.map_congr_left (g := id), List.map_id] at this
    · exact this
    · intro x hx
      obtain ⟨y, hy, rfl⟩ := List.mem_map.mp hx
      simp [abs_of_pos (hpos y hy)]
  refine ⟨hdur, fun t ht => ?_⟩
  obtain ⟨t', h1, h2⟩ := htimes c.numberOfSegments le_rfl hn
  have hl : c.times.length = c.numberOfSegments + 1 := by
    simp [DrivenControl.times, npCumsum_length, hlen]
  rw [List.getLast?_eq_getElem?, hl, Nat.add_sub_cancel, h1] at ht
  cases ht
  rw [hfull] at h2
  have := abs_sub_le c.duration.val (c.durations.map val).sum t.val
  rw [abs_sub_comm (c.durations.map val).sum t.val] at this
  linarith

/-- **C86** Extrema are exact: each is an attained bound. -/
theorem C86_extrema (c : DrivenControl (Fl r)) (h : c.Constructed) (hn : 0 < c.numberOfSegments) :
    (∃ m, c.maximumRabiRate = .ok m ∧ m ∈ c.rabiRates ∧ ∀ x ∈ c.rabiRates, x.val ≤ m.val) ∧
    (∃ m, c.maximumDetuning = .ok m ∧ m ∈ c.detunings ∧ ∀ x ∈ c.detunings, x.val ≤ m.val) ∧
    (∃ m, c.maximumDuration = .ok m ∧ m ∈ c.durations ∧ ∀ x ∈ c.durations, x.val ≤ m.val) ∧
    (∃ m, c.minimumDuration = .ok m ∧ m ∈ c.durations ∧ ∀ x ∈ c.durations, m.val ≤ x.val) := by
  obtain ⟨h1, h2, h3, h4⟩ := h.lengths
  have ne : ∀ l : List (Fl r), l.length = c.numberOfSegments → l ≠ [] := by
    rintro l hl rfl; simp at hl; omega
  exact ⟨npAmax_rounded (ne _ h1), npAmax_rounded (ne _ h3), npAmax_rounded (ne _ h4),
    npAmin_rounded (ne _ h4)⟩

/-- **C86** The rotation angle of segment `n` is `√(Ω² + Δ²) t` up to a relative error of `16 u`; it vanishes
exactly for an idle segment. -/
theorem C86_angles (c : DrivenControl (Fl r)) (h : c.Constructed) (n : ℕ) (Ω Δ t : Fl r)
    (hΩ : c.rabiRates[n]? = some Ω) (hΔ : c.detunings[n]? = some Δ) (ht : c.durations[n]? = some t) :
    ∃ a, c.angles[n]? = some a ∧
      |a.val - Real.sqrt (Ω.val ^ 2 + Δ.val ^ 2) * t.val| ≤
        16 * r.u * (Real.sqrt (Ω.val ^ 2 + Δ.val ^ 2) * t.val) ∧
      (a.val = 0 ↔ Ω.val = 0 ∧ Δ.val = 0) := by
  obtain ⟨_, φ, _, _, _, hφ, _, _⟩ := h.segment
    (show n < c.numberOfSegments from (List.getElem?_eq_some_iff.mp hΩ).1)
  have hpos := (constructed_rounded h).1 t (List.mem_of_getElem? ht)
  have hrel := ((roundedLength_rel Ω φ Δ).mul (Rel.refl t.val)).rnd
  refine ⟨roundedLength Ω φ Δ * t, ?_, ?_, ?_⟩
  · simp [DrivenControl.angles, List.getElem?_zipWith, amplitudes_roundedLength c n Ω φ Δ hΩ hφ hΔ, ht]
  · have := hrel.small (K := 16) (by norm_num) (by norm_num) (by norm_num)
    rwa [abs_of_nonneg (a := Real.sqrt (Ω.val ^ 2 + Δ.val ^ 2) * t.val) (by positivity)] at this
  · rw [show (roundedLength Ω φ Δ * t).val = 0 ↔ _ from hrel.zero_iff, mul_eq_zero,
      or_iff_left hpos.ne', Real.sqrt_eq_zero (by positivity)]
    constructor
    · intro h
      have h1 := sq_nonneg Ω.val
      have h2 := sq_nonneg Δ.val
      exact ⟨by simpa using (show Ω.val ^ 2 = 0 by linarith),
        by simpa using (show Δ.val ^ 2 = 0 by linarith)⟩
    · rintro ⟨h1, h2⟩; simp [h1, h2]

/-- **C86** For a segment whose vector `(Ω cos φ, Ω sin φ, Δ)` is longer than `1.1e-8` or longer than `1.1e-20` of
the longest one, the direction is the unit vector up to a relative error of `24 u` per component, and its
squared length is 1 up to `47 u`.  Shorter vectors need not be normalised (`C06_not_unit_counterexample`). -/
theorem C86_directions (c : DrivenControl (Fl r)) (h : c.Constructed) (n : ℕ) (Ω φ Δ : Fl r)
    (hΩ : c.rabiRates[n]? = some Ω) (hφ : c.azimuthalAngles[n]? = some φ) (hΔ : c.detunings[n]? = some Δ)
    (habove : 11 / 10 / 10 ^ 8 < Real.sqrt (Ω.val ^ 2 + Δ.val ^ 2) ∨
      (0 < Real.sqrt (Ω.val ^ 2 + Δ.val ^ 2) ∧ ∀ (m : ℕ) (Ω' Δ' : Fl r), c.rabiRates[m]? = some Ω' →
        c.detunings[m]? = some Δ' → 11 / 10 / 10 ^ 20 * Real.sqrt (Ω'.val ^ 2 + Δ'.val ^ 2) ≤
          Real.sqrt (Ω.val ^ 2 + Δ.val ^ 2))) :
    ∃ ds nx ny nz, c.directions = .ok ds ∧ ds.length = c.numberOfSegments ∧ ds[n]? = some (nx, ny, nz) ∧
      |nx.val - Ω.val * Real.cos φ.val / Real.sqrt (Ω.val ^ 2 + Δ.val ^ 2)| ≤
        24 * r.u * |Ω.val * Real.cos φ.val / Real.sqrt (Ω.val ^ 2 + Δ.val ^ 2)| ∧
      |ny.val - Ω.val * Real.sin φ.val / Real.sqrt (Ω.val ^ 2 + Δ.val ^ 2)| ≤
        24 * r.u * |Ω.val * Real.sin φ.val / Real.sqrt (Ω.val ^ 2 + Δ.val ^ 2)| ∧
      |nz.val - Δ.val / Real.sqrt (Ω.val ^ 2 + Δ.val ^ 2)| ≤
        24 * r.u * |Δ.val / Real.sqrt (Ω.val ^ 2 + Δ.val ^ 2)| ∧
      |nx.val ^ 2 + ny.val ^ 2 + nz.val ^ 2 - 1| ≤ 47 * r.u := by
  obtain ⟨ds, nx, ny, nz, h1, h2, h3, h4, h5, h6⟩ := directions_rounded c h n Ω φ Δ hΩ hφ hΔ habove
  refine ⟨ds, nx, ny, nz, h1, h2, h3, h4.small (by norm_num) (by norm_num) (by norm_num),
    h5.small (by norm_num) (by norm_num) (by norm_num), h6.small (by norm_num) (by norm_num) (by norm_num), ?_⟩
  have hpos : 0 < Real.sqrt (Ω.val ^ 2 + Δ.val ^ 2) := by
    rcases habove with h | h
    · exact lt_trans (by norm_num) h
    · exact h.1
  have h := (h4.sq.add h5.sq (sq_nonneg _) (sq_nonneg _)).add h6.sq
    (add_nonneg (sq_nonneg _) (sq_nonneg _)) (sq_nonneg _)
  have e : (Ω.val * Real.cos φ.val / Real.sqrt (Ω.val ^ 2 + Δ.val ^ 2)) ^ 2 +
      (Ω.val * Real.sin φ.val / Real.sqrt (Ω.val ^ 2 + Δ.val ^ 2)) ^ 2 +
      (Δ.val / Real.sqrt (Ω.val ^ 2 + Δ.val ^ 2)) ^ 2 = 1 := by
    rw [div_pow, div_pow, div_pow, ← add_div, ← add_div, Real.sq_sqrt (by positivity), div_eq_one_iff_eq]
    · linear_combination Ω.val ^ 2 * Real.cos_sq_add_sin_sq φ.val
    · exact (Real.sqrt_pos.mp hpos).ne'
  rw [e] at h
  have := h.small (K := 47) (by norm_num) (by norm_num) (by norm_num)
  simpa using this

/-- **C86** The computed angle and direction of such a segment generate its evolution up to an error of
`20 u` times the rotation angle. -/
theorem C86_angles_directions_evolution (c : DrivenControl (Fl r)) (h : c.Constructed) (n : ℕ)
    (Ω φ Δ t : Fl r) (hΩ : c.rabiRates[n]? = some Ω) (hφ : c.azimuthalAngles[n]? = some φ)
    (hΔ : c.detunings[n]? = some Δ) (ht : c.durations[n]? = some t)
    (habove : 11 / 10 / 10 ^ 8 < Real.sqrt (Ω.val ^ 2 + Δ.val ^ 2) ∨
      (0 < Real.sqrt (Ω.val ^ 2 + Δ.val ^ 2) ∧ ∀ (m : ℕ) (Ω' Δ' : Fl r), c.rabiRates[m]? = some Ω' →
        c.detunings[m]? = some Δ' → 11 / 10 / 10 ^ 20 * Real.sqrt (Ω'.val ^ 2 + Δ'.val ^ 2) ≤
          Real.sqrt (Ω.val ^ 2 + Δ.val ^ 2))) :
    ∃ a ds nx ny nz, c.angles[n]? = some a ∧ c.directions = .ok ds ∧ ds[n]? = some (nx, ny, nz) ∧
      ‖NormedSpace.exp ((-Complex.I * ((a.val / 2 : ℝ) : ℂ)) •
          ((nx.val : ℂ) • σx + (ny.val : ℂ) • σy + (nz.val : ℂ) • σz)) -
        segmentUnitary Ω.val φ.val Δ.val t.val‖ ≤
          20 * r.u * (Real.sqrt (Ω.val ^ 2 + Δ.val ^ 2) * t.val) := by
  obtain ⟨ds, nx, ny, nz, h1, h2, h3, h4, h5, h6⟩ := directions_rounded c h n Ω φ Δ hΩ hφ hΔ habove
  have hpos : 0 < Real.sqrt (Ω.val ^ 2 + Δ.val ^ 2) := by
    rcases habove with h | h
    · exact lt_trans (by norm_num) h
    · exact h.1
  have ht0 := (constructed_rounded h).1 t (List.mem_of_getElem? ht)
  have hrel := ((roundedLength_rel Ω φ Δ).mul (Rel.refl t.val)).rnd
  refine ⟨roundedLength Ω φ Δ * t, ds, nx, ny, nz, ?_, h1, h3, ?_⟩
  · simp [DrivenControl.angles, List.getElem?_zipWith, amplitudes_roundedLength c n Ω φ Δ hΩ hφ hΔ, ht]
  have comp : ∀ {a x : ℝ}, Rel r (23 / 2) a (x / Real.sqrt (Ω.val ^ 2 + Δ.val ^ 2)) →
      |a * (roundedLength Ω φ Δ * t).val - x * t.val| ≤ 39 * r.u * |x * t.val| := by
    intro a x hax
    have h := hax.mul hrel
    rw [show x / Real.sqrt (Ω.val ^ 2 + Δ.val ^ 2) * (Real.sqrt (Ω.val ^ 2 + Δ.val ^ 2) * t.val) =
      x * t.val by field_simp] at h
    exact h.small (by norm_num) (by norm_num) (by norm_num)
  have key := field_rel (mul_nonneg (by norm_num) r.u_nonneg) (comp h4) (comp h5) (comp h6)
  rw [← field_segment] at key
  have e : ((-Complex.I * (((roundedLength Ω φ Δ * t).val / 2 : ℝ) : ℂ)) •
          ((nx.val : ℂ) • σx + (ny.val : ℂ) • σy + (nz.val : ℂ) • σz)) =
      (-Complex.I * ((roundedLength Ω φ Δ * t).val : ℂ)) •
        ((1 / 2 : ℂ) • ((nx.val : ℂ) • σx + (ny.val : ℂ) • σy + (nz.val : ℂ) • σz)) := by
    rw [smul_smul]
    congr 1
    push_cast; ring
  rw [e]
  refine key.trans ?_
  have e2 : (Ω.val * Real.cos φ.val) ^ 2 + (Ω.val * Real.sin φ.val) ^ 2 + Δ.val ^ 2 =
      Ω.val ^ 2 + Δ.val ^ 2 := by linear_combination Ω.val ^ 2 * Real.cos_sq_add_sin_sq φ.val
  rw [e2, abs_of_pos ht0]
  refine mul_le_mul_of_nonneg_right ?_ (by positivity)
  have := r.u_nonneg
  linarith

/-- **C86** Dimensionless Rabi rates: every exported value lies in `[0, 1]`, the largest is exactly 1, and
multiplying by the maximum gives the Rabi rate up to a relative error of `3 u`; every exported Cartesian
amplitude lies in `[-1 - 11 u, 1 + 11 u]` and multiplying by the maximum gives the amplitude up to a relative error
of `11 u`.  (In files and plot data alike.) -/
theorem C86_dimensionless (c : DrivenControl (Fl r)) (h : c.Constructed)
    (hdrive : ∃ x ∈ c.rabiRates, 0 < x.val) :
    ∃ m, c.maximumRabiRate = .ok m ∧ 0 < m.val ∧
    (∃ p vs, c.exportPlot "cylindrical" true = .ok p ∧ p.rabiRate = some vs ∧
      (∀ (n : ℕ) (Ω φ τ : Fl r), c.rabiRates[n]? = some Ω → c.azimuthalAngles[n]? = some φ →
        c.durations[n]? = some τ →
        ∃ v : Fl r, vs[n]? = some ⟨cis v φ, τ⟩ ∧ 0 ≤ v.val ∧ v.val ≤ 1 ∧ (Ω = m → v.val = 1) ∧
          |v.val * m.val - Ω.val| ≤ 3 * r.u * Ω.val)) ∧
    (∃ p xs ys, c.exportPlot "cartesian" true = .ok p ∧ p.xAmplitude = some xs ∧ p.yAmplitude = some ys ∧
      (∀ (n : ℕ) (Ω φ τ : Fl r), c.rabiRates[n]? = some Ω → c.azimuthalAngles[n]? = some φ →
        c.durations[n]? = some τ →
        ∃ x y : Fl r, xs[n]? = some ⟨x, τ⟩ ∧ ys[n]? = some ⟨y, τ⟩ ∧
          |x.val| ≤ 1 + 11 * r.u ∧ |y.val| ≤ 1 + 11 * r.u ∧
          |x.val * m.val - Ω.val * Real.cos φ.val| ≤ 11 * r.u * |Ω.val * Real.cos φ.val| ∧
          |y.val * m.val - Ω.val * Real.sin φ.val| ≤ 11 * r.u * |Ω.val * Real.sin φ.val|)) := by
  obtain ⟨x0, hx0, hx0'⟩ := hdrive
  obtain ⟨m, hm, hmem, hmax⟩ := npAmax_rounded (l := c.rabiRates) (by rintro he; simp [he] at hx0)
  have hm0 : 0 < m.val := lt_of_lt_of_le hx0' (hmax x0 hx0)
  have hnn := (constructed_rounded h).2
  have bound : ∀ {a b : ℝ} (Ω : Fl r) (_ : Ω ∈ c.rabiRates) (_ : |b| ≤ 1), Rel r 5 a (Ω.val * b / m.val) →
      |a| ≤ 1 + 11 * r.u ∧ |a * m.val - Ω.val * b| ≤ 11 * r.u * |Ω.val * b| := by
    intro a b Ω hΩ hb hrel
    have h1 := hrel.small (K := 11) (by norm_num) (by norm_num) (by norm_num)
    have h2 : |Ω.val * b / m.val| ≤ 1 := by
      rw [abs_div, abs_mul, abs_of_pos hm0, abs_of_nonneg (hnn Ω hΩ), div_le_one hm0]
      calc Ω.val * |b| ≤ Ω.val * 1 := mul_le_mul_of_nonneg_left hb (hnn Ω hΩ)
        _ ≤ m.val := by rw [mul_one]; exact hmax Ω hΩ
    have hu := r.u_nonneg
    constructor
    · have h3 := abs_sub_abs_le_abs_sub a (Ω.val * b / m.val)
      have h4 := mul_le_mul_of_nonneg_left h2 (mul_nonneg (by norm_num : (0 : ℝ) ≤ 11) hu)
      linarith
    · have h3 := (hrel.mul (Rel.refl m.val)).small (K := 11) (by norm_num) (by norm_num) (by norm_num)
      rwa [div_mul_cancel₀ _ hm0.ne'] at h3
  have hcyl : ∃ p, c.exportPlot "cylindrical" true = .ok p ∧ p.rabiRate = some (List.zipWith
      (fun v t => ⟨v, t⟩) (List.zipWith (fun r theta => cis r theta) (c.rabiRates.map fun r => r / m)
        c.azimuthalAngles) c.durations) :=
    ⟨_, by simp [DrivenControl.exportPlot, checkArguments, coordinateSystems,
      DrivenControl.maximumRabiRate, hm]; rfl, rfl⟩
  have hcart : ∃ p, c.exportPlot "cartesian" true = .ok p ∧
      p.xAmplitude = some (List.zipWith (fun v t => ⟨v, t⟩) (c.amplitudeX.map fun x => x / m) c.durations) ∧
      p.yAmplitude = some (List.zipWith (fun v t => ⟨v, t⟩) (c.amplitudeY.map fun x => x / m) c.durations) :=
    ⟨_, by simp [DrivenControl.exportPlot, checkArguments, coordinateSystems,
      DrivenControl.maximumRabiRate, hm]; rfl, rfl, rfl⟩
  obtain ⟨p, hp, hp'⟩ := hcyl
  obtain ⟨q, hq, hq', hq''⟩ := hcart
  refine ⟨m, hm, hm0, ⟨p, _, hp, hp', ?_⟩, ⟨q, _, _, hq, hq', hq'', ?_⟩⟩
  · intro n Ω φ τ hΩ hφ hτ
    have hΩm := List.mem_of_getElem? hΩ
    refine ⟨Ω / m, by simp [List.getElem?_zipWith, hΩ, hφ, hτ], ?_, ?_, ?_, ?_⟩
    · exact r.rnd_nonneg (div_nonneg (hnn Ω hΩm) hm0.le)
    · have := r.mono ((div_le_one hm0).mpr (hmax Ω hΩm))
      rwa [r.rnd_one] at this
    · rintro rfl
      show r.rnd (Ω.val / Ω.val) = 1
      rw [div_self hm0.ne', r.rnd_one]
    · have h3 := ((((Rel.refl (r := r) Ω.val).div (Rel.refl m.val)).rnd).mul (Rel.refl m.val)).small
        (K := 3) (by norm_num) (by norm_num) (by norm_num)
      rwa [div_mul_cancel₀ _ hm0.ne', abs_of_nonneg (hnn Ω hΩm)] at h3
  · intro n Ω φ τ hΩ hφ hτ
    have hΩm := List.mem_of_getElem? hΩ
    obtain ⟨b1, b2⟩ := bound Ω hΩm (Real.abs_cos_le_one φ.val)
      (((amplitudeX_rel Ω φ).div (Rel.refl m.val)).rnd.mono (by norm_num))
    obtain ⟨b3, b4⟩ := bound Ω hΩm (Real.abs_sin_le_one φ.val)
      (((amplitudeY_rel Ω φ).div (Rel.refl m.val)).rnd.mono (by norm_num))
    exact ⟨Ω * PyFloat.cos φ / m, Ω * PyFloat.sin φ / m,
      by simp [List.getElem?_zipWith, DrivenControl.amplitudeX, hΩ, hφ, hτ],
      by simp [List.getElem?_zipWith, DrivenControl.amplitudeY, hΩ, hφ, hτ], b1, b3, b2, b4⟩

/-- **C86** A control with drive written to a CSV file in cylindrical coordinates and read back: the columns make a
valid control whose evolution differs by at most `3 u` times the sum of the rotation angles `Ω τ`. -/
theorem C86_csv_cylindrical (c : DrivenControl (Fl r)) (h : c.Constructed)
    (hdrive : ∃ x ∈ c.rabiRates, 0 < x.val) (fs : FileSystem (Fl r)) (filename nm : String)
    (hname : c.name = some nm) :
    ∃ fs' header rows c',
      c.exportToFile fs filename "Q-CTRL expanded" "CSV" "cylindrical" = (.ok (), fs') ∧
      fs' filename = some (.csv header rows) ∧
      DrivenControl.new (csvColumn header rows "duration")
        (some (List.zipWith (fun m v => m * v) (csvColumn header rows "maximum_rabi_rate")
          (csvColumn header rows "rabi_rates")))
        (some (csvColumn header rows "azimuthal_angles")) (some (csvColumn header rows "detuning"))
        (some nm) = .ok c' ∧
      ‖evolution (c'.map val) - evolution (c.map val)‖ ≤ 3 * r.u * totalRotation (c.map val) := by
  obtain ⟨x0, hx0, hx0'⟩ := hdrive
  obtain ⟨m, hm, hmem, hmax⟩ := npAmax_rounded (l := c.rabiRates) (by rintro he; simp [he] at hx0)
  have hm0 : 0 < m.val := lt_of_lt_of_le hx0' (hmax x0 hx0)
  obtain ⟨l1, l2, l3, l4⟩ := h.lengths
  obtain ⟨fs', header, rows, h1, h2, -, h4, h5⟩ := C10_csv_cylindrical c h fs filename nm m hname hm
  obtain ⟨c', h6, h7⟩ := reload_cylindrical c h hm0 (some nm)
  refine ⟨fs', header, rows, c', h1, h2, ?_, h7⟩
  have row : ∀ (i : ℕ) row, rows[i]? = some row → ∃ Ω φ Δ t : Fl r, c.rabiRates[i]? = some Ω ∧
      c.azimuthalAngles[i]? = some φ ∧ c.detunings[i]? = some Δ ∧ c.durations[i]? = some t ∧
      i < c.numberOfSegments ∧
      cell header row "rabi_rates" = some (Ω / m) ∧ cell header row "azimuthal_angles" = some φ ∧
      cell header row "detuning" = some Δ ∧ cell header row "duration" = some t ∧
      cell header row "maximum_rabi_rate" = some m := by
    intro i row hrow
    have hi : i < c.numberOfSegments := by
      have := (List.getElem?_eq_some_iff.mp hrow).1
      omega
    obtain ⟨Ω, φ, Δ, t, e1, e2, e3, e4⟩ := h.segment hi
    obtain ⟨row', e5, -, e6⟩ := h5 i Ω φ Δ t e1 e2 e3 e4
    rw [hrow] at e5
    cases e5
    exact ⟨Ω, φ, Δ, t, e1, e2, e3, e4, hi, e6⟩
  have c1 : csvColumn header rows "duration" = c.durations := csvColumn_eq (by omega) fun i row' hr => by
    obtain ⟨Ω, φ, Δ, t, e1, e2, e3, e4, hi, f1, f2, f3, f4, f5⟩ := row i row' hr
    rw [f4, e4]
  have c2 : csvColumn header rows "azimuthal_angles" = c.azimuthalAngles :=
    csvColumn_eq (by omega) fun i row' hr => by
      obtain ⟨Ω, φ, Δ, t, e1, e2, e3, e4, hi, f1, f2, f3, f4, f5⟩ := row i row' hr
      rw [f2, e2]
  have c3 : csvColumn header rows "detuning" = c.detunings := csvColumn_eq (by omega) fun i row' hr => by
    obtain ⟨Ω, φ, Δ, t, e1, e2, e3, e4, hi, f1, f2, f3, f4, f5⟩ := row i row' hr
    rw [f3, e3]
  have c4 : csvColumn header rows "rabi_rates" = c.rabiRates.map (· / m) :=
    csvColumn_eq (by rw [List.length_map]; omega) fun i row' hr => by
      obtain ⟨Ω, φ, Δ, t, e1, e2, e3, e4, hi, f1, f2, f3, f4, f5⟩ := row i row' hr
      rw [f1, List.getElem?_map, e1]; rfl
  have c5 : csvColumn header rows "maximum_rabi_rate" = List.replicate c.numberOfSegments m :=
    csvColumn_eq (by rw [List.length_replicate]; omega) fun i row' hr => by
      obtain ⟨Ω, φ, Δ, t, e1, e2, e3, e4, hi, f1, f2, f3, f4, f5⟩ := row i row' hr
      rw [f5, List.getElem?_replicate, if_pos hi]
  rw [c1, c2, c3, c4, c5, zipWith_replicate_mul m (by rw [List.length_map, l1])]
  exact h6

/-- **C86** The same in Cartesian coordinates: the Hamiltonian with the amplitudes read back, multiplied by the
maximum, generates the evolution up to `7 u` times the sum of the rotation angles. -/
theorem C86_csv_cartesian (c : DrivenControl (Fl r)) (h : c.Constructed)
    (hdrive : ∃ x ∈ c.rabiRates, 0 < x.val) (fs : FileSystem (Fl r)) (filename nm : String)
    (hname : c.name = some nm) :
    ∃ fs' header rows,
      c.exportToFile fs filename "Q-CTRL expanded" "CSV" "cartesian" = (.ok (), fs') ∧
      fs' filename = some (.csv header rows) ∧
      ‖cartesianEvolution (cartesianSegments
          ((List.zipWith (fun m v => m * v) (csvColumn header rows "maximum_rabi_rate")
            (csvColumn header rows "amplitude_x")).map val)
          ((List.zipWith (fun m v => m * v) (csvColumn header rows "maximum_rabi_rate")
            (csvColumn header rows "amplitude_y")).map val)
          ((csvColumn header rows "detuning").map val) ((csvColumn header rows "duration").map val)) -
        evolution (c.map val)‖ ≤ 7 * r.u * totalRotation (c.map val) := by
  obtain ⟨x0, hx0, hx0'⟩ := hdrive
  obtain ⟨m, hm, hmem, hmax⟩ := npAmax_rounded (l := c.rabiRates) (by rintro he; simp [he] at hx0)
  have hm0 : 0 < m.val := lt_of_lt_of_le hx0' (hmax x0 hx0)
  obtain ⟨l1, l2, l3, l4⟩ := h.lengths
  obtain ⟨fs', header, rows, h1, h2, -, h4, h5⟩ := C10_csv_cartesian c h fs filename nm m hname hm
  refine ⟨fs', header, rows, h1, h2, ?_⟩
  have row : ∀ (i : ℕ) row, rows[i]? = some row → ∃ Ω φ Δ t : Fl r, c.rabiRates[i]? = some Ω ∧
      c.azimuthalAngles[i]? = some φ ∧ c.detunings[i]? = some Δ ∧ c.durations[i]? = some t ∧
      i < c.numberOfSegments ∧
      cell header row "amplitude_x" = some (Ω * PyFloat.cos φ / m) ∧
      cell header row "amplitude_y" = some (Ω * PyFloat.sin φ / m) ∧
      cell header row "detuning" = some Δ ∧ cell header row "duration" = some t ∧
      cell header row "maximum_rabi_rate" = some m := by
    intro i row hrow
    have hi : i < c.numberOfSegments := by
      have := (List.getElem?_eq_some_iff.mp hrow).1
      omega
    obtain ⟨Ω, φ, Δ, t, e1, e2, e3, e4⟩ := h.segment hi
    obtain ⟨row', e5, -, e6⟩ := h5 i Ω φ Δ t e1 e2 e3 e4
    rw [hrow] at e5
    cases e5
    exact ⟨Ω, φ, Δ, t, e1, e2, e3, e4, hi, e6⟩
  have lx : c.amplitudeX.length = c.numberOfSegments := by simp [DrivenControl.amplitudeX, l1, l2]
  have ly : c.amplitudeY.length = c.numberOfSegments := by simp [DrivenControl.amplitudeY, l1, l2]
  have c1 : csvColumn header rows "duration" = c.durations := csvColumn_eq (by omega) fun i row' hr => by
    obtain ⟨Ω, φ, Δ, t, e1, e2, e3, e4, hi, f1, f2, f3, f4, f5⟩ := row i row' hr
    rw [f4, e4]
  have c3 : csvColumn header rows "detuning" = c.detunings := csvColumn_eq (by omega) fun i row' hr => by
    obtain ⟨Ω, φ, Δ, t, e1, e2, e3, e4, hi, f1, f2, f3, f4, f5⟩ := row i row' hr
    rw [f3, e3]
  have c2 : csvColumn header rows "amplitude_x" = c.amplitudeX.map (· / m) :=
    csvColumn_eq (by rw [List.length_map]; omega) fun i row' hr => by
      obtain ⟨Ω, φ, Δ, t, e1, e2, e3, e4, hi, f1, f2, f3, f4, f5⟩ := row i row' hr
      simp [f1, DrivenControl.amplitudeX, List.getElem?_zipWith, e1, e2]
  have c4 : csvColumn header rows "amplitude_y" = c.amplitudeY.map (· / m) :=
    csvColumn_eq (by rw [List.length_map]; omega) fun i row' hr => by
      obtain ⟨Ω, φ, Δ, t, e1, e2, e3, e4, hi, f1, f2, f3, f4, f5⟩ := row i row' hr
      simp [f2, DrivenControl.amplitudeY, List.getElem?_zipWith, e1, e2]
  have c5 : csvColumn header rows "maximum_rabi_rate" = List.replicate c.numberOfSegments m :=
    csvColumn_eq (by rw [List.length_replicate]; omega) fun i row' hr => by
      obtain ⟨Ω, φ, Δ, t, e1, e2, e3, e4, hi, f1, f2, f3, f4, f5⟩ := row i row' hr
      rw [f5, List.getElem?_replicate, if_pos hi]
  rw [c1, c2, c3, c4, c5, zipWith_replicate_mul m (by rw [List.length_map, lx]),
    zipWith_replicate_mul m (by rw [List.length_map, ly])]
  exact reload_cartesian c h hm0

/-- **C86** The same for a JSON file; this format also holds controls without a name. -/
theorem C86_json_cylindrical (c : DrivenControl (Fl r)) (h : c.Constructed)
    (hdrive : ∃ x ∈ c.rabiRates, 0 < x.val) (fs : FileSystem (Fl r)) (filename : String) :
    ∃ fs' object m vs φs Δs τs c',
      c.exportToFile fs filename "Q-CTRL expanded" "JSON" "cylindrical" = (.ok (), fs') ∧
      fs' filename = some (.json object) ∧
      field object "maximum_rabi_rate" = some (.num m) ∧ field object "rabi_rates" = some (.arr vs) ∧
      field object "azimuthal_angles" = some (.arr φs) ∧ field object "detuning" = some (.arr Δs) ∧
      field object "duration" = some (.arr τs) ∧
      DrivenControl.new τs (some (vs.map (m * ·))) (some φs) (some Δs) c.name = .ok c' ∧
      ‖evolution (c'.map val) - evolution (c.map val)‖ ≤ 3 * r.u * totalRotation (c.map val) := by
  obtain ⟨x0, hx0, hx0'⟩ := hdrive
  obtain ⟨m, hm, hmem, hmax⟩ := npAmax_rounded (l := c.rabiRates) (by rintro he; simp [he] at hx0)
  have hm0 : 0 < m.val := lt_of_lt_of_le hx0' (hmax x0 hx0)
  obtain ⟨fs', object, h1, h2, -, h4, h5, h6, -, h8, -⟩ :=
    C12_json c fs filename "cylindrical" m hm (Or.inr rfl)
  obtain ⟨h9, h10, -⟩ := h8 rfl
  obtain ⟨c', h11, h12⟩ := reload_cylindrical c h hm0 c.name
  exact ⟨fs', object, m, _, _, _, _, c', h1, h2, h4, h9, h10, h5, h6, h11, h12⟩

/-- **C86** A control with drive written to a JSON file in Cartesian coordinates: the Hamiltonian with the amplitudes
read back, multiplied by the maximum, generates the evolution up to `7 u` times the sum of the rotation angles. -/
theorem C86_json_cartesian (c : DrivenControl (Fl r)) (h : c.Constructed)
    (hdrive : ∃ x ∈ c.rabiRates, 0 < x.val) (fs : FileSystem (Fl r)) (filename : String) :
    ∃ fs' object m xs ys Δs τs,
      c.exportToFile fs filename "Q-CTRL expanded" "JSON" "cartesian" = (.ok (), fs') ∧
      fs' filename = some (.json object) ∧
      field object "maximum_rabi_rate" = some (.num m) ∧ field object "amplitude_x" = some (.arr xs) ∧
      field object "amplitude_y" = some (.arr ys) ∧ field object "detuning" = some (.arr Δs) ∧
      field object "duration" = some (.arr τs) ∧
      ‖cartesianEvolution (cartesianSegments ((xs.map (m * ·)).map val) ((ys.map (m * ·)).map val)
          (Δs.map val) (τs.map val)) - evolution (c.map val)‖ ≤ 7 * r.u * totalRotation (c.map val) := by
  obtain ⟨x0, hx0, hx0'⟩ := hdrive
  obtain ⟨m, hm, hmem, hmax⟩ := npAmax_rounded (l := c.rabiRates) (by rintro he; simp [he] at hx0)
  have hm0 : 0 < m.val := lt_of_lt_of_le hx0' (hmax x0 hx0)
  obtain ⟨fs', object, h1, h2, -, h4, h5, h6, -, -, h8⟩ :=
    C12_json c fs filename "cartesian" m hm (Or.inl rfl)
  obtain ⟨h9, h10, -⟩ := h8 rfl
  exact ⟨fs', object, m, _, _, _, _, h1, h2, h4, h9, h10, h5, h6, reload_cartesian c h hm0⟩

/-- **C86** A short segment can be lost in `times`: in double precision the segments `1` and `2⁻⁶⁰` give the times
`0, 1, 1`, although both durations are positive. -/
theorem C86_time_lost :
    ∃ c : DrivenControl (Fl Rounding.double), c.Constructed ∧ c.durations.map val = [1, 1 / 2 ^ 60] ∧
      c.times.map val = [0, 1, 1] := by
  have h1 : Rounding.double.rnd (1 / 2 ^ 60) = 1 / 2 ^ 60 := by
    rw [Rounding.rnd_div_pow, Rounding.rnd_one]
  have h2 : Rounding.double.rnd (1 + 1 / 2 ^ 60) = 1 := by
    show Bits.rnd 53 _ = 1
    rw [Bits.rnd_of_nonneg (by positivity)]
    have h := Bits.roundPos_scaled (p := 53) (y := (1 + 1 / 2 ^ 60) * 2 ^ 52) (j := -52) (k := 0)
      (by norm_num) (by norm_num)
    rw [show (1 + 1 / 2 ^ 60 : ℝ) * 2 ^ 52 * 2 ^ (-52 : ℤ) = 1 + 1 / 2 ^ 60 by norm_num] at h
    rw [h]
    have h3 : Bits.nearest ((1 + 1 / 2 ^ 60 : ℝ) * 2 ^ 52 / 2 ^ 0) = 2 ^ 52 := by
      apply Bits.nearest_eq
      rw [abs_lt]; constructor <;> norm_num
    rw [h3]; norm_num
  let a : Fl Rounding.double := round _ 1
  let b : Fl Rounding.double := round _ (1 / 2 ^ 60)
  have ha : a.val = 1 := Rounding.double.rnd_one
  have hb : b.val = 1 / 2 ^ 60 := h1
  refine ⟨⟨[lit 0, lit 0], [lit 0, lit 0], [lit 0, lit 0], [a, b], none⟩,
    ⟨[a, b], none, none, none, none, ?_⟩, by simp [ha, hb], ?_⟩
  · rw [DrivenControl.new_eq, if_pos, if_pos, if_pos]
    · rfl
    · simp
    · simp
    · simp [ha, hb]
  · rw [one_div] at h2
    simp [DrivenControl.times, npCumsum, cumsumFrom, ha, hb, h2]

/-- The hypotheses are met: a control with two driven segments, one of them detuned. -/
example : ∃ c : DrivenControl (Fl r), c.Constructed ∧ (∃ x ∈ c.rabiRates, 0 < x.val) ∧
    c.name = some "two" ∧ 0 < c.numberOfSegments ∧
    (c.rabiRates[1]? = some (lit 2 : Fl r) ∧ c.detunings[1]? = some (lit 1 : Fl r)) ∧
    (11 / 10 / 10 ^ 8 : ℝ) < Real.sqrt ((lit 2 : Fl r).val ^ 2 + (lit 1 : Fl r).val ^ 2) := by
  have h2 : (lit 2 : Fl r).val = 2 := val_lit_two
  have h1 : (lit 1 : Fl r).val = 1 := by simp
  refine ⟨⟨[lit 1, lit 2], [lit 0, lit 1], [lit 0, lit 1], [lit 1, lit 1], some "two"⟩,
    ⟨[lit 1, lit 1], some [lit 1, lit 2], some [lit 0, lit 1], some [lit 0, lit 1], some "two", ?_⟩,
    ⟨lit 1, by simp, by rw [h1]; norm_num⟩, rfl, by simp [DrivenControl.numberOfSegments],
    by simp, ?_⟩
  · apply new_of_rounded
    · simp
    · simp
    · simp
    · simp
    · simp [h2]
  · rw [h2, h1]
    refine lt_of_lt_of_le (b := 1) (by norm_num) ?_
    rw [Real.one_le_sqrt]; norm_num

end OpenControls
