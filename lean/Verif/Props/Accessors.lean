import Verif.Proofs.Control
import Verif.Proofs.Pauli
import Mathlib.Tactic.Positivity

/-!
# C03–C07: what the accessors of a control report

Exact arithmetic unless said otherwise.  `c.Constructed` says `c` came out of the constructor.
-/

namespace OpenControls

set_option linter.unusedSectionVars false

open PyFloat Spec

/-- **C03** (any arithmetic) `times` has one entry more than there are segments and starts at 0;
every later entry adds the segment's duration to its predecessor (the first one is the first
duration itself, as `np.cumsum` does not add to 0). -/
theorem C03_times_any {α : Type} [Add α] [Sub α] [Mul α] [Div α] [Neg α] [PyFloat α]
    (c : DrivenControl α) (h : c.Constructed) :
    c.times.length = c.numberOfSegments + 1 ∧ c.times[0]? = some (lit 0) ∧
    c.times[1]? = c.durations[0]? ∧
    ∀ n t t' d, c.times[n + 1]? = some t → c.times[n + 2]? = some t' →
      c.durations[n + 1]? = some d → t' = t + d := by
  have hl := h.lengths.2.2.2
  refine ⟨by simp [DrivenControl.times, npCumsum_length, hl], rfl, ?_, ?_⟩
  · unfold DrivenControl.times
    cases c.durations <;> rfl
  · intro n t t' d ht ht' hd
    unfold DrivenControl.times at ht ht'
    cases hc : c.durations with
    | nil => simp [hc] at hd
    | cons x xs =>
      simp only [hc, Py.npCumsum, List.getElem?_cons_succ] at ht ht' hd
      exact cumsumFrom_step x xs n d t t' hd ht ht'

/-- **C03** `times` has `number_of_segments + 1` entries, starts at 0, increases strictly, its `n`-th
difference is `durations[n]`, its last entry is `duration`; the `n`-th entry is the time elapsed
before segment `n`. -/
theorem C03_times (c : DrivenControl ℝ) (h : c.Constructed) :
    c.times.length = c.numberOfSegments + 1 ∧
    c.times[0]? = some 0 ∧
    c.times.Pairwise (· < ·) ∧
    (∀ (n : ℕ) (t t' d : ℝ), c.times[n]? = some t → c.times[n + 1]? = some t' → c.durations[n]? = some d →
      t' - t = d) ∧
    c.times.getLast? = some c.duration ∧
    (∀ n, n ≤ c.numberOfSegments → c.times[n]? = some ((c.durations.take n).sum)) := by
  have hl := h.lengths.2.2.2
  have hlen := (C03_times_any c h).1
  have hpos := ((DrivenControl.constructed_iff c).mp h).1
  have hget : ∀ n, n ≤ c.numberOfSegments → c.times[n]? = some ((c.durations.take n).sum) :=
    fun n hn => times_getElem? c n (by omega)
  refine ⟨hlen, by simpa using hget 0 (Nat.zero_le _), ?_, ?_, ?_, hget⟩
  · rw [List.pairwise_iff_getElem]
    intro i j hi hj hij
    have h1 := hget i (by omega)
    have h2 := hget j (by omega)
    rw [List.getElem?_eq_getElem hi, Option.some.injEq] at h1
    rw [List.getElem?_eq_getElem hj, Option.some.injEq] at h2
    rw [h1, h2]
    obtain ⟨k, rfl⟩ : ∃ k, j = i + (k + 1) := ⟨j - i - 1, by omega⟩
    rw [List.take_add, List.sum_append, lt_add_iff_pos_right]
    apply List.sum_pos
    · intro x hx
      exact hpos x (List.mem_of_mem_drop (List.mem_of_mem_take hx))
    · intro he
      have := congrArg List.length he
      simp at this
      omega
  · intro n t t' d ht ht' hd
    have hn : n < c.durations.length := (List.getElem?_eq_some_iff.mp hd).1
    rw [hget n (by omega), Option.some.injEq] at ht
    rw [hget (n + 1) (by omega), Option.some.injEq] at ht'
    rw [List.getElem?_eq_getElem hn, Option.some.injEq] at hd
    rw [← ht, ← ht', List.take_succ_eq_append_getElem hn, List.sum_append, ← hd]
    simp
  · rw [List.getLast?_eq_getElem?, hlen, Nat.add_sub_cancel, hget _ le_rfl, ← hl, List.take_length]
    rfl

/-- **C04** Extrema: with at least one segment each is attained and is a bound; without segments
each raises. -/
theorem C04_extrema (c : DrivenControl ℝ) (h : c.Constructed) :
    (0 < c.numberOfSegments →
      (∃ m, c.maximumRabiRate = .ok m ∧ m ∈ c.rabiRates ∧ ∀ x ∈ c.rabiRates, x ≤ m) ∧
      (∃ m, c.maximumDetuning = .ok m ∧ m ∈ c.detunings ∧ ∀ x ∈ c.detunings, x ≤ m) ∧
      (∃ m, c.maximumDuration = .ok m ∧ m ∈ c.durations ∧ (∀ x ∈ c.durations, x ≤ m) ∧
        m ≤ c.duration) ∧
      (∃ m, c.minimumDuration = .ok m ∧ m ∈ c.durations ∧ (∀ x ∈ c.durations, m ≤ x) ∧ 0 < m)) ∧
    (c.numberOfSegments = 0 →
      (∃ e, c.maximumRabiRate = .error e) ∧ (∃ e, c.maximumDetuning = .error e) ∧
      (∃ e, c.maximumDuration = .error e) ∧ (∃ e, c.minimumDuration = .error e)) := by
  obtain ⟨h1, h2, h3, h4⟩ := h.lengths
  have hpos := ((DrivenControl.constructed_iff c).mp h).1
  constructor
  · intro hn
    have ne : ∀ l : List ℝ, l.length = c.numberOfSegments → l ≠ [] := by
      rintro l hl rfl; simp at hl; omega
    obtain ⟨m1, hm1⟩ := npAmax_exists (ne _ h1)
    obtain ⟨m2, hm2⟩ := npAmax_exists (ne _ h3)
    obtain ⟨m3, hm3⟩ := npAmax_exists (ne _ h4)
    obtain ⟨m4, hm4⟩ := npAmin_exists (ne _ h4)
    have k3 := (npAmax_ok_iff _ _).mp hm3
    have k4 := (npAmin_ok_iff _ _).mp hm4
    refine ⟨⟨m1, hm1, (npAmax_ok_iff _ _).mp hm1⟩, ⟨m2, hm2, (npAmax_ok_iff _ _).mp hm2⟩,
      ⟨m3, hm3, k3.1, k3.2, ?_⟩, ⟨m4, hm4, k4.1, k4.2, hpos _ k4.1⟩⟩
    exact List.single_le_sum (fun x hx => (hpos x hx).le) _ k3.1
  · intro hn
    rw [hn] at h1 h3 h4
    rw [List.length_eq_zero_iff] at h1 h3 h4
    simp [DrivenControl.maximumRabiRate, DrivenControl.maximumDetuning,
      DrivenControl.maximumDuration, DrivenControl.minimumDuration, h1, h3, h4, Py.npAmax, Py.npAmin]

/-- **C05** The rotation angle of segment `n` is `√(Ω² + Δ²) t`, whatever the azimuthal angle; it is
non-negative and vanishes exactly for an idle segment. -/
theorem C05_angles (c : DrivenControl ℝ) (h : c.Constructed) :
    c.angles.length = c.numberOfSegments ∧
    ∀ (n : ℕ) (Ω Δ t : ℝ), c.rabiRates[n]? = some Ω → c.detunings[n]? = some Δ → c.durations[n]? = some t →
      ∃ a, c.angles[n]? = some a ∧ a = Real.sqrt (Ω ^ 2 + Δ ^ 2) * t ∧ 0 ≤ a ∧
        (a = 0 ↔ Ω = 0 ∧ Δ = 0) := by
  refine ⟨?_, ?_⟩
  · simp [DrivenControl.angles, amplitudes_length c h, h.lengths.2.2.2]
  · intro n Ω Δ t hΩ hΔ ht
    obtain ⟨_, φ, _, _, _, hφ, _, _⟩ := h.segment
      (show n < c.numberOfSegments from (List.getElem?_eq_some_iff.mp hΩ).1)
    have hpos := ((DrivenControl.constructed_iff c).mp h).1 t (List.mem_of_getElem? ht)
    refine ⟨_, by simp [DrivenControl.angles, List.getElem?_zipWith,
      amplitudes_getElem? c n Ω φ Δ hΩ hφ hΔ, ht], rfl, by positivity, ?_⟩
    rw [mul_eq_zero, or_iff_left hpos.ne', Real.sqrt_eq_zero (by positivity)]
    constructor
    · intro he
      constructor <;> nlinarith [sq_nonneg Ω, sq_nonneg Δ]
    · rintro ⟨rfl, rfl⟩; simp

/-- The threshold below which `directions` does not normalise: `min (1e-20 * A) 1e-8`, with `A` the
largest `√(Ω²+Δ²)` of the control. -/
def IsDirectionTolerance (c : DrivenControl ℝ) (tol : ℝ) : Prop :=
  ∃ A : ℝ, (∃ (n : ℕ) (Ω Δ : ℝ), c.rabiRates[n]? = some Ω ∧ c.detunings[n]? = some Δ ∧
      A = Real.sqrt (Ω ^ 2 + Δ ^ 2)) ∧
    (∀ (n : ℕ) (Ω Δ : ℝ), c.rabiRates[n]? = some Ω → c.detunings[n]? = some Δ →
      Real.sqrt (Ω ^ 2 + Δ ^ 2) ≤ A) ∧
    tol = min (1 / 10 ^ 20 * A) (1 / 10 ^ 8)

/-- **C06** What `directions` returns exactly, for every control with at least one segment: the
vector `v = (Ω cos φ, Ω sin φ, Δ)` divided by its norm if the norm exceeds the tolerance, and `v`
itself otherwise. -/
theorem C06_directions_exact (c : DrivenControl ℝ) (h : c.Constructed)
    (hn : 0 < c.numberOfSegments) :
    ∃ tol, IsDirectionTolerance c tol ∧ 0 ≤ tol ∧
    ∃ ds, c.directions = .ok ds ∧ ds.length = c.numberOfSegments ∧
      ∀ (n : ℕ) (Ω φ Δ : ℝ), c.rabiRates[n]? = some Ω → c.azimuthalAngles[n]? = some φ →
        c.detunings[n]? = some Δ →
        ds[n]? = some (if Real.sqrt (Ω ^ 2 + Δ ^ 2) ≤ tol then
            (Ω * Real.cos φ, Ω * Real.sin φ, Δ)
          else (Ω * Real.cos φ / Real.sqrt (Ω ^ 2 + Δ ^ 2),
            Ω * Real.sin φ / Real.sqrt (Ω ^ 2 + Δ ^ 2), Δ / Real.sqrt (Ω ^ 2 + Δ ^ 2))) := by
  have hal := amplitudes_length c h
  obtain ⟨A, hA⟩ := npAmax_exists (l := c.amplitudes) (by rintro he; simp [he] at hal; omega)
  obtain ⟨hmem, hmax⟩ := (npAmax_ok_iff _ _).mp hA
  obtain ⟨k, hk, hkA⟩ := List.mem_iff_getElem.mp hmem
  have hkA' : c.amplitudes[k]? = some A := by rw [List.getElem?_eq_getElem hk, hkA]
  obtain ⟨Ωk, φk, Δk, _, h1, h2, h3, _⟩ := h.segment (n := k) (by omega)
  have hAk := amplitudes_getElem? c k Ωk φk Δk h1 h2 h3
  have hA0 : A = Real.sqrt (Ωk ^ 2 + Δk ^ 2) := by
    rw [hkA'] at hAk; simpa using hAk
  refine ⟨min (1 / 10 ^ 20 * A) (1 / 10 ^ 8), ⟨A, ⟨k, Ωk, Δk, h1, h3, hA0⟩, ?_, rfl⟩, ?_, ?_⟩
  · intro n Ω Δ hΩ hΔ
    obtain ⟨_, φ, _, _, _, hφ, _, _⟩ := h.segment
      (show n < c.numberOfSegments from (List.getElem?_eq_some_iff.mp hΩ).1)
    exact hmax _ (List.mem_of_getElem? (amplitudes_getElem? c n Ω φ Δ hΩ hφ hΔ))
  · have : 0 ≤ A := by rw [hA0]; positivity
    positivity
  · refine ⟨_, by simp only [DrivenControl.directions, hA, except_ok_bind]; rfl, ?_, ?_⟩
    · obtain ⟨l1, l2, l3, l4⟩ := h.lengths
      simp [DrivenControl.amplitudeX, DrivenControl.amplitudeY, l1, l2, l3, hal]
    · intro n Ω φ Δ hΩ hφ hΔ
      have ha := amplitudes_getElem? c n Ω φ Δ hΩ hφ hΔ
      simp only [List.getElem?_zipWith, List.getElem?_map, ha, DrivenControl.amplitudeX,
        DrivenControl.amplitudeY, hΩ, hφ, hΔ, Option.map_some]
      by_cases hc : Real.sqrt (Ω ^ 2 + Δ ^ 2) ≤ min (1 / 10 ^ 20 * A) (1 / 10 ^ 8)
      · rw [if_pos hc, if_pos]
        · simp
        · rw [RealInst.isCloseAtol_iff]
          norm_num
          rw [abs_of_nonneg (Real.sqrt_nonneg _)]
          norm_num at hc
          exact hc
      · rw [if_neg hc, if_neg]
        · simp
        · rw [RealInst.isCloseAtol_iff]
          norm_num
          rw [abs_of_nonneg (Real.sqrt_nonneg _)]
          norm_num at hc
          exact hc

/-- **C06** (partial) `directions[n]` is the unit vector along `v = (Ω cos φ, Ω sin φ, Δ)` for every
segment with `‖v‖` above the tolerance, and zero if `v = 0`.  Missing from the full statement:
segments with `0 < ‖v‖ ≤ min (1e-20 * max ‖v‖) 1e-8`, for which it is false
(`C06_not_unit_counterexample`). -/
theorem C06_directions_partial (c : DrivenControl ℝ) (h : c.Constructed) (tol : ℝ)
    (htol : IsDirectionTolerance c tol) (ds : List (ℝ × ℝ × ℝ)) (hds : c.directions = .ok ds)
    (n : ℕ) (Ω φ Δ : ℝ) (hΩ : c.rabiRates[n]? = some Ω) (hφ : c.azimuthalAngles[n]? = some φ)
    (hΔ : c.detunings[n]? = some Δ) :
    ∃ nx ny nz, ds[n]? = some (nx, ny, nz) ∧
      (tol < Real.sqrt (Ω ^ 2 + Δ ^ 2) →
        nx ^ 2 + ny ^ 2 + nz ^ 2 = 1 ∧
        Real.sqrt (Ω ^ 2 + Δ ^ 2) * nx = Ω * Real.cos φ ∧
        Real.sqrt (Ω ^ 2 + Δ ^ 2) * ny = Ω * Real.sin φ ∧
        Real.sqrt (Ω ^ 2 + Δ ^ 2) * nz = Δ) ∧
      (Ω = 0 ∧ Δ = 0 → nx = 0 ∧ ny = 0 ∧ nz = 0) := by
  have hn : n < c.numberOfSegments := (List.getElem?_eq_some_iff.mp hΩ).1
  obtain ⟨tol', ⟨A', ⟨k, Ωk, Δk, hk1, hk2, hA'⟩, hmax', htol'⟩, h0, ds', hds', hlen, hget⟩ :=
    C06_directions_exact c h (by omega)
  obtain ⟨A, ⟨j, Ωj, Δj, hj1, hj2, hA⟩, hmax, htol⟩ := htol
  have hAA : A = A' := by
    apply le_antisymm
    · rw [hA]; exact hmax' j Ωj Δj hj1 hj2
    · rw [hA']; exact hmax k Ωk Δk hk1 hk2
  have htt : tol = tol' := by rw [htol, htol', hAA]
  obtain rfl : ds' = ds := by rw [hds] at hds'; cases hds'; rfl
  have hg := hget n Ω φ Δ hΩ hφ hΔ
  rw [← htt] at hg h0
  by_cases hc : Real.sqrt (Ω ^ 2 + Δ ^ 2) ≤ tol
  · rw [if_pos hc] at hg
    refine ⟨_, _, _, hg, fun hlt => absurd hc (not_le.mpr hlt), ?_⟩
    rintro ⟨rfl, rfl⟩
    simp
  · rw [if_neg hc] at hg
    have hpos : 0 < Real.sqrt (Ω ^ 2 + Δ ^ 2) := lt_of_le_of_lt h0 (not_le.mp hc)
    have hsq : Real.sqrt (Ω ^ 2 + Δ ^ 2) ^ 2 = Ω ^ 2 + Δ ^ 2 := Real.sq_sqrt (by positivity)
    refine ⟨_, _, _, hg, fun _ => ⟨?_, ?_, ?_, ?_⟩, ?_⟩
    · rw [div_pow, div_pow, div_pow, ← add_div, ← add_div, div_eq_one_iff_eq (by positivity), hsq]
      linear_combination Ω ^ 2 * Real.cos_sq_add_sin_sq φ
    · field_simp
    · field_simp
    · field_simp
    · rintro ⟨rfl, rfl⟩
      simp

/-- **C06** The full statement is false: with Rabi rates `1` and `1e-30` the second direction is not
a unit vector (it is the un-normalised `(1e-30, 0, 0)`). -/
theorem C06_not_unit_counterexample :
    ∃ c : DrivenControl ℝ, c.Constructed ∧ ∃ ds, c.directions = .ok ds ∧
      ∃ nx ny nz, ds[1]? = some (nx, ny, nz) ∧ c.rabiRates[1]? = some (1 / 10 ^ 30) ∧
        nx ^ 2 + ny ^ 2 + nz ^ 2 ≠ 1 := by
  let c : DrivenControl ℝ := ⟨[1, 1 / 10 ^ 30], [0, 0], [0, 0], [1, 1], none⟩
  have hc : c.Constructed := by
    rw [DrivenControl.constructed_iff]
    refine ⟨by simp [c], by simp [c], by simp [c], by simp [c], ?_⟩
    intro x hx
    simp [c] at hx
    rcases hx with rfl | rfl <;> positivity
  obtain ⟨tol, ⟨A, ⟨k, Ωk, Δk, hk1, hk2, hA⟩, hmax, htol⟩, h0, ds, hds, hlen, hget⟩ :=
    C06_directions_exact c hc (by simp [c, DrivenControl.numberOfSegments])
  refine ⟨c, hc, ds, hds, ?_⟩
  have hg := hget 1 (1 / 10 ^ 30) 0 0 (by simp [c]) (by simp [c]) (by simp [c])
  have hA1 : (1 : ℝ) ≤ A := by
    have := hmax 0 1 0 (by simp [c]) (by simp [c])
    simpa using this
  rw [if_pos] at hg
  · refine ⟨_, _, _, hg, by simp [c], ?_⟩
    norm_num
  · have : Real.sqrt ((1 / 10 ^ 30 : ℝ) ^ 2 + 0 ^ 2) = 1 / 10 ^ 30 := by
      rw [zero_pow two_ne_zero, add_zero, Real.sqrt_sq (by positivity)]
    rw [this, htol]
    apply le_min
    · calc (1 / 10 ^ 30 : ℝ) ≤ 1 / 10 ^ 20 * 1 := by norm_num
        _ ≤ _ := by gcongr
    · norm_num

/-- **C07**, exactly: `angles[n]` and `directions[n]` generate the evolution of segment `n` for its duration,
or, if the drive vector is at most as long as the tolerance of C06, for its duration times that length. -/
theorem C07_evolution_exact (c : DrivenControl ℝ) (h : c.Constructed) (hn : 0 < c.numberOfSegments) :
    ∃ tol, IsDirectionTolerance c tol ∧ ∃ ds, c.directions = .ok ds ∧
      ∀ (n : ℕ) (Ω φ Δ t : ℝ), c.rabiRates[n]? = some Ω → c.azimuthalAngles[n]? = some φ →
        c.detunings[n]? = some Δ → c.durations[n]? = some t →
        ∃ a nx ny nz : ℝ, c.angles[n]? = some a ∧ ds[n]? = some (nx, ny, nz) ∧
          NormedSpace.exp ((-Complex.I * ((a / 2 : ℝ) : ℂ)) •
            ((nx : ℂ) • σx + (ny : ℂ) • σy + (nz : ℂ) • σz)) =
          segmentUnitary Ω φ Δ (if Real.sqrt (Ω ^ 2 + Δ ^ 2) ≤ tol
            then t * Real.sqrt (Ω ^ 2 + Δ ^ 2) else t) := by
  obtain ⟨tol, htol, h0, ds, hds, -, hall⟩ := C06_directions_exact c h hn
  refine ⟨tol, htol, ds, hds, fun n Ω φ Δ t hΩ hφ hΔ ht => ?_⟩
  obtain ⟨a, ha, hav, -⟩ := (C05_angles c h).2 n Ω Δ t hΩ hΔ ht
  have hd := hall n Ω φ Δ hΩ hφ hΔ
  subst hav
  have hs : Real.sqrt (Ω ^ 2 + Δ ^ 2) ≤ tol ∨ Real.sqrt (Ω ^ 2 + Δ ^ 2) ≠ 0 := by
    by_cases he : Real.sqrt (Ω ^ 2 + Δ ^ 2) = 0
    · exact .inl (he ▸ h0)
    · exact .inr he
  generalize Real.sqrt (Ω ^ 2 + Δ ^ 2) = s at ha hd hs ⊢
  by_cases hle : s ≤ tol
  · rw [if_pos hle] at hd ⊢
    refine ⟨_, _, _, _, ha, hd, ?_⟩
    unfold segmentUnitary hamiltonian
    congr 1
    simp only [smul_add, smul_smul]
    push_cast
    congr 1
    · congr 1 <;> congr 1 <;> ring
    · congr 1; ring
  · rw [if_neg hle] at hd ⊢
    refine ⟨_, _, _, _, ha, hd, ?_⟩
    have hs' : (s : ℂ) ≠ 0 := by exact_mod_cast hs.resolve_left hle
    unfold segmentUnitary hamiltonian
    congr 1
    simp only [smul_add, smul_smul]
    push_cast
    congr 1
    · congr 1 <;> congr 1 <;> field_simp
    · congr 1; field_simp

/-- **C07** (partial, same tolerance as C06) `angles[n]` and `directions[n]` generate the evolution
of segment `n` under the documented Hamiltonian. -/
theorem C07_angles_directions_evolution_partial (c : DrivenControl ℝ) (h : c.Constructed) (tol : ℝ)
    (htol : IsDirectionTolerance c tol) (ds : List (ℝ × ℝ × ℝ)) (hds : c.directions = .ok ds)
    (n : ℕ) (Ω φ Δ t : ℝ) (hΩ : c.rabiRates[n]? = some Ω) (hφ : c.azimuthalAngles[n]? = some φ)
    (hΔ : c.detunings[n]? = some Δ) (ht : c.durations[n]? = some t)
    (habove : (Ω = 0 ∧ Δ = 0) ∨ tol < Real.sqrt (Ω ^ 2 + Δ ^ 2)) :
    ∃ a nx ny nz : ℝ, c.angles[n]? = some a ∧ ds[n]? = some (nx, ny, nz) ∧
      NormedSpace.exp ((-Complex.I * ((a / 2 : ℝ) : ℂ)) •
        ((nx : ℂ) • σx + (ny : ℂ) • σy + (nz : ℂ) • σz)) = segmentUnitary Ω φ Δ t := by
  obtain ⟨a, ha, hav, -⟩ := (C05_angles c h).2 n Ω Δ t hΩ hΔ ht
  obtain ⟨nx, ny, nz, hd, h1, h2⟩ := C06_directions_partial c h tol htol ds hds n Ω φ Δ hΩ hφ hΔ
  refine ⟨a, nx, ny, nz, ha, hd, ?_⟩
  rcases habove with ⟨rfl, rfl⟩ | hlt
  · obtain ⟨rfl, rfl, rfl⟩ := h2 ⟨rfl, rfl⟩
    rw [segmentUnitary_idle]
    simp
  · obtain ⟨-, hx, hy, hz⟩ := h1 hlt
    rw [hav]
    unfold segmentUnitary hamiltonian
    congr 1
    rw [← hx, ← hy]
    generalize Real.sqrt (Ω ^ 2 + Δ ^ 2) = s at hz ⊢
    rw [← hz]
    simp only [smul_add, smul_smul]
    push_cast
    congr 1
    · congr 1 <;> congr 1 <;> ring
    · congr 1; ring

/-- **C07** The full statement is false: the second segment (Rabi rate `1e-30`, rotation by π) is idle
according to its direction and angle, up to a rotation by less than `1e-29`. -/
theorem C07_counterexample :
    ∃ (c : DrivenControl ℝ) (ds : List (ℝ × ℝ × ℝ)) (a nx ny nz : ℝ), c.Constructed ∧
      c.directions = .ok ds ∧ c.angles[1]? = some a ∧ ds[1]? = some (nx, ny, nz) ∧
      c.rabiRates[1]? = some (1 / 10 ^ 30) ∧ c.azimuthalAngles[1]? = some 0 ∧
      c.detunings[1]? = some 0 ∧ c.durations[1]? = some (10 ^ 30 * Real.pi) ∧
      segmentUnitary (1 / 10 ^ 30) 0 0 (10 ^ 30 * Real.pi) = rotation Real.pi 0 ∧
      NormedSpace.exp ((-Complex.I * ((a / 2 : ℝ) : ℂ)) •
        ((nx : ℂ) • σx + (ny : ℂ) • σy + (nz : ℂ) • σz)) = rotation (Real.pi / 10 ^ 30) 0 ∧
      rotation (Real.pi / 10 ^ 30) 0 ≠ rotation Real.pi 0 := by
  let c : DrivenControl ℝ := ⟨[1, 1 / 10 ^ 30], [0, 0], [0, 0], [1, 10 ^ 30 * Real.pi], none⟩
  have hpi := Real.pi_pos
  have hc : c.Constructed := by
    rw [DrivenControl.constructed_iff]
    refine ⟨?_, by simp [c], by simp [c], by simp [c], ?_⟩
    · intro x hx
      simp only [c, List.mem_cons, List.not_mem_nil, or_false] at hx
      rcases hx with rfl | rfl <;> positivity
    · intro x hx
      simp [c] at hx
      rcases hx with rfl | rfl <;> positivity
  obtain ⟨tol, ⟨A, ⟨k, Ωk, Δk, hk1, hk2, hA⟩, hmax, htol⟩, h0, ds, hds, hlen, hget⟩ :=
    C06_directions_exact c hc (by simp [c, DrivenControl.numberOfSegments])
  obtain ⟨a, ha, hav, -⟩ := (C05_angles c hc).2 1 (1 / 10 ^ 30) 0 (10 ^ 30 * Real.pi) (by simp [c])
    (by simp [c]) (by simp [c])
  have hsq : Real.sqrt ((1 / 10 ^ 30 : ℝ) ^ 2 + 0 ^ 2) = 1 / 10 ^ 30 := by
    rw [zero_pow two_ne_zero, add_zero, Real.sqrt_sq (by positivity)]
  have hg := hget 1 (1 / 10 ^ 30) 0 0 (by simp [c]) (by simp [c]) (by simp [c])
  have hA1 : (1 : ℝ) ≤ A := by
    have := hmax 0 1 0 (by simp [c]) (by simp [c])
    simpa using this
  rw [if_pos] at hg
  · refine ⟨c, ds, a, _, _, _, hc, hds, ha, hg, by simp [c], by simp [c], by simp [c], by simp [c],
      ?_, ?_, ?_⟩
    · rw [segmentUnitary_resonant]
      congr 1
      field_simp
    · have ha' : a = Real.pi := by
        rw [hav, hsq]; field_simp
      rw [ha', rotation]
      simp only [Real.cos_zero, Real.sin_zero]
      congr 1
      simp only [smul_smul, mul_zero, Complex.ofReal_zero, zero_smul, add_zero]
      congr 1
      push_cast
      ring
    · rw [rotation_eq, rotation_eq, Ne, su2_inj]
      intro h
      have h1 := h.1
      rw [Real.cos_pi_div_two] at h1
      have : 0 < Real.cos (Real.pi / 10 ^ 30 / 2) := by
        apply Real.cos_pos_of_mem_Ioo
        constructor
        · have : 0 < Real.pi / 10 ^ 30 / 2 := by positivity
          linarith
        · have : Real.pi / 10 ^ 30 < Real.pi := div_lt_self hpi (by norm_num)
          linarith
      linarith
  · rw [hsq, htol]
    apply le_min
    · calc (1 / 10 ^ 30 : ℝ) ≤ 1 / 10 ^ 20 * 1 := by norm_num
        _ ≤ _ := by gcongr
    · norm_num

/-! Non-vacuity: a three-segment control with a driven, a detuned and an idle segment. -/

/-- example control used below -/
def exampleControl : DrivenControl ℝ := ⟨[3, 0, 0], [1, 0, 0], [4, -2, 0], [1, 2, 5], some "c"⟩

theorem exampleControl_constructed : exampleControl.Constructed := by
  rw [DrivenControl.constructed_iff]
  simp [exampleControl]

example : exampleControl.numberOfSegments = 3 ∧ exampleControl.Constructed :=
  ⟨rfl, exampleControl_constructed⟩

/-- the tolerance hypothesis of C06 / C07 is met, and all three segments satisfy the side condition -/
example : IsDirectionTolerance exampleControl (1 / 10 ^ 20 * 5) ∧
    (1 / 10 ^ 20 * 5 : ℝ) < Real.sqrt (3 ^ 2 + 4 ^ 2) ∧
    (1 / 10 ^ 20 * 5 : ℝ) < Real.sqrt (0 ^ 2 + (-2) ^ 2) := by
  have h5 : Real.sqrt (3 ^ 2 + 4 ^ 2) = 5 := by
    rw [show (3 : ℝ) ^ 2 + 4 ^ 2 = 5 ^ 2 by norm_num, Real.sqrt_sq (by norm_num)]
  have h2 : Real.sqrt (0 ^ 2 + (-2) ^ 2) = 2 := by
    rw [show (0 : ℝ) ^ 2 + (-2) ^ 2 = 2 ^ 2 by norm_num, Real.sqrt_sq (by norm_num)]
  refine ⟨⟨5, ⟨0, 3, 4, rfl, rfl, h5.symm⟩, ?_, ?_⟩, ?_, ?_⟩
  · intro n Ω Δ hΩ hΔ
    rcases n with _ | _ | _ | n <;> simp [exampleControl] at hΩ hΔ
    · subst hΩ hΔ; rw [h5]
    · subst hΩ hΔ; rw [h2]; norm_num
    · subst hΩ hΔ; simp
  · rw [min_eq_left (by norm_num)]
  · rw [h5]; norm_num
  · rw [h2]; norm_num

end OpenControls
