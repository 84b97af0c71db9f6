import Verif.Proofs.RoundedAccessors
import Verif.Proofs.RoundedConversion
import Verif.Spec.RoundedAccessors
import Verif.Props.Export

/-!
# Reading an exported control back in rounded arithmetic
-/

namespace OpenControls

open Spec Fl PyFloat Py

open scoped Matrix.Norms.L2Operator

variable {r : Rounding}

theorem segmentUnitary_rate_dist (Ω Ω' φ Δ : ℝ) {t : ℝ} (ht : 0 ≤ t) :
    ‖segmentUnitary Ω' φ Δ t - segmentUnitary Ω φ Δ t‖ ≤ |Ω' - Ω| * t / 2 := by
  rw [field_segment, field_segment]
  refine (field_dist _ _ _ _ _ _ _ _).trans ?_
  have e : (Ω' * Real.cos φ * t - Ω * Real.cos φ * t) ^ 2 + (Ω' * Real.sin φ * t - Ω * Real.sin φ * t) ^ 2 +
      (Δ * t - Δ * t) ^ 2 = (|Ω' - Ω| * t) ^ 2 := by
    rw [mul_pow, sq_abs]
    linear_combination (Ω' - Ω) ^ 2 * t ^ 2 * Real.cos_sq_add_sin_sq φ
  rw [e, Real.sqrt_sq (by positivity)]

theorem controlEvolution_norm (Ωs φs Δs ts : List ℝ) : ‖controlEvolution Ωs φs Δs ts‖ ≤ 1 := by
  induction Ωs generalizing φs Δs ts with
  | nil => simp [controlEvolution]
  | cons Ω Ωs ih =>
    cases φs with
    | nil => simp [controlEvolution]
    | cons φ φs =>
      cases Δs with
      | nil => simp [controlEvolution]
      | cons Δ Δs =>
        cases ts with
        | nil => simp [controlEvolution]
        | cons t ts =>
          rw [controlEvolution]
          refine (norm_mul_le _ _).trans ?_
          rw [segmentUnitary_norm, mul_one]
          exact ih φs Δs ts

theorem controlEvolution_rates_dist {K : ℝ} (f : ℝ → ℝ) (Ωs φs Δs ts : List ℝ)
    (hf : ∀ Ω ∈ Ωs, |f Ω - Ω| ≤ K * Ω) (ht : ∀ t ∈ ts, 0 ≤ t) (h1 : φs.length = Ωs.length)
    (h2 : Δs.length = Ωs.length) (h3 : ts.length = Ωs.length) :
    ‖controlEvolution (Ωs.map f) φs Δs ts - controlEvolution Ωs φs Δs ts‖ ≤
      K / 2 * (List.zipWith (fun Ω τ => Ω * τ) Ωs ts).sum := by
  induction Ωs generalizing φs Δs ts with
  | nil => simp [controlEvolution]
  | cons Ω Ωs ih =>
    match φs, Δs, ts, h1, h2, h3 with
    | φ :: φs, Δ :: Δs, t :: ts, h1, h2, h3 =>
      rw [List.map_cons, controlEvolution, controlEvolution, List.zipWith_cons_cons, List.sum_cons]
      refine (mul_dist (by rw [segmentUnitary_norm]) (controlEvolution_norm _ _ _ _)).trans ?_
      have e1 := ih φs Δs ts (fun x hx => hf x (by simp [hx])) (fun x hx => ht x (by simp [hx]))
        (by simpa using h1) (by simpa using h2) (by simpa using h3)
      have t0 := ht t (by simp)
      have e2 := segmentUnitary_rate_dist Ω (f Ω) φ Δ t0
      have e3 := mul_le_mul_of_nonneg_right (hf Ω (by simp)) t0
      linarith

theorem cartesian_dist {K : ℝ} (hK : 0 ≤ K) (fx fy : ℝ → ℝ → ℝ) (Ωs φs Δs ts : List ℝ)
    (hx : ∀ Ω φ, |fx Ω φ - Ω * Real.cos φ| ≤ K * |Ω * Real.cos φ|)
    (hy : ∀ Ω φ, |fy Ω φ - Ω * Real.sin φ| ≤ K * |Ω * Real.sin φ|)
    (hΩ : ∀ Ω ∈ Ωs, 0 ≤ Ω) (ht : ∀ t ∈ ts, 0 ≤ t) (h1 : φs.length = Ωs.length)
    (h2 : Δs.length = Ωs.length) (h3 : ts.length = Ωs.length) :
    ‖cartesianEvolution (cartesianSegments (List.zipWith fx Ωs φs) (List.zipWith fy Ωs φs) Δs ts) -
      controlEvolution Ωs φs Δs ts‖ ≤ K / 2 * (List.zipWith (fun Ω τ => Ω * τ) Ωs ts).sum := by
  induction Ωs generalizing φs Δs ts with
  | nil => simp [controlEvolution, cartesianSegments, cartesianEvolution]
  | cons Ω Ωs ih =>
    match φs, Δs, ts, h1, h2, h3 with
    | φ :: φs, Δ :: Δs, t :: ts, h1, h2, h3 =>
      simp only [List.zipWith_cons_cons, cartesianSegments, cartesianEvolution, controlEvolution,
        List.sum_cons]
      refine (mul_dist (by rw [field_norm]) (controlEvolution_norm _ _ _ _)).trans ?_
      have e1 := ih φs Δs ts (fun x hx => hΩ x (by simp [hx])) (fun x hx => ht x (by simp [hx]))
        (by simpa using h1) (by simpa using h2) (by simpa using h3)
      have t0 := ht t (by simp)
      have Ω0 := hΩ Ω (by simp)
      have e2 := field_dist (fx Ω φ) (fy Ω φ) Δ t (Ω * Real.cos φ) (Ω * Real.sin φ) Δ t
      rw [← field_segment] at e2
      have e3 : Real.sqrt ((fx Ω φ * t - Ω * Real.cos φ * t) ^ 2 + (fy Ω φ * t - Ω * Real.sin φ * t) ^ 2 +
          (Δ * t - Δ * t) ^ 2) ≤ K * (Ω * t) := by
        rw [Real.sqrt_le_left (by positivity)]
        have k1 := pow_le_pow_left₀ (abs_nonneg _) (hx Ω φ) 2
        have k2 := pow_le_pow_left₀ (abs_nonneg _) (hy Ω φ) 2
        rw [mul_pow, sq_abs, sq_abs] at k1 k2
        have k3 := mul_le_mul_of_nonneg_right (add_le_add k1 k2) (sq_nonneg t)
        have e : K ^ 2 * (Ω * Real.cos φ) ^ 2 + K ^ 2 * (Ω * Real.sin φ) ^ 2 = K ^ 2 * Ω ^ 2 := by
          linear_combination K ^ 2 * Ω ^ 2 * Real.cos_sq_add_sin_sq φ
        rw [e] at k3
        nlinarith
      linarith

/-- an exported and re-read Rabi rate -/
theorem reload_rel {m : Fl r} (hm : 0 < m.val) (Ω : Fl r) : Rel r 2 (m * (Ω / m)).val Ω.val := by
  have h := ((Rel.refl (r := r) m.val).mul ((Rel.refl Ω.val).div (Rel.refl m.val)).rnd).rnd
  rw [mul_div_cancel₀ _ hm.ne'] at h
  exact h.mono (by norm_num)

theorem reload_x_rel {m : Fl r} (hm : 0 < m.val) (Ω φ : Fl r) :
    Rel r 6 (m * (Ω * PyFloat.cos φ / m)).val (Ω.val * Real.cos φ.val) := by
  have h := ((Rel.refl m.val).mul ((amplitudeX_rel Ω φ).div (Rel.refl m.val)).rnd).rnd
  rw [mul_div_cancel₀ _ hm.ne'] at h
  exact h.mono (by norm_num)

theorem reload_y_rel {m : Fl r} (hm : 0 < m.val) (Ω φ : Fl r) :
    Rel r 6 (m * (Ω * PyFloat.sin φ / m)).val (Ω.val * Real.sin φ.val) := by
  have h := ((Rel.refl m.val).mul ((amplitudeY_rel Ω φ).div (Rel.refl m.val)).rnd).rnd
  rw [mul_div_cancel₀ _ hm.ne'] at h
  exact h.mono (by norm_num)

theorem totalRotation_nonneg (c : DrivenControl (Fl r)) (h : c.Constructed) :
    0 ≤ totalRotation (c.map val) := by
  obtain ⟨hpos, hnn⟩ := constructed_rounded h
  apply List.sum_nonneg
  intro x hx
  rw [List.mem_iff_getElem?] at hx
  obtain ⟨i, hi⟩ := hx
  rw [List.getElem?_zipWith] at hi
  simp only [DrivenControl.map, List.getElem?_map] at hi
  cases h1 : c.rabiRates[i]? with
  | none => simp [h1] at hi
  | some Ω =>
    cases h2 : c.durations[i]? with
    | none => simp [h1, h2] at hi
    | some t =>
      simp [h1, h2] at hi
      rw [← hi]
      exact mul_nonneg (hnn Ω (List.mem_of_getElem? h1)) (hpos t (List.mem_of_getElem? h2)).le

theorem reload_cylindrical (c : DrivenControl (Fl r)) (h : c.Constructed) {m : Fl r} (hm : 0 < m.val)
    (name : Option String) :
    ∃ c', DrivenControl.new c.durations (some ((c.rabiRates.map (· / m)).map (m * ·)))
        (some c.azimuthalAngles) (some c.detunings) name = .ok c' ∧
      ‖evolution (c'.map val) - evolution (c.map val)‖ ≤ 3 * r.u * totalRotation (c.map val) := by
  obtain ⟨hpos, hnn⟩ := constructed_rounded h
  obtain ⟨l1, l2, l3, l4⟩ := h.lengths
  refine ⟨_, new_of_rounded hpos (by simp [l1, l4]) (by simp [l2, l4]) (by simp [l3, l4]) ?_, ?_⟩
  · intro x hx
    simp only [List.map_map, List.mem_map, Function.comp] at hx
    obtain ⟨Ω, hΩ, rfl⟩ := hx
    exact (reload_rel hm Ω).nonneg (hnn Ω hΩ)
  · let f : ℝ → ℝ := fun x => r.rnd (m.val * r.rnd (x / m.val))
    have key := controlEvolution_rates_dist (K := 202 / 50 * r.u) f (c.rabiRates.map val)
      (c.azimuthalAngles.map val) (c.detunings.map val) (c.durations.map val) (by
        intro x hx
        obtain ⟨Ω, hΩ, rfl⟩ := List.mem_map.mp hx
        have := (reload_rel hm Ω).small (K := 202 / 50) (by norm_num) (by norm_num) (by norm_num)
        rwa [abs_of_nonneg (hnn Ω hΩ)] at this) (by
        intro x hx
        obtain ⟨t, ht, rfl⟩ := List.mem_map.mp hx
        exact (hpos t ht).le) (by simp [l1, l2]) (by simp [l1, l3]) (by simp [l1, l4])
    have e : (c.rabiRates.map val).map f = ((c.rabiRates.map (· / m)).map (m * ·)).map val := by
      simp [f, List.map_map, Function.comp_def]
    rw [e] at key
    refine key.trans ?_
    refine mul_le_mul_of_nonneg_right ?_ (totalRotation_nonneg c h)
    have := r.u_nonneg
    linarith

theorem reload_cartesian (c : DrivenControl (Fl r)) (h : c.Constructed) {m : Fl r} (hm : 0 < m.val) :
    ‖cartesianEvolution (cartesianSegments
        (((c.amplitudeX.map (· / m)).map (m * ·)).map val)
        (((c.amplitudeY.map (· / m)).map (m * ·)).map val) (c.detunings.map val) (c.durations.map val)) -
      evolution (c.map val)‖ ≤ 7 * r.u * totalRotation (c.map val) := by
  obtain ⟨hpos, hnn⟩ := constructed_rounded h
  obtain ⟨l1, l2, l3, l4⟩ := h.lengths
  let fx : ℝ → ℝ → ℝ := fun x p => r.rnd (m.val * r.rnd (r.rnd (x * r.cos.f p) / m.val))
  let fy : ℝ → ℝ → ℝ := fun x p => r.rnd (m.val * r.rnd (r.rnd (x * r.sin.f p) / m.val))
  have hfx : ∀ x p, |fx x p - x * Real.cos p| ≤ 13 * r.u * |x * Real.cos p| := by
    intro x p
    have h := ((Rel.refl m.val).mul ((((Rel.refl (r := r) x).mul (Rel.lib r.cos p)).rnd).div
      (Rel.refl m.val)).rnd).rnd
    rw [mul_div_cancel₀ _ hm.ne'] at h
    exact h.small (by norm_num) (by norm_num) (by norm_num)
  have hfy : ∀ x p, |fy x p - x * Real.sin p| ≤ 13 * r.u * |x * Real.sin p| := by
    intro x p
    have h := ((Rel.refl m.val).mul ((((Rel.refl (r := r) x).mul (Rel.lib r.sin p)).rnd).div
      (Rel.refl m.val)).rnd).rnd
    rw [mul_div_cancel₀ _ hm.ne'] at h
    exact h.small (by norm_num) (by norm_num) (by norm_num)
  have hu := r.u_nonneg
  have key := cartesian_dist (K := 13 * r.u) (by positivity) fx fy (c.rabiRates.map val)
    (c.azimuthalAngles.map val) (c.detunings.map val) (c.durations.map val) hfx hfy (by
        intro x hx
        obtain ⟨Ω, hΩ, rfl⟩ := List.mem_map.mp hx
        exact hnn Ω hΩ) (by
        intro x hx
        obtain ⟨t, ht, rfl⟩ := List.mem_map.mp hx
        exact (hpos t ht).le) (by simp [l1, l2]) (by simp [l1, l3]) (by simp [l1, l4])
  have ex : List.zipWith fx (c.rabiRates.map val) (c.azimuthalAngles.map val) =
      ((c.amplitudeX.map (· / m)).map (m * ·)).map val := by
    simp [fx, DrivenControl.amplitudeX, List.map_zipWith, List.zipWith_map]
  have ey : List.zipWith fy (c.rabiRates.map val) (c.azimuthalAngles.map val) =
      ((c.amplitudeY.map (· / m)).map (m * ·)).map val := by
    simp [fy, DrivenControl.amplitudeY, List.map_zipWith, List.zipWith_map]
  rw [ex, ey] at key
  refine key.trans ?_
  refine mul_le_mul_of_nonneg_right ?_ (totalRotation_nonneg c h)
  linarith

theorem csvColumn_eq {β : Type} {header : List String} {rows : List (List β)} {title : String} {l : List β}
    (hl : rows.length = l.length)
    (h : ∀ (i : ℕ) (row : List β), rows[i]? = some row → cell header row title = l[i]?) :
    csvColumn header rows title = l := by
  induction rows generalizing l with
  | nil =>
    obtain rfl : l = [] := List.length_eq_zero_iff.mp (by simpa using hl.symm)
    rfl
  | cons row rows ih =>
    cases l with
    | nil => simp at hl
    | cons x l =>
      have h0 := h 0 row rfl
      have := ih (l := l) (by simpa using hl) (fun i row' hi => by
        have := h (i + 1) row' (by simpa using hi)
        simpa using this)
      unfold csvColumn at this ⊢
      rw [List.filterMap_cons_some (b := x) (by simpa using h0), this]

theorem zipWith_replicate_mul (m : Fl r) {l : List (Fl r)} {n : ℕ} (h : l.length = n) :
    List.zipWith (fun m v => m * v) (List.replicate n m) l = l.map (m * ·) := by
  subst h
  induction l with
  | nil => rfl
  | cons x l ih => simp [List.replicate_succ, ih]

end OpenControls
