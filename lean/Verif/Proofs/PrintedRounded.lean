import Verif.Proofs.Printed
import Verif.Proofs.SegmentErrors
import Verif.Proofs.RoundedReload
import Verif.Props.FloatRepr
import Verif.Proofs.RoundedControl
import Verif.Spec.Printed

/-!
# Reading printed controls and sequences in rounded arithmetic
-/

namespace OpenControls

open Spec Fl PyFloat Py

open scoped Matrix.Norms.L2Operator

namespace Printed

/-- Two segments. -/
theorem segment_dist_all (w φ d t w' φ' d' t' : ℝ) :
    ‖segmentUnitary w φ d t - segmentUnitary w' φ' d' t'‖ ≤
      (|w * t - w' * t'| + |w' * t'| * |φ - φ'| + |d * t - d' * t'|) / 2 := by
  have h1 : ‖segmentUnitary w φ d t - segmentUnitary w' φ d' t'‖ ≤ (|w * t - w' * t'| + |d * t - d' * t'|) / 2 := by
    refine (field_dist _ _ _ _ _ _ _ _).trans ?_
    gcongr
    rw [Real.sqrt_le_left (by positivity)]
    have e : (w * Real.cos φ * t - w' * Real.cos φ * t') ^ 2 + (w * Real.sin φ * t - w' * Real.sin φ * t') ^ 2 =
        |w * t - w' * t'| ^ 2 := by
      rw [sq_abs]
      linear_combination (w * t - w' * t') ^ 2 * Real.cos_sq_add_sin_sq φ
    rw [e, ← sq_abs (d * t - d' * t')]
    nlinarith [mul_nonneg (abs_nonneg (w * t - w' * t')) (abs_nonneg (d * t - d' * t'))]
  have h2 := segment_dist w' φ d' t' w' φ' t'
  simp only [sub_self, abs_zero, mul_zero, zero_add, add_zero] at h2
  have h3 := norm_sub_le_norm_sub_add_norm_sub (segmentUnitary w φ d t) (segmentUnitary w' φ d' t')
    (segmentUnitary w' φ' d' t')
  linarith

variable {r : Rounding}

/-- an entry times its factor -/
theorem entry_rel {m : Fl r} (hm : m.val ≠ 0) (x : Fl r) : Rel r 2 (x / m * m).val x.val := by
  have h := (((Rel.refl (r := r) x.val).div (Rel.refl m.val)).rnd.mul (Rel.refl m.val)).rnd
  rw [div_mul_cancel₀ _ hm] at h
  exact h.mono (by norm_num)

theorem segment_rel {w φ d t w' φ' d' t' : ℝ} (hw : Rel r 2 w' w) (hφ : Rel r 2 φ' φ) (hd : Rel r 2 d' d)
    (ht : Rel r 2 t' t) (w0 : 0 ≤ w) (t0 : 0 ≤ t) :
    ‖segmentUnitary w' φ' d' t' - segmentUnitary w φ d t‖ ≤ 5 * r.u * (t * (w * (1 + |φ|) + |d|)) := by
  refine (segment_dist_all _ _ _ _ _ _ _ _).trans ?_
  have h1 := (hw.mul ht).small (K := 9) (by norm_num) (by norm_num) (by norm_num)
  have h2 := (hd.mul ht).small (K := 9) (by norm_num) (by norm_num) (by norm_num)
  have h3 := hφ.small (K := 5) (by norm_num) (by norm_num) (by norm_num)
  have hu := r.u_nonneg
  have h4 := mul_le_mul_of_nonneg_left h3 (abs_nonneg (w * t))
  rw [abs_mul d t, abs_of_nonneg t0] at h2
  rw [abs_of_nonneg (mul_nonneg w0 t0)] at h1 h4 ⊢
  have k1 : 0 ≤ r.u * (w * t) := by positivity
  have k2 : 0 ≤ r.u * (|d| * t) := by positivity
  have k3 : 0 ≤ w * t * (r.u * |φ|) := by positivity
  nlinarith

theorem controlEvolution_rel {Ωs' φs' Δs' ts' Ωs φs Δs ts : List ℝ} (hΩ : List.Forall₂ (Rel r 2) Ωs' Ωs)
    (hφ : List.Forall₂ (Rel r 2) φs' φs) (hΔ : List.Forall₂ (Rel r 2) Δs' Δs) (ht : List.Forall₂ (Rel r 2) ts' ts)
    (Ω0 : ∀ x ∈ Ωs, 0 ≤ x) (t0 : ∀ x ∈ ts, 0 ≤ x) :
    ‖controlEvolution Ωs' φs' Δs' ts' - controlEvolution Ωs φs Δs ts‖ ≤
      5 * r.u * ((cartesianSegments Ωs φs Δs ts).map fun s => s.2.2.2 * (s.1 * (1 + |s.2.1|) + |s.2.2.1|)).sum := by
  induction hΩ generalizing φs' Δs' ts' φs Δs ts with
  | nil => simp [controlEvolution, cartesianSegments]
  | cons h1 hΩ ih =>
    cases hφ with
    | nil => simp [controlEvolution, cartesianSegments]
    | cons h2 hφ =>
      cases hΔ with
      | nil => simp [controlEvolution, cartesianSegments]
      | cons h3 hΔ =>
        cases ht with
        | nil => simp [controlEvolution, cartesianSegments]
        | cons h4 ht =>
          rw [controlEvolution, controlEvolution, cartesianSegments, List.map_cons, List.sum_cons]
          refine (mul_dist (by rw [segmentUnitary_norm]) (controlEvolution_norm _ _ _ _)).trans ?_
          have e1 := ih hφ hΔ ht (fun x hx => Ω0 x (by simp [hx])) (fun x hx => t0 x (by simp [hx]))
          have e2 := segment_rel h1 h2 h3 h4 (Ω0 _ (by simp)) (t0 _ (by simp))
          rw [mul_add]
          linarith

theorem forall₂_map {β : Type} {R : ℝ → ℝ → Prop} (l : List β) (f g : β → ℝ) (h : ∀ x ∈ l, R (f x) (g x)) :
    List.Forall₂ R (l.map f) (l.map g) := by
  induction l with
  | nil => exact .nil
  | cons x l ih => exact .cons (h x (by simp)) (ih fun y hy => h y (by simp [hy]))

/-- the total duration of a control is positive -/
theorem duration_pos (c : DrivenControl (Fl r)) (h : c.Constructed) (h0 : c.durations ≠ [])
    (hn : 2 * (c.durations.length * r.u) < 1) : 0 < c.duration.val := by
  obtain ⟨hpos, -⟩ := constructed_rounded h
  have h1 := r.sum_close (c.durations.map val) (by rw [List.length_map]; linarith)
  have h2 : ((c.durations.map val).map fun x => |x|) = c.durations.map val := by
    rw [List.map_map]
    refine List.map_congr_left fun x hx => ?_
    exact abs_of_pos (hpos x hx)
  have h3 : 0 < (c.durations.map val).sum := by
    apply List.sum_pos
    · intro x hx
      obtain ⟨y, hy, rfl⟩ := List.mem_map.mp hx
      exact hpos y hy
    · simpa using h0
  rw [h2, List.length_map] at h1
  have h4 := (abs_le.mp h1).1
  show 0 < r.sum (c.durations.map val)
  nlinarith

theorem pulse_rel {w φ d w' φ' d' : ℝ} (hw : Rel r 2 w' w) (hφ : Rel r 2 φ' φ) (hd : Rel r 2 d' d) :
    ‖pulseUnitary w' φ' d' - pulseUnitary w φ d‖ ≤ 3 * r.u * (|w| * (1 + |φ|) + |d|) := by
  rw [pulseUnitary_eq_segmentUnitary, pulseUnitary_eq_segmentUnitary]
  refine (segment_dist_all _ _ _ _ _ _ _ _).trans ?_
  simp only [mul_one]
  have h1 := hw.small (K := 5) (by norm_num) (by norm_num) (by norm_num)
  have h2 := hd.small (K := 5) (by norm_num) (by norm_num) (by norm_num)
  have h3 := hφ.small (K := 5) (by norm_num) (by norm_num) (by norm_num)
  have hu := r.u_nonneg
  have h4 := mul_le_mul_of_nonneg_left h3 (abs_nonneg w)
  have k1 : 0 ≤ r.u * |w| := by positivity
  have k2 : 0 ≤ r.u * |d| := by positivity
  have k3 : 0 ≤ |w| * (r.u * |φ|) := by positivity
  nlinarith

theorem pulseUnitary_norm_one (w φ d : ℝ) : ‖pulseUnitary w φ d‖ = 1 := by
  rw [pulseUnitary_eq_segmentUnitary, segmentUnitary_norm]

theorem pulseProduct_norm_le (ws φs ds : List ℝ) : ‖pulseProduct ws φs ds‖ ≤ 1 := by
  induction ws generalizing φs ds with
  | nil => simp [pulseProduct]
  | cons w ws ih =>
    cases φs with
    | nil => simp [pulseProduct]
    | cons φ φs =>
      cases ds with
      | nil => simp [pulseProduct]
      | cons d ds =>
        rw [pulseProduct]
        refine (norm_mul_le _ _).trans ?_
        rw [pulseUnitary_norm_one, mul_one]
        exact ih φs ds

theorem pulseProduct_rel {ws' φs' ds' ws φs ds : List ℝ} (hw : List.Forall₂ (Rel r 2) ws' ws)
    (hφ : List.Forall₂ (Rel r 2) φs' φs) (hd : List.Forall₂ (Rel r 2) ds' ds) :
    ‖pulseProduct ws' φs' ds' - pulseProduct ws φs ds‖ ≤ 3 * r.u * pulseExposure ws φs ds := by
  induction hw generalizing φs' ds' φs ds with
  | nil => simp [pulseProduct, pulseExposure]
  | cons h1 hw ih =>
    cases hφ with
    | nil => simp [pulseProduct, pulseExposure]
    | cons h2 hφ =>
      cases hd with
      | nil => simp [pulseProduct, pulseExposure]
      | cons h3 hd =>
        rw [pulseProduct, pulseProduct, pulseExposure]
        refine (mul_dist (by rw [pulseUnitary_norm_one]) (pulseProduct_norm_le _ _ _)).trans ?_
        have e1 := ih hφ hd
        have e2 := pulse_rel h1 h2 h3
        rw [mul_add]
        linarith

theorem near_of_rel {xs ys : List ℝ} (h : List.Forall₂ (Rel r 2) xs ys) : EntriesNear (5 * r.u) xs ys :=
  h.imp fun _ _ h => h.small (K := 5) (by norm_num) (by norm_num) (by norm_num)

theorem zero_entry (x m : Fl r) (hx : x.val = 0) : Rel r 2 (x * m).val 0 := by
  rw [val_mul, hx, zero_mul, r.rnd_zero]
  exact (Rel.refl 0).mono (by norm_num)

/-- an entry of a line times its factor, if the factor is 0 only when the entries are 0 -/
theorem shown_rel {m : Fl r} (x : Fl r) (h : m.val = 0 → x.val = 0) :
    Rel r 2 ((if Py.ne m (lit 0) then x / m else lit 0) * m).val x.val := by
  by_cases hm : m.val = 0
  · rw [if_neg (by simp [hm]), h hm]
    exact zero_entry _ _ (by simp)
  · rw [if_pos (by simpa using hm)]
    exact entry_rel hm x

theorem pi_ne_zero_val : (PyFloat.pi : Fl r).val ≠ 0 := by
  have := (rnd_pi_bounds (r := r)).1
  rw [val_pi]
  linarith

theorem readFl_zero : readFl r ['0'] = some (lit 0) := by
  unfold readFl
  rw [if_pos (by decide)]
  congr 1
  have : numberValue ['0'] = 0 := by
    simp [numberValue, unsignedValue, numberParts, digitsValue]
    try decide
  rw [this]
  rfl

/-- an offset times the duration -/
theorem offset_range {T o : Fl r} (hT : 0 < T.val) (h0 : 0 ≤ o.val) (h1 : o.val ≤ T.val) :
    0 ≤ (o / T * T).val ∧ (o / T * T).val ≤ T.val := by
  rw [val_mul, val_div]
  have k0 : 0 ≤ r.rnd (o.val / T.val) := r.rnd_nonneg (by positivity)
  have k1 : r.rnd (o.val / T.val) ≤ 1 := by
    have := r.mono ((div_le_one hT).mpr h1)
    rwa [r.rnd_one] at this
  refine ⟨r.rnd_nonneg (by positivity), ?_⟩
  have := r.mono (show r.rnd (o.val / T.val) * T.val ≤ T.val by nlinarith)
  rwa [show r.rnd T.val = T.val from T.2] at this

end Printed

end OpenControls
