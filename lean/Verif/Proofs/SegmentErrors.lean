import Verif.Spec.RoundedErrors
import Verif.Spec.ResidualError
import Verif.Proofs.ExpLipschitz
import Verif.Proofs.RoundedControl

/-!
# How far apart the evolutions of two nearby controls are, under the same systematic errors
-/

namespace OpenControls

open Spec Complex

open scoped Matrix.Norms.L2Operator

theorem segment_norm (Ω φ Δ t : ℝ) : ‖segmentUnitary Ω φ Δ t‖ = 1 := by
  unfold segmentUnitary hamiltonian
  exact field_norm _ _ _ _

theorem one_sub_cos_le (x : ℝ) : 2 * (1 - Real.cos x) ≤ x ^ 2 := by
  have := Real.one_sub_sq_div_two_le_cos (x := x)
  linarith

/-- Two segments with the same detuning. -/
theorem segment_dist (w φ d t w' φ' t' : ℝ) :
    ‖segmentUnitary w φ d t - segmentUnitary w' φ' d t'‖ ≤
      (|w * t - w' * t'| + |w' * t'| * |φ - φ'| + |d| * |t - t'|) / 2 := by
  have h1 : ‖segmentUnitary w φ d t - segmentUnitary w' φ d t'‖ ≤ (|w * t - w' * t'| + |d| * |t - t'|) / 2 := by
    refine (field_dist _ _ _ _ _ _ _ _).trans ?_
    gcongr
    rw [Real.sqrt_le_left (by positivity)]
    have e : (w * Real.cos φ * t - w' * Real.cos φ * t') ^ 2 + (w * Real.sin φ * t - w' * Real.sin φ * t') ^ 2 =
        |w * t - w' * t'| ^ 2 := by
      rw [sq_abs]
      linear_combination (w * t - w' * t') ^ 2 * Real.cos_sq_add_sin_sq φ
    have e2 : (d * t - d * t') ^ 2 = (|d| * |t - t'|) ^ 2 := by
      rw [← abs_mul, sq_abs]; ring
    rw [e, e2]
    nlinarith [mul_nonneg (abs_nonneg (w * t - w' * t')) (mul_nonneg (abs_nonneg d) (abs_nonneg (t - t')))]
  have h2 : ‖segmentUnitary w' φ d t' - segmentUnitary w' φ' d t'‖ ≤ |w' * t'| * |φ - φ'| / 2 := by
    refine (field_dist _ _ _ _ _ _ _ _).trans ?_
    gcongr
    rw [Real.sqrt_le_left (by positivity), mul_pow, sq_abs, sq_abs]
    have e : (w' * Real.cos φ * t' - w' * Real.cos φ' * t') ^ 2 +
        (w' * Real.sin φ * t' - w' * Real.sin φ' * t') ^ 2 + (d * t' - d * t') ^ 2 =
        (w' * t') ^ 2 * (2 * (1 - Real.cos (φ - φ'))) := by
      rw [Real.cos_sub]
      linear_combination (w' * t') ^ 2 * (Real.cos_sq_add_sin_sq φ + Real.cos_sq_add_sin_sq φ')
    rw [e]
    gcongr
    exact one_sub_cos_le _
  have h3 := norm_sub_le_norm_sub_add_norm_sub (segmentUnitary w φ d t) (segmentUnitary w' φ d t')
    (segmentUnitary w' φ' d t')
  linarith

/-- the evolution of a list of segments under the errors `e` and `d` -/
noncomputable def faulty (e d : ℝ) : List (ℝ × ℝ × ℝ × ℝ) → M2
  | [] => 1
  | (w, φ, Δ, t) :: l => faulty e d l * segmentUnitary ((1 + e) * w) φ (Δ + d) t

theorem evolution_withErrors (e d : ℝ) (c : DrivenControl ℝ) :
    evolution (withErrors e d c) = faulty e d (segmentList c) := by
  obtain ⟨a, b, x, t, n⟩ := c
  unfold evolution withErrors withDetuningError withAmplitudeError segmentList
  simp only
  induction a generalizing b x t with
  | nil => cases b <;> rfl
  | cons w a ih =>
    cases b with
    | nil => rfl
    | cons φ b =>
      cases x with
      | nil => rfl
      | cons Δ x =>
        cases t with
        | nil => rfl
        | cons τ t =>
          simp only [List.map_cons, controlEvolution_cons, cartesianSegments, faulty]
          rw [ih]

theorem faulty_norm (e d : ℝ) (l : List (ℝ × ℝ × ℝ × ℝ)) : ‖faulty e d l‖ ≤ 1 := by
  induction l with
  | nil => exact norm_one.le
  | cons s l ih =>
    obtain ⟨w, φ, Δ, t⟩ := s
    refine (norm_mul_le _ _).trans ?_
    rw [segment_norm, mul_one]
    exact ih

/-- the angle swept by a list of segments -/
noncomputable def sweptList (l : List (ℝ × ℝ × ℝ × ℝ)) : ℝ := (l.map fun s => |s.1 * s.2.2.2|).sum

theorem faulty_dist {δ Ω : ℝ} (hΩ : 0 < Ω) (e d : ℝ) {l l' : List (ℝ × ℝ × ℝ × ℝ)}
    (h : List.Forall₂ (SegmentNear δ Ω) l l') :
    ‖faulty e d l - faulty e d l'‖ ≤
      δ / 2 * ((1 + |e|) * (l'.length + sweptList l') + l'.length * (|d| / Ω)) := by
  induction h with
  | nil => simp [faulty, sweptList]
  | @cons s s' l l' hs h ih =>
    obtain ⟨w, φ, Δ, t⟩ := s
    obtain ⟨w', φ', Δ', t'⟩ := s'
    obtain ⟨h1, h2, rfl, rfl, h5⟩ := hs
    have hδ : 0 ≤ δ := (abs_nonneg _).trans h1
    refine (mul_dist (segment_norm _ _ _ _).le (faulty_norm _ _ _)).trans ?_
    have hd := segment_dist ((1 + e) * w) φ (0 + d) t ((1 + e) * w') φ' t'
    have he : |1 + e| ≤ 1 + |e| := by
      have := abs_add_le 1 e
      rwa [abs_one] at this
    have a1 : |(1 + e) * w * t - (1 + e) * w' * t'| ≤ (1 + |e|) * δ := by
      rw [mul_assoc, mul_assoc, ← mul_sub, abs_mul]
      gcongr
    have a2 : |(1 + e) * w' * t'| * |φ - φ'| ≤ (1 + |e|) * |w' * t'| * δ := by
      rw [mul_assoc, abs_mul]
      gcongr
    have a3 : |0 + d| * |t - t'| ≤ |d| / Ω * δ := by
      rw [zero_add, div_mul_eq_mul_div, le_div_iff₀ hΩ]
      calc |d| * |t - t'| * Ω = |d| * (Ω * |t - t'|) := by ring
        _ ≤ _ := by gcongr
    simp only [sweptList, List.map_cons, List.sum_cons, List.length_cons] at ih ⊢
    push_cast
    nlinarith

theorem segmentList_length {c : DrivenControl ℝ} (h1 : c.rabiRates.length = c.durations.length)
    (h2 : c.azimuthalAngles.length = c.durations.length) (h3 : c.detunings.length = c.durations.length) :
    (segmentList c).length = c.durations.length ∧ sweptList (segmentList c) = sweptAngle c := by
  obtain ⟨a, b, x, t, n⟩ := c
  unfold segmentList sweptAngle
  simp only at *
  induction a generalizing b x t with
  | nil =>
    cases t with
    | cons _ _ => simp at h1
    | nil => cases b <;> simp [cartesianSegments, sweptList]
  | cons w a ih =>
    cases t with
    | nil => simp at h1
    | cons τ t =>
      cases b with
      | nil => simp at h2
      | cons φ b =>
        cases x with
        | nil => simp at h3
        | cons Δ x =>
          simp only [List.length_cons, Nat.add_right_cancel_iff] at h1 h2 h3
          obtain ⟨i1, i2⟩ := ih b x t h1 h2 h3
          simp only [cartesianSegments, List.length_cons, i1, sweptList, List.map_cons, List.sum_cons,
            List.zipWith_cons_cons]
          exact ⟨trivial, by rw [← i2]; rfl⟩

/-- two tables, the first in computed numbers, together with the rounding of the division by the Rabi rate -/
theorem near_tables {r : Rounding} {Ω : Fl r} (hΩ : 0 < Ω.val) {δ : ℝ} {t : List (Fl r × Fl r)}
    {t' : List (ℝ × ℝ)} (name name' : Option String)
    (h : List.Forall₂ (fun (p : Fl r × Fl r) (q : ℝ × ℝ) => |p.1.val - q.1| + r.u * |p.1.val| ≤ δ ∧
      |p.2.val - q.2| ≤ δ) t t') :
    NearSegments δ Ω.val ((roundedControl Ω t name).map Fl.val) (ofTable Ω.val t' name') := by
  unfold NearSegments segmentList roundedControl ofTable DrivenControl.map
  simp only
  induction h with
  | nil => exact .nil
  | @cons p q t t' hp h ih =>
    refine .cons ⟨?_, hp.2, by simp, rfl, ?_⟩ ih
    all_goals
      have h1 : |Ω.val * (p.1 / Ω).val - p.1.val| ≤ r.u * |p.1.val| := by
        have h := r.close (p.1.val / Ω.val)
        have e : Ω.val * (p.1 / Ω).val - p.1.val = Ω.val * (r.rnd (p.1.val / Ω.val) - p.1.val / Ω.val) := by
          rw [Fl.val_div, mul_sub, mul_div_cancel₀ _ hΩ.ne']
        rw [e, abs_mul, abs_of_pos hΩ]
        rw [abs_div, abs_of_pos hΩ] at h
        calc _ ≤ Ω.val * (r.u * (|p.1.val| / Ω.val)) := by gcongr
          _ = _ := by field_simp
      have h2 : |Ω.val * (p.1 / Ω).val - Ω.val * (q.1 / Ω.val)| ≤ δ := by
        rw [mul_div_cancel₀ _ hΩ.ne']
        have := abs_sub_le (Ω.val * (p.1 / Ω).val) p.1.val q.1
        linarith [hp.1]
    · exact h2
    · rwa [← mul_sub, abs_mul, abs_of_pos hΩ] at h2

end OpenControls
