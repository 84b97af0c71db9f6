import Verif.Proofs.FiniteWidthFamilies

/-!
# Converted sequences with pre and post rotations and a constant detuning error
-/

namespace OpenControls

open Spec RealInst

variable {T R D m : ℝ}

/-! ### The last pulse -/

theorem detunedEvolution_append (name : Option String) (gs hs : List (Segment ℝ)) (d : ℝ) :
    detunedEvolution name (gs ++ hs) d = detunedEvolution name hs d * detunedEvolution name gs d := by
  induction gs with
  | nil => exact (mul_one _).symm
  | cons g r ih =>
    have e : ∀ l : List (Segment ℝ), detunedEvolution name (g :: l) d = detunedEvolution name l d *
        segmentUnitary g.rabi g.azimuthal (g.detuning + d) g.duration := fun _ => rfl
    rw [List.cons_append, e, e, ih, mul_assoc]

/-- a pulse at the end takes its width from what is before -/
theorem last_split (hT : 0 < T) (hR : 0 < R) (hD : 0 < D) {q : Pulse} (hq : q.offset = T)
    (hw : 0 < width R D m q) (l : List (ℝ × Axis)) (a : ℝ)
    (hf : fitsFrom T R D m a (l.map tablePulse ++ [q])) :
    fitsFrom (T - width R D m q) R D m a (l.map tablePulse) ∧
    keptFrom T R D m a (l.map tablePulse ++ [q]) =
      keptFrom (T - width R D m q) R D m a (l.map tablePulse) ++ keep (pulseSeg R D m q) ∧
    ∀ p ∈ l, p.1 ≠ T ∧ p.1 ≠ T - width R D m q := by
  have hwin : window T R D m q = (T - width R D m q, T) := by
    simp [window, hq, hT.ne']
  induction l generalizing a with
  | nil =>
    simp only [List.map_nil, List.nil_append, fitsFrom, keptFrom, hwin] at hf ⊢
    refine ⟨hf.1, ?_, by simp⟩
    rw [keep_nonpos (g := ⟨0, 0, 0, T - T⟩) (by simp), List.append_nil]
  | cons p r ih =>
    simp only [List.map_cons, List.cons_append, fitsFrom, keptFrom] at hf ⊢
    obtain ⟨h1, h2⟩ := hf
    obtain ⟨i1, i2, i3⟩ := ih _ h2
    have hle := (centres_bounds hR hD r _ i1).1
    have hp := piWidth_pos (m := m) hR hD p.2
    rw [← width_tablePulse (R := R) (D := D) (m := m) p] at hp
    have n1 : p.1 ≠ T := by
      intro h
      have : (window T R D m (tablePulse p)).2 = T := window_end hT h
      rw [this] at hle
      linarith
    have n2 : p.1 ≠ T - width R D m q := by
      intro h
      by_cases h0 : p.1 = 0
      · have : (window T R D m (tablePulse p)).2 = width R D m (tablePulse p) := by
          simp [window, tablePulse, h0]
        rw [this] at hle
        linarith
      · have : (window T R D m (tablePulse p)).2 = p.1 + width R D m (tablePulse p) / 2 := by
          have e1 : (tablePulse p).offset ≠ 0 := h0
          have e2 : (tablePulse p).offset ≠ T := n1
          unfold window
          rw [if_neg e1, if_neg e2]
          rfl
        rw [this] at hle
        linarith
    have hsame : window (T - width R D m q) R D m (tablePulse p) = window T R D m (tablePulse p) := by
      have e2 : (tablePulse p).offset ≠ T := n1
      have e3 : (tablePulse p).offset ≠ T - width R D m q := n2
      unfold window
      rw [if_neg e2, if_neg e3]
    rw [hsame, i2]
    refine ⟨⟨h1, i1⟩, by simp only [List.append_assoc], ?_⟩
    intro x hx
    rcases List.mem_cons.mp hx with rfl | hx
    · exact ⟨n1, n2⟩
    · exact i3 x hx

/-! ### π/2 rotations -/

theorem half_pi_not_negligible : ¬ Negligible (Real.pi / 2) := by
  have := Real.pi_gt_three
  unfold Negligible
  rw [abs_of_pos (by positivity)]
  norm_num
  linarith

/-- the width of a π/2 rotation -/
noncomputable def halfWidth (R m : ℝ) : ℝ := max (Real.pi / 2 / R) m

theorem halfWidth_pos (hR : 0 < R) : 0 < halfWidth R m := by
  have := Real.pi_pos
  exact lt_max_of_lt_left (by positivity)

theorem width_half (t φ : ℝ) : width R D m ⟨t, Real.pi / 2, φ, 0⟩ = halfWidth R m := by
  simp [width, half_pi_not_negligible, halfWidth]

theorem pulseSeg_half (t φ : ℝ) : pulseSeg R D m ⟨t, Real.pi / 2, φ, 0⟩ =
    ⟨Real.pi / 2 / halfWidth R m, φ, 0, halfWidth R m⟩ := by
  unfold pulseSeg drive
  rw [width_half]
  simp [half_pi_not_negligible]

theorem half_deriv {w : ℝ} (hw : 0 < w) {φ : ℝ} (hφ : Real.sin φ = 0) :
    segmentUnitary (Real.pi / 2 / w) φ 0 w = rotation (Real.pi / 2) φ ∧
    HasMatrixDerivAt (fun d => segmentUnitary (Real.pi / 2 / w) φ (0 + d) w)
      (rotation (Real.pi / 2) φ * su2 0 0 (Real.cos φ * (w / Real.pi)) (w / Real.pi)) 0 := by
  have hpi := Real.pi_pos
  have e : Real.pi / 2 / w * w = Real.pi / 2 := by field_simp
  refine ⟨by rw [segmentUnitary_resonant, e], ?_⟩
  refine (segment_detuning_deriv (by positivity) φ w).congr ?_
  have hc : Real.cos φ ^ 2 = 1 := by
    have := Real.cos_sq_add_sin_sq φ
    rw [hφ] at this
    linarith
  have e4 : Real.pi / 2 / 2 = Real.pi / 4 := by ring
  have hs : Real.cos (Real.pi / 4) = Real.sin (Real.pi / 4) := by
    rw [Real.cos_pi_div_four, Real.sin_pi_div_four]
  rw [e, rotation_eq, e4, hφ, hs, su2_mul, su2_inj]
  refine ⟨by ring, by ring, by ring, ?_⟩
  have : Real.sin (Real.pi / 4) / (Real.pi / 2 / w) = Real.sin (Real.pi / 4) * (2 * (w / Real.pi)) := by
    field_simp
  rw [this]
  linear_combination -(Real.sin (Real.pi / 4) * (w / Real.pi)) * hc

theorem su2_half (a b c d : ℝ) : su2 a b c d * rotation (Real.pi / 2) 0 =
    rotation (Real.pi / 2) 0 * su2 a b d (-c) := by
  have e4 : Real.pi / 2 / 2 = Real.pi / 4 := by ring
  have hs : Real.cos (Real.pi / 4) = Real.sin (Real.pi / 4) := by
    rw [Real.cos_pi_div_four, Real.sin_pi_div_four]
  rw [rotation_eq, e4, Real.cos_zero, Real.sin_zero, hs, su2_mul, su2_mul, su2_inj]
  refine ⟨by ring, by ring, by ring, by ring⟩

/-! ### Signs of all pulses -/

/-- the sign of noise along an axis after all pulses of a table -/
noncomputable def tableSign (c : Axis) (l : List (ℝ × Axis)) : ℝ := (l.map fun p => axisSign c p.2).prod

theorem tableSign_cons (c : Axis) (p : ℝ × Axis) (r : List (ℝ × Axis)) :
    tableSign c (p :: r) = axisSign c p.2 * tableSign c r := by
  simp [tableSign]

theorem su2_tableProduct (l : List (ℝ × Axis)) (w a b c : ℝ) : su2 w a b c * tableProduct l =
    tableProduct l * su2 w (tableSign .x l * a) (tableSign .y l * b) (tableSign .z l * c) := by
  induction l generalizing a b c with
  | nil => simp [tableProduct, tableSign]
  | cons p r ih =>
    rw [tableProduct, ← mul_assoc, ih, mul_assoc, su2_axisPulse, ← mul_assoc, tableSign_cons,
      tableSign_cons, tableSign_cons]
    simp only [mul_assoc]

theorem axisSum_shift (c : Axis) (x y : ℝ) (l : List (ℝ × Axis)) :
    axisSum id c T x l = (y - x) + axisSum id c T y l := by
  cases l <;> simp only [axisSum, id] <;> ring

theorem axisSum_end (c : Axis) (b a : ℝ) (l : List (ℝ × Axis)) :
    axisSum id c T a l = axisSum id c b a l + tableSign c l * (T - b) := by
  induction l generalizing a with
  | nil => simp only [axisSum, id, tableSign, List.map_nil, List.prod_nil]; ring
  | cons p r ih =>
    rw [axisSum, axisSum, ih, tableSign_cons]
    ring

theorem switching_end (c : Axis) (l : List (ℝ × Axis)) (h : ∀ p ∈ l, p.1 < T) :
    switching (axisFlips c l) T = tableSign c l := by
  induction l with
  | nil => simp [switching, axisFlips, tableSign]
  | cons p r ih =>
    rw [switching_later c p r (h p List.mem_cons_self), ih fun q hq => h q (List.mem_cons_of_mem _ hq),
      tableSign_cons]

theorem tableSign_square (c : Axis) (l : List (ℝ × Axis)) : tableSign c l ^ 2 = 1 := by
  induction l with
  | nil => simp [tableSign]
  | cons p r ih =>
    rw [tableSign_cons, mul_pow, ih]
    unfold axisSign
    split <;> norm_num

/-- the final rotation is about X or -X, opposite to the sign of noise along Y -/
theorem finalAngle_sign (l : List (ℝ × Axis)) :
    Real.cos (finalAngle l) = -tableSign .y l ∧ Real.sin (finalAngle l) = 0 := by
  have key : tableSign .y l = if (countAxes .x .y l % 2 = 0 ↔ countAxes .y .z l % 2 = 0)
      then 1 else -1 := by
    induction l with
    | nil => simp [tableSign, countAxes]
    | cons p r ih =>
      obtain ⟨t, a⟩ := p
      rw [tableSign_cons, ih]
      unfold countAxes
      generalize hu : r.countP (fun p => decide (p.2 = .x ∨ p.2 = .y)) = u
      generalize hv : r.countP (fun p => decide (p.2 = .y ∨ p.2 = .z)) = v
      have hu2 := Nat.mod_two_eq_zero_or_one u
      have hv2 := Nat.mod_two_eq_zero_or_one v
      cases a <;> simp only [List.countP_cons, hu, hv, axisSign] <;>
        rcases hu2 with hu2 | hu2 <;> rcases hv2 with hv2 | hv2 <;> simp [hu2, hv2, Nat.add_mod]
  unfold finalAngle
  rw [key]
  split <;> simp

/-! ### The error -/

theorem pulseList_prePost (T : ℝ) (l : List (ℝ × Axis)) (name : Option String) (φ : ℝ) :
    pulseList (withPrePost φ (piSequence T l name)) =
      ⟨0, Real.pi / 2, 0, 0⟩ :: (l.map tablePulse ++ [⟨T, Real.pi / 2, φ, 0⟩]) := by
  have key : ∀ l : List (ℝ × Axis), List.zipWith
      (fun t r => (⟨t, r.1, r.2.1, r.2.2⟩ : Pulse)) (l.map (·.1) ++ [T])
      ((l.map (·.2.rabi) ++ [Real.pi / 2]).zip
        ((l.map (·.2.azimuthal) ++ [φ]).zip (l.map (·.2.detuning) ++ [0]))) =
      l.map tablePulse ++ [⟨T, Real.pi / 2, φ, 0⟩] := by
    intro l
    induction l with
    | nil => rfl
    | cons p r ih =>
      simp only [List.map_cons, List.cons_append, List.zip_cons_cons, List.zipWith_cons_cons]
      rw [ih]; rfl
  have := key l
  simp only [pulseList, withPrePost, piSequence, List.zip_cons_cons, List.zipWith_cons_cons] at this ⊢
  rw [this]

theorem rotations_deriv (hT : 0 < T) (hR : 0 < R) (hD : 0 < D) (name : Option String)
    (l : List (ℝ × Axis)) (hl : ∀ p ∈ l, 0 < p.1 ∧ p.1 ≤ T)
    (hf : fitsFrom T R D m 0
      (⟨0, Real.pi / 2, 0, 0⟩ :: (l.map tablePulse ++ [⟨T, Real.pi / 2, finalAngle l, 0⟩]))) :
    ((∀ p ∈ l, p.1 < T) ∧ l.Pairwise fun p q => p.1 < q.1) ∧
    HasMatrixDerivAt (detunedEvolution name (keptFrom T R D m 0
        (⟨0, Real.pi / 2, 0, 0⟩ :: (l.map tablePulse ++ [⟨T, Real.pi / 2, finalAngle l, 0⟩]))))
      (rotation (Real.pi / 2) (finalAngle l) * tableProduct l * rotation (Real.pi / 2) 0 *
        su2 0 (-(piWidth R D m .x / Real.pi) * crossSum .y .x l)
          ((axisSum id .z T 0 l - (1 - 2 / Real.pi) * halfWidth R m * (1 + tableSign .z l)) / 2)
          (2 * (halfWidth R m / Real.pi) - piWidth R D m .x / Real.pi * crossSum .x .y l)) 0 := by
  have hw := halfWidth_pos (m := m) hR
  have hpi := Real.pi_pos
  have hwq := width_half (R := R) (D := D) (m := m) T (finalAngle l)
  have hwp := width_half (R := R) (D := D) (m := m) 0 0
  obtain ⟨h1, h2⟩ := hf
  have hwin : window T R D m ⟨0, Real.pi / 2, 0, 0⟩ = (0, halfWidth R m) := by
    simp [window, hwp]
  rw [hwin] at h2
  simp only at h2
  obtain ⟨i1, i2, i3⟩ := last_split hT hR hD (q := ⟨T, Real.pi / 2, finalAngle l, 0⟩) rfl
    (by rw [hwq]; exact hw) l _ h2
  rw [hwq] at i1 i2 i3
  have hlt : ∀ p ∈ l, p.1 < T := fun p hp => lt_of_le_of_ne (hl p hp).2 (i3 p hp).1
  have hpw := (centres_bounds hR hD l _ i1).2.2
  obtain ⟨v, d1⟩ := keptFrom_deriv hR hD name l _ i1
  obtain ⟨hcos, hsin⟩ := finalAngle_sign l
  obtain ⟨vq, dq⟩ := half_deriv hw hsin
  obtain ⟨vp, dp⟩ := half_deriv hw Real.sin_zero
  have hcen : l.map (centreOf (T - halfWidth R m) R D m) = l := by
    conv_rhs => rw [← List.map_id l]
    apply List.map_congr_left
    intro p hp
    have e1 : (tablePulse p).offset ≠ 0 := (hl p hp).1.ne'
    have e2 : (tablePulse p).offset ≠ T - halfWidth R m := (i3 p hp).2
    unfold centreOf window
    rw [if_neg e1, if_neg e2]
    ext
    · show (p.1 - _ + (p.1 + _)) / 2 = p.1
      ring
    · rfl
  rw [hcen] at d1 hpw
  refine ⟨⟨hlt, hpw⟩, ?_⟩
  have e : detunedEvolution name (keptFrom T R D m 0
      (⟨0, Real.pi / 2, 0, 0⟩ :: (l.map tablePulse ++ [⟨T, Real.pi / 2, finalAngle l, 0⟩]))) =
      fun d => segmentUnitary (Real.pi / 2 / halfWidth R m) (finalAngle l) (0 + d) (halfWidth R m) *
        detunedEvolution name (keptFrom (T - halfWidth R m) R D m (halfWidth R m) (l.map tablePulse)) d *
        segmentUnitary (Real.pi / 2 / halfWidth R m) 0 (0 + d) (halfWidth R m) := by
    funext d
    rw [keptFrom, hwin, keep_nonpos (g := ⟨0, 0, 0, _⟩) (by simp), List.nil_append, i2, pulseSeg_half,
      pulseSeg_half, detunedEvolution_keep name hw.le, detunedEvolution_append]
    have := detunedEvolution_keep name
      (g := ⟨Real.pi / 2 / halfWidth R m, finalAngle l, 0, halfWidth R m⟩) hw.le [] d
    rw [List.append_nil] at this
    rw [this]
    have e0 : detunedEvolution name [] d = 1 := rfl
    rw [e0, one_mul]
  have s1 := deriv_step (by rw [add_zero]; exact vq) v dq d1 (su2_tableProduct _ _ _ _ _)
  rw [su2_add] at s1
  have s2 := deriv_step (by rw [add_zero, vq, v]) (by rw [add_zero]; exact vp) s1 dp (su2_half _ _ _ _)
  rw [e]
  refine s2.congr ?_
  congr 1
  rw [axisSum_shift .z 0 (halfWidth R m) l, axisSum_end (T := T) .z (T - halfWidth R m) (halfWidth R m) l, su2_add, su2_inj, hcos,
    Real.cos_zero]
  have hsq := tableSign_square .y l
  refine ⟨by simp, by ring, ?_, ?_⟩
  · have h2 : (2 / Real.pi) * halfWidth R m = 2 * (halfWidth R m / Real.pi) := by ring
    linear_combination (-(1 + tableSign .z l) / 2) * h2
  · linear_combination (halfWidth R m / Real.pi) * hsq

theorem signedCount_rotations (pulse noise : Axis) (T : ℝ) (l : List (ℝ × Axis)) (name : Option String)
    (hs : l.Pairwise fun p q => p.1 < q.1) :
    signedCount pulse noise (finished T l true name) = crossSum pulse noise l := by
  classical
  have hpi := Real.pi_pos
  have hne : ∀ t φ, ¬ Pulse.IsPi ⟨t, Real.pi / 2, φ, 0⟩ pulse := by
    intro t φ h
    have := h.1
    cases pulse <;> simp only [Axis.rabi] at this <;> linarith
  have e : finished T l true name = withPrePost (finalAngle l) (piSequence T l name) := rfl
  rw [← crossSum_eq pulse noise l hs, ← signedCount_table pulse noise T l name]
  unfold signedCount
  rw [e, pulseList_prePost, pulseList_pi, List.filter_cons_of_neg (by simpa using hne _ _),
    List.filter_append, List.filter_cons_of_neg (by simpa using hne _ _), List.filter_nil,
    List.append_nil, ← e]
  congr 1
  apply List.map_congr_left
  intro p _
  rw [sensitivityAlong_finished]
  have e' : piSequence T l name = finished T l false name := rfl
  rw [e', sensitivityAlong_finished]

end OpenControls
