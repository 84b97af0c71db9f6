import Verif.Proofs.Converted
import Verif.Proofs.RoundedControl
import Verif.Spec.RoundedConversion

/-!
# The conversion in rounded arithmetic: pulses, windows, evolution
-/

namespace OpenControls

open Spec Fl

open scoped Matrix.Norms.L2Operator

variable {r : Rounding}

/-! ## Pulses -/

/-- the pulse an operation stands for -/
def vp (o : Operation (Fl r)) : Pulse := ⟨o.offset.val, o.rabi.val, o.azimuthal.val, o.detuning.val⟩

theorem operationsOf_val (o x a d : List (Fl r)) :
    (operationsOf o x a d).map vp = List.zipWith (fun t r => (⟨t, r.1, r.2.1, r.2.2⟩ : Pulse))
      (o.map val) ((x.map val).zip ((a.map val).zip (d.map val))) := by
  induction o generalizing x a d with
  | nil => cases x <;> cases a <;> cases d <;> rfl
  | cons t o ih =>
    cases x with
    | nil => rfl
    | cons x xs =>
      cases a with
      | nil => rfl
      | cons y a =>
        cases d with
        | nil => rfl
        | cons z d => simp [operationsOf, ih, vp]

theorem vp_idle (t : Fl r) : vp (idleAt t) = idlePulse t.val := by
  simp [vp, idleAt, idlePulse]

theorem padOperations_val (T : Fl r) (ops : List (Operation (Fl r))) :
    (padOperations T ops).map vp = pad T.val (ops.map vp) := by
  cases ops with
  | nil => simp [padOperations, pad, vp, idleAt, idlePulse]
  | cons p l =>
    have hl : ∀ (x : Operation (Fl r)) , ((x :: p :: l).getLast?) = ((p :: l).getLast?) := by
      intro x; simp [List.getLast?_cons]
    obtain ⟨b, hb⟩ : ∃ b, (p :: l).getLast? = some b := ⟨_, List.getLast?_eq_getLast_of_ne_nil (by simp)⟩
    have hb' : (((p :: l).map vp).map Pulse.offset).getLast? = some b.offset.val := by
      rw [List.getLast?_map, List.getLast?_map, hb]; rfl
    unfold pad padOperations
    rw [hb']
    simp only [List.map_cons, List.head?_cons, List.isEmpty_cons, Bool.false_eq_true, if_false,
      Option.some.injEq]
    have ep : (vp p).offset = p.offset.val := rfl
    by_cases h0 : p.offset.val = 0
    · have e1 : Py.ne p.offset (PyFloat.lit 0) = false := by
        rw [← Bool.not_eq_true, ne_iff]; simp [h0]
      simp only [e1, Bool.false_eq_true, if_false, ep, h0, if_true]
      rw [hb]
      by_cases h1 : b.offset.val = T.val
      · have : Py.ne b.offset T = false := by rw [← Bool.not_eq_true, ne_iff]; simp [h1]
        simp [h1, this]
      · have : Py.ne b.offset T = true := by rw [ne_iff]; exact h1
        simp [h1, this, vp_idle]
    · have e1 : Py.ne p.offset (PyFloat.lit 0) = true := by rw [ne_iff]; simpa using h0
      simp only [e1, if_true, ep, h0, if_false]
      rw [hl, hb]
      by_cases h1 : b.offset.val = T.val
      · have : Py.ne b.offset T = false := by rw [← Bool.not_eq_true, ne_iff]; simp [h1]
        simp [h1, this, vp_idle]
      · have : Py.ne b.offset T = true := by rw [ne_iff]; exact h1
        simp [h1, this, vp_idle]

/-- the operations of a sequence, as the conversion pads them -/
noncomputable def paddedOps (s : Sequence (Fl r)) : List (Operation (Fl r)) :=
  padOperations s.duration (operationsOf s.offsets s.rabiRotations s.azimuthalAngles
    s.detuningRotations)

theorem paddedOps_val (s : Sequence (Fl r)) :
    (paddedOps s).map vp = pad s.duration.val (pulseList (s.map val)) := by
  rw [paddedOps, padOperations_val, operationsOf_val]; rfl

theorem rounded_facts {s : Sequence (Fl r)} (h : s.Constructed) : (s.map val).Constructed := by
  obtain ⟨T, o, x, a, d, n, h⟩ := h
  rw [Sequence.new_eq] at h
  split at h
  · rename_i h1
    split at h
    · rename_i h2
      split at h
      · rename_i h3
        split at h
        · rename_i h4
          split at h
          · rename_i h5
            cases h
            refine ⟨T.val, o.map val, x.map val, a.map val, d.map val, n, ?_⟩
            rw [Sequence.new_eq, if_pos, if_pos, if_pos, if_pos, if_pos]
            · rfl
            · simpa using h5
            · simpa using h4
            · simpa using h3
            · simpa using h2
            · simpa using h1
          · cases h
        · cases h
      · cases h
    · cases h
  · cases h

/-! ## Tolerance -/

theorem isClose_zero_rounded (x : Fl r) :
    Py.isClose x (PyFloat.lit 0) = true ↔ |x.val| ≤ r.rnd (1 / 10 ^ 8) := by
  rw [isClose_eq, val_lit_zero]
  have e : (1 / 100000000 : ℝ) = 1 / 10 ^ 8 := by norm_num
  rw [sub_zero, x.rnd_val, abs_zero, mul_zero, r.rnd_zero, add_zero, r.idem, e]

theorem tolerance_bounds :
    (1 - r.u) / 10 ^ 8 ≤ r.rnd (1 / 10 ^ 8) ∧ r.rnd (1 / 10 ^ 8) ≤ (1 + r.u) / 10 ^ 8 := by
  have h := abs_le.mp (r.close (1 / 10 ^ 8))
  rw [abs_of_pos (by norm_num)] at h
  constructor <;> linarith [h.1, h.2]

theorem Spec.Clear.iff {x : Fl r} (h : Clear r.u x.val) :
    Py.isClose x (PyFloat.lit 0) = true ↔ Negligible x.val := by
  rw [isClose_zero_rounded]
  have := r.u_nonneg
  obtain ⟨h1, h2⟩ := tolerance_bounds (r := r)
  unfold Negligible
  rcases h with h | h
  · refine iff_of_true (h.trans h1) (h.trans ?_)
    apply div_le_div_of_nonneg_right _ (by positivity)
    linarith
  · refine iff_of_false (not_le.mpr (h2.trans_lt h)) (not_le.mpr (lt_of_le_of_lt ?_ h))
    apply div_le_div_of_nonneg_right _ (by positivity)
    linarith

theorem Spec.Clear.close_eq {x : Fl r} (h : Clear r.u x.val) :
    (Negligible x.val → Py.isClose x (PyFloat.lit 0) = true) ∧
    (¬ Negligible x.val → Py.isClose x (PyFloat.lit 0) = false) :=
  ⟨h.iff.mpr, fun hn => by rw [← Bool.not_eq_true]; exact fun h' => hn (h.iff.mp h')⟩

/-! ## Evolution -/

theorem pulseUnitary_z (δ : ℝ) :
    pulseUnitary 0 0 δ = su2 (Real.cos (δ / 2)) 0 0 (Real.sin (δ / 2)) := by
  have h := exp_pauli (δ / 2) 0 0 1 (by norm_num)
  rw [mul_zero, mul_one] at h
  rw [← h]
  unfold pulseUnitary hamiltonian
  congr 1
  ext i j
  fin_cases i <;> fin_cases j <;> simp [σx, σy, σz] <;> ring

theorem pulseUnitary_xy (θ φ : ℝ) : pulseUnitary θ φ 0 = rotation θ φ := by
  rw [pulseUnitary_eq_segmentUnitary, segmentUnitary_resonant, mul_one]

theorem pulseUnitary_z_norm (δ : ℝ) : ‖pulseUnitary 0 0 δ‖ = 1 := by
  have h : ‖pulseUnitary 0 0 δ‖ ^ 2 = 1 := by
    rw [pulseUnitary_z, su2_norm_sq]
    linear_combination Real.cos_sq_add_sin_sq (δ / 2)
  have := norm_nonneg (pulseUnitary 0 0 δ)
  nlinarith

theorem pulseUnitary_z_dist (δ δ' : ℝ) :
    ‖pulseUnitary 0 0 δ - pulseUnitary 0 0 δ'‖ ≤ |δ - δ'| / 2 := by
  have h : ‖pulseUnitary 0 0 δ - pulseUnitary 0 0 δ'‖ ^ 2 ≤ (|δ - δ'| / 2) ^ 2 := by
    rw [pulseUnitary_z, pulseUnitary_z, su2_sub, su2_norm_sq]
    have h1 := chord (δ / 2) (δ' / 2)
    rw [div_pow, sq_abs]
    nlinarith
  exact le_of_sq_le_sq h (by positivity)

theorem realised_norm (p : Pulse) : ‖realised p‖ ≤ 1 := by
  unfold realised
  split
  · rw [pulseUnitary_xy, rotation_norm]
  · split
    · rw [pulseUnitary_z_norm]
    · rw [norm_one]

theorem realisedProduct_norm (l : List Pulse) : ‖realisedProduct l‖ ≤ 1 := by
  induction l with
  | nil => rw [realisedProduct, norm_one]
  | cons p l ih =>
    rw [realisedProduct]
    refine (norm_mul_le _ _).trans ?_
    have := realised_norm p
    have := norm_nonneg (realisedProduct l)
    have := norm_nonneg (realised p)
    nlinarith

/-- the control made of segments of rounded numbers -/
def ofRounded (gs : List (Segment (Fl r))) (name : Option String) : DrivenControl (Fl r) :=
  ⟨gs.map Segment.rabi, gs.map Segment.azimuthal, gs.map Segment.detuning,
    gs.map Segment.duration, name⟩

/-- the evolution during a segment -/
noncomputable def segEvolution (g : Segment (Fl r)) : M2 :=
  segmentUnitary g.rabi.val g.azimuthal.val g.detuning.val g.duration.val

/-- the segments that take time -/
noncomputable def takesTime (gs : List (Segment (Fl r))) : List (Segment (Fl r)) :=
  gs.filter fun g => Py.gt g.duration (PyFloat.lit 0)

theorem evolution_takesTime_cons {g : Segment (Fl r)} (hg : g.duration.val ≤ 0 → segEvolution g = 1)
    (gs : List (Segment (Fl r))) (name : Option String) :
    evolution ((ofRounded (takesTime (g :: gs)) name).map val) =
      evolution ((ofRounded (takesTime gs) name).map val) * segEvolution g := by
  unfold takesTime
  by_cases h : 0 < g.duration.val
  · rw [List.filter_cons_of_pos (by rw [gt_iff, val_lit_zero]; exact h)]
    rfl
  · rw [List.filter_cons_of_neg (by rw [gt_iff, val_lit_zero]; exact h), hg (not_lt.mp h), mul_one]

/-- A rate times a duration, when the rate is the rounded quotient. -/
theorem rate_error (x w : ℝ) (hw : 0 < w) : |r.rnd (x / w) * w - x| ≤ r.u * |x| := by
  have h := r.close (x / w)
  have e : r.rnd (x / w) * w - x = (r.rnd (x / w) - x / w) * w := by
    rw [sub_mul, div_mul_cancel₀ _ hw.ne']
  rw [e, abs_mul, abs_of_pos hw]
  rw [abs_div, abs_of_pos hw] at h
  calc _ ≤ r.u * (|x| / w) * w := by gcongr
    _ = _ := by field_simp

/-- the angle by which a pulse rotates, as the conversion takes it -/
noncomputable def turn (p : Pulse) : ℝ := |(effective p).rabi| + |(effective p).detuning|

theorem turn_nonneg (p : Pulse) : 0 ≤ turn p := by unfold turn; positivity

theorem realised_rabi {p : Pulse} (h : ¬ Negligible p.rabi) :
    realised p = rotation p.rabi p.azimuthal ∧ turn p = |p.rabi| := by
  simp [realised, turn, effective, h, pulseUnitary_xy]

theorem realised_detuning {p : Pulse} (h1 : Negligible p.rabi) (h : ¬ Negligible p.detuning) :
    realised p = pulseUnitary 0 0 p.detuning ∧ turn p = |p.detuning| := by
  simp [realised, turn, effective, h, h1]

theorem realised_nothing {p : Pulse} (h1 : Negligible p.rabi) (h : Negligible p.detuning) :
    realised p = 1 ∧ turn p = 0 := by
  simp [realised, turn, effective, h, h1]

theorem segEvolution_idle (d : Fl r) :
    segEvolution ⟨PyFloat.lit 0, PyFloat.lit 0, PyFloat.lit 0, d⟩ = 1 := by
  unfold segEvolution
  simp only [val_lit_zero]
  exact segmentUnitary_idle _ _

/-- the segment of a pulse that rotates about an axis in the XY plane -/
theorem pulseSegment_rabi {o : Operation (Fl r)} {w : Fl r × Fl r} (hc : ClearPulse r.u (vp o))
    (hw : 0 < (w.2 - w.1).val) (h : ¬ Negligible (vp o).rabi) :
    pulseSegment o w = ⟨o.rabi / (w.2 - w.1), o.azimuthal, PyFloat.lit 0, w.2 - w.1⟩ := by
  have h1 := (Spec.Clear.close_eq (x := o.rabi) hc.1).2 h
  have hg : Py.gt (w.2 - w.1) (PyFloat.lit 0) = true := by rw [gt_iff, val_lit_zero]; exact hw
  unfold pulseSegment
  dsimp only
  rw [hg, h1]
  rfl

theorem pulseSegment_detuning {o : Operation (Fl r)} {w : Fl r × Fl r} (hc : ClearPulse r.u (vp o))
    (hw : 0 < (w.2 - w.1).val) (h1 : Negligible (vp o).rabi) (h : ¬ Negligible (vp o).detuning) :
    pulseSegment o w = ⟨PyFloat.lit 0, PyFloat.lit 0, o.detuning / (w.2 - w.1), w.2 - w.1⟩ := by
  have h1 := (Spec.Clear.close_eq (x := o.rabi) hc.1).1 h1
  have h2 := (Spec.Clear.close_eq (x := o.detuning) hc.2).2 h
  have hg : Py.gt (w.2 - w.1) (PyFloat.lit 0) = true := by rw [gt_iff, val_lit_zero]; exact hw
  unfold pulseSegment
  dsimp only
  rw [hg, h1, h2]
  rfl

theorem pulseSegment_nothing {o : Operation (Fl r)} {w : Fl r × Fl r} (hc : ClearPulse r.u (vp o))
    (h1 : Negligible (vp o).rabi) (h : Negligible (vp o).detuning) :
    pulseSegment o w = ⟨PyFloat.lit 0, PyFloat.lit 0, PyFloat.lit 0, w.2 - w.1⟩ := by
  have h1 := (Spec.Clear.close_eq (x := o.rabi) hc.1).1 h1
  have h2 := (Spec.Clear.close_eq (x := o.detuning) hc.2).1 h
  unfold pulseSegment
  dsimp only
  rw [h1, h2]
  cases Py.gt (w.2 - w.1) (PyFloat.lit 0) <;> rfl

theorem segEvolution_pulse {o : Operation (Fl r)} {w : Fl r × Fl r} (hc : ClearPulse r.u (vp o))
    (hw : Rotates (vp o) → 0 < (w.2 - w.1).val) :
    ‖segEvolution (pulseSegment o w) - realised (vp o)‖ ≤ r.u / 2 * turn (vp o) ∧
    ((pulseSegment o w).duration.val ≤ 0 → segEvolution (pulseSegment o w) = 1) := by
  have hu := r.u_nonneg
  unfold Rotates at hw
  by_cases n1 : Negligible (vp o).rabi
  · by_cases n2 : Negligible (vp o).detuning
    · rw [pulseSegment_nothing hc n1 n2, segEvolution_idle, (realised_nothing n1 n2).1,
        (realised_nothing n1 n2).2, sub_self, norm_zero, mul_zero]
      exact ⟨le_rfl, fun _ => rfl⟩
    · have hpos := hw fun h => n2 h.2
      rw [pulseSegment_detuning hc hpos n1 n2, (realised_detuning n1 n2).1,
        (realised_detuning n1 n2).2]
      refine ⟨?_, fun h => absurd h (not_le.mpr hpos)⟩
      unfold segEvolution
      rw [val_lit_zero, segmentUnitary_eq_pulseUnitary, zero_mul, val_div]
      refine (pulseUnitary_z_dist _ _).trans ?_
      have := rate_error (r := r) o.detuning.val _ hpos
      show |_ - o.detuning.val| / 2 ≤ r.u / 2 * |o.detuning.val|
      linarith
  · have hpos := hw fun h => n1 h.1
    rw [pulseSegment_rabi hc hpos n1, (realised_rabi n1).1, (realised_rabi n1).2]
    refine ⟨?_, fun h => absurd h (not_le.mpr hpos)⟩
    unfold segEvolution
    rw [val_lit_zero, segmentUnitary_resonant, val_div]
    refine (rotation_angle_dist _ _ _).trans ?_
    have := rate_error (r := r) o.rabi.val _ hpos
    show |_ - o.rabi.val| / 2 ≤ r.u / 2 * |o.rabi.val|
    linarith

theorem segmentUnitary_norm (Ω φ Δ t : ℝ) : ‖segmentUnitary Ω φ Δ t‖ = 1 := by
  by_cases h : Ω ^ 2 + Δ ^ 2 = 0
  · have h1 : Ω = 0 := by nlinarith [sq_nonneg Ω, sq_nonneg Δ]
    have h2 : Δ = 0 := by nlinarith [sq_nonneg Ω, sq_nonneg Δ]
    rw [h1, h2, segmentUnitary_idle, norm_one]
  · have hr : √(Ω ^ 2 + Δ ^ 2) ^ 2 = Ω ^ 2 + Δ ^ 2 := Real.sq_sqrt (by positivity)
    have hr0 : √(Ω ^ 2 + Δ ^ 2) ≠ 0 := by
      intro h0; rw [h0] at hr; exact h (by rw [← hr]; ring)
    set q := √(Ω ^ 2 + Δ ^ 2)
    have h2 : ‖segmentUnitary Ω φ Δ t‖ ^ 2 = 1 := by
      rw [segmentUnitary_eq Ω φ Δ t q hr hr0, su2_norm_sq]
      have h1 : (Ω * Real.cos φ / q) ^ 2 + (Ω * Real.sin φ / q) ^ 2 + (Δ / q) ^ 2 = 1 := by
        have := Real.cos_sq_add_sin_sq φ
        field_simp
        rw [hr]
        linear_combination Ω ^ 2 * this
      linear_combination Real.cos_sq_add_sin_sq (q * t / 2) + Real.sin (q * t / 2) ^ 2 * h1
    have := norm_nonneg (segmentUnitary Ω φ Δ t)
    nlinarith

theorem evolution_pairs (L : List (Operation (Fl r) × (Fl r × Fl r)))
    (hc : ∀ x ∈ L, ClearPulse r.u (vp x.1))
    (hw : ∀ x ∈ L, Rotates (vp x.1) → 0 < (x.2.2 - x.2.1).val) (name : Option String) :
    ‖evolution ((ofRounded (takesTime (buildSegments L)) name).map val) -
        realisedProduct (L.map fun x => vp x.1)‖ ≤
      r.u / 2 * (L.map fun x => turn (vp x.1)).sum := by
  induction L with
  | nil =>
    show ‖(1 : M2) - 1‖ ≤ _
    simp
  | cons x L ih =>
    obtain ⟨o, w⟩ := x
    obtain ⟨h1, h2⟩ := segEvolution_pulse (o := o) (w := w) (hc (o, w) (by simp)) (hw (o, w) (by simp))
    have ih := ih (fun y hy => hc y (by simp [hy])) (fun y hy => hw y (by simp [hy]))
    have key : evolution ((ofRounded (takesTime (buildSegments ((o, w) :: L))) name).map val) =
        evolution ((ofRounded (takesTime (buildSegments L)) name).map val) *
          segEvolution (pulseSegment o w) := by
      cases L with
      | nil =>
        simp only [buildSegments]
        rw [evolution_takesTime_cons h2, evolution_takesTime_cons (fun _ => segEvolution_idle _), segEvolution_idle, mul_one]
      | cons y L =>
        obtain ⟨o', w'⟩ := y
        simp only [buildSegments]
        rw [evolution_takesTime_cons h2, evolution_takesTime_cons (fun _ => segEvolution_idle _), segEvolution_idle, mul_one]
    rw [key, List.map_cons, realisedProduct, List.map_cons, List.sum_cons]
    have hn : ‖segEvolution (pulseSegment o w)‖ ≤ 1 := (segmentUnitary_norm _ _ _ _).le
    have := mul_dist (A := evolution ((ofRounded (takesTime (buildSegments L)) name).map val))
      (B := segEvolution (pulseSegment o w)) (A' := realisedProduct (L.map fun x => vp x.1))
      (B' := realised (vp o)) hn (realisedProduct_norm _)
    linarith

end OpenControls
