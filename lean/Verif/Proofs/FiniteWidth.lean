import Verif.Spec.FiniteWidth
import Verif.Proofs.Converted
import Verif.Proofs.PulseErrors
import Verif.Proofs.Azimuth

/-!
# Converted sequences with a constant detuning error
-/

namespace OpenControls

open Spec RealInst

variable {T R D m : ℝ}

/-! ### Segments after a time -/

/-- the segments of the pulses of a list, from the time `a` to the end -/
noncomputable def keptFrom (T R D m : ℝ) : ℝ → List Pulse → List (Segment ℝ)
  | a, [] => keep ⟨0, 0, 0, T - a⟩
  | a, p :: r => keep ⟨0, 0, 0, (window T R D m p).1 - a⟩ ++
      (keep (pulseSeg R D m p) ++ keptFrom T R D m (window T R D m p).2 r)

/-- the windows of a list lie in order between `a` and the end -/
def fitsFrom (T R D m : ℝ) : ℝ → List Pulse → Prop
  | a, [] => a ≤ T
  | a, p :: r => a ≤ (window T R D m p).1 ∧ fitsFrom T R D m (window T R D m p).2 r

theorem window_start {p : Pulse} (h : p.offset = 0) : (window T R D m p).1 = 0 := by
  simp [window, h]

theorem window_end (hT : 0 < T) {p : Pulse} (h : p.offset = T) : (window T R D m p).2 = T := by
  simp [window, h, hT.ne']

theorem window_idle (hT : 0 < T) : window T R D m (idlePulse 0) = (0, 0) ∧
    window T R D m (idlePulse T) = (T, T) := by
  have h0 := width_idle R D m 0
  have h1 := width_idle R D m T
  simp only [window, idlePulse, if_true, hT.ne', if_false]
  simp only [idlePulse] at h0 h1
  rw [h0, h1, sub_zero]
  exact ⟨rfl, rfl⟩

theorem keep_idle (t : ℝ) : keep (pulseSeg R D m (idlePulse t)) = [] := by
  apply keep_nonpos
  show width R D m (idlePulse t) ≤ 0
  rw [width_idle]

open Classical in
theorem kept_tail (hT : 0 < T) (p : Pulse) (l : List Pulse) :
    kept T R D m (p :: (l ++ if ((p :: l).map Pulse.offset).getLast? = some T then []
      else [idlePulse T])) =
      keep (pulseSeg R D m p) ++ keptFrom T R D m (window T R D m p).2 l := by
  induction l generalizing p with
  | nil =>
    simp only [List.map_cons, List.map_nil, List.getLast?_singleton, Option.some.injEq,
      List.nil_append, keptFrom]
    by_cases h : p.offset = T
    · rw [if_pos h, kept_singleton, window_end hT h, keep_nonpos (g := ⟨0, 0, 0, T - T⟩) (by simp),
        List.append_nil]
    · rw [if_neg h, kept_cons, kept_singleton, keep_idle, (window_idle hT).2, List.append_nil]
  | cons q r ih =>
    have e : ((p :: q :: r).map Pulse.offset).getLast? = ((q :: r).map Pulse.offset).getLast? := by
      simp [List.getLast?_cons]
    rw [e, List.cons_append, kept_cons, ih q, keptFrom]

open Classical in
theorem chain_tail (hT : 0 < T) (p : Pulse) (l : List Pulse)
    (h : EachGap (fun g => 0 ≤ g) ((p :: (l ++ if ((p :: l).map Pulse.offset).getLast? = some T
      then [] else [idlePulse T])).map (window T R D m))) :
    fitsFrom T R D m (window T R D m p).2 l := by
  induction l generalizing p with
  | nil =>
    simp only [List.map_cons, List.map_nil, List.getLast?_singleton, Option.some.injEq,
      List.nil_append, fitsFrom] at h ⊢
    by_cases hp : p.offset = T
    · rw [window_end hT hp]
    · rw [if_neg hp] at h
      simp only [EachGap, List.map_cons, List.map_nil, List.isChain_cons_cons] at h
      have h1 := h.1
      rw [(window_idle hT).2] at h1
      exact sub_nonneg.mp h1
  | cons q r ih =>
    have e : ((p :: q :: r).map Pulse.offset).getLast? = ((q :: r).map Pulse.offset).getLast? := by
      simp [List.getLast?_cons]
    rw [e] at h
    simp only [EachGap, List.cons_append, List.map_cons, List.isChain_cons_cons] at h
    exact ⟨sub_nonneg.mp h.1, ih q (by simpa [EachGap] using h.2)⟩

theorem kept_pad (hT : 0 < T) (ps : List Pulse) :
    kept T R D m (pad T ps) = keptFrom T R D m 0 ps := by
  classical
  unfold pad
  cases ps with
  | nil =>
    have := kept_tail (R := R) (D := D) (m := m) hT (idlePulse 0) []
    rw [keep_idle, (window_idle hT).1] at this
    have h0 : (idlePulse 0).offset ≠ T := hT.ne
    simpa [h0] using this
  | cons q r =>
    by_cases hq : ((q :: r).map Pulse.offset).head? = some 0
    · rw [if_pos hq, List.nil_append, List.cons_append, kept_tail hT, keptFrom]
      have : q.offset = 0 := by simpa using hq
      rw [window_start this, keep_nonpos (g := ⟨0, 0, 0, 0 - 0⟩) (by simp), List.nil_append]
    · rw [if_neg hq]
      have := kept_tail (R := R) (D := D) (m := m) hT (idlePulse 0) (q :: r)
      rw [keep_idle, (window_idle hT).1] at this
      have e : ((idlePulse 0 :: q :: r).map Pulse.offset).getLast? =
          ((q :: r).map Pulse.offset).getLast? := by simp [List.getLast?_cons]
      rw [e] at this
      simpa using this

theorem fits_pad (hT : 0 < T) (ps : List Pulse)
    (h : EachGap (fun g => 0 ≤ g) ((pad T ps).map (window T R D m))) :
    fitsFrom T R D m 0 ps := by
  classical
  unfold pad at h
  cases ps with
  | nil => exact hT.le
  | cons q r =>
    by_cases hq : ((q :: r).map Pulse.offset).head? = some 0
    · rw [if_pos hq, List.nil_append, List.cons_append] at h
      have : q.offset = 0 := by simpa using hq
      exact ⟨(window_start this).ge, chain_tail hT q r h⟩
    · rw [if_neg hq] at h
      have e : ((idlePulse 0 :: q :: r).map Pulse.offset).getLast? =
          ((q :: r).map Pulse.offset).getLast? := by simp [List.getLast?_cons]
      have := chain_tail (R := R) (D := D) (m := m) hT (idlePulse 0) (q :: r) (by
        rw [e]; simpa using h)
      rwa [(window_idle hT).1] at this

/-! ### Tables -/

/-- a π-pulse of a table -/
noncomputable def tablePulse (p : ℝ × Axis) : Pulse :=
  ⟨p.1, p.2.rabi, p.2.azimuthal, p.2.detuning⟩

/-- the middle of the window of a pulse of a table -/
noncomputable def centreOf (T R D m : ℝ) (p : ℝ × Axis) : ℝ × Axis :=
  (((window T R D m (tablePulse p)).1 + (window T R D m (tablePulse p)).2) / 2, p.2)

/-- the width of a π-pulse -/
noncomputable def piWidth (R D m : ℝ) : Axis → ℝ
  | .z => max (Real.pi / D) m
  | _ => max (Real.pi / R) m

theorem pi_not_negligible : ¬ Negligible Real.pi := by
  have := Real.pi_gt_three
  unfold Negligible
  rw [abs_of_pos Real.pi_pos]
  norm_num
  linarith

theorem zero_negligible : Negligible 0 := by simp [Negligible]

theorem width_tablePulse (p : ℝ × Axis) : width R D m (tablePulse p) = piWidth R D m p.2 := by
  obtain ⟨t, a⟩ := p
  cases a <;> simp [width, tablePulse, Axis.rabi, Axis.detuning, piWidth, pi_not_negligible,
    zero_negligible, abs_of_pos Real.pi_pos]

theorem piWidth_pos (hR : 0 < R) (hD : 0 < D) (a : Axis) : 0 < piWidth R D m a := by
  have := Real.pi_pos
  cases a <;> exact lt_max_of_lt_left (by positivity)

theorem window_centre (p : ℝ × Axis) : window T R D m (tablePulse p) =
    ((centreOf T R D m p).1 - piWidth R D m p.2 / 2,
      (centreOf T R D m p).1 + piWidth R D m p.2 / 2) := by
  have h := window_width T R D m (tablePulse p)
  rw [width_tablePulse] at h
  unfold centreOf
  ext
  · simp only; linarith
  · simp only; linarith

theorem pulseSeg_table (p : ℝ × Axis) : pulseSeg R D m (tablePulse p) =
    match p.2 with
    | .x => ⟨Real.pi / piWidth R D m .x, 0, 0, piWidth R D m .x⟩
    | .y => ⟨Real.pi / piWidth R D m .y, Real.pi / 2, 0, piWidth R D m .y⟩
    | .z => ⟨0, 0, Real.pi / piWidth R D m .z, piWidth R D m .z⟩ := by
  have hw := width_tablePulse (R := R) (D := D) (m := m) p
  obtain ⟨t, a⟩ := p
  unfold pulseSeg drive
  rw [hw]
  cases a <;> simp [tablePulse, Axis.rabi, Axis.azimuthal, Axis.detuning, pi_not_negligible,
    zero_negligible]

/-! ### Derivatives -/

/-- the evolution of segments with a detuning error -/
noncomputable def detunedEvolution (name : Option String) (gs : List (Segment ℝ)) (d : ℝ) : M2 :=
  evolution (withDetuningError d (ofSegments gs name))

theorem detunedEvolution_keep (name : Option String) {g : Segment ℝ} (hg : 0 ≤ g.duration)
    (gs : List (Segment ℝ)) (d : ℝ) : detunedEvolution name (keep g ++ gs) d =
      detunedEvolution name gs d * segmentUnitary g.rabi g.azimuthal (g.detuning + d) g.duration := by
  rcases hg.lt_or_eq with h | h
  · rw [keep_pos h]; rfl
  · rw [keep_nonpos h.ge, ← h, segmentUnitary_eq_pulseUnitary, mul_zero, mul_zero,
      pulseUnitary_eq_segmentUnitary, segmentUnitary_idle, mul_one]
    rfl

theorem zTurn_deriv (δ t : ℝ) :
    HasMatrixDerivAt (fun d => segmentUnitary 0 0 (δ + d) t)
      (segmentUnitary 0 0 δ t * su2 0 0 0 (t / 2)) 0 := by
  have e : ∀ δ, segmentUnitary 0 0 δ t = su2 (Real.cos (δ * t / 2)) 0 0 (Real.sin (δ * t / 2)) := by
    intro δ
    rw [segmentUnitary_eq_pulseUnitary, zero_mul, zRotation_eq]
  simp only [e]
  have h : HasDerivAt (fun d : ℝ => (δ + d) * t / 2) (t / 2) 0 := by
    have := (((hasDerivAt_id (0 : ℝ)).const_add δ).mul_const t).div_const 2
    simpa using this
  refine (HasMatrixDerivAt.su2 h.cos (hasDerivAt_const _ 0) (hasDerivAt_const _ 0) h.sin).congr ?_
  rw [su2_mul, su2_inj, add_zero]
  refine ⟨by ring, by ring, by ring, by ring⟩

/-- what the pulse of an axis adds to the error -/
noncomputable def pulseError (R D m : ℝ) : Axis → M2
  | .x => su2 0 0 (piWidth R D m .x / Real.pi) 0
  | .y => su2 0 (-(piWidth R D m .y / Real.pi)) 0 0
  | .z => su2 0 0 0 (piWidth R D m .z / 2)

theorem pulseSeg_deriv (hR : 0 < R) (hD : 0 < D) (p : ℝ × Axis) :
    segmentUnitary (pulseSeg R D m (tablePulse p)).rabi (pulseSeg R D m (tablePulse p)).azimuthal
      (pulseSeg R D m (tablePulse p)).detuning (pulseSeg R D m (tablePulse p)).duration =
        axisPulse p.2 ∧
    HasMatrixDerivAt (fun d => segmentUnitary (pulseSeg R D m (tablePulse p)).rabi
      (pulseSeg R D m (tablePulse p)).azimuthal ((pulseSeg R D m (tablePulse p)).detuning + d)
      (pulseSeg R D m (tablePulse p)).duration) (axisPulse p.2 * pulseError R D m p.2) 0 := by
  have hpi := Real.pi_pos
  have hw := piWidth_pos (m := m) hR hD p.2
  obtain ⟨t, a⟩ := p
  rw [pulseSeg_table]
  cases a with
  | x =>
    simp only at hw ⊢
    set W := piWidth R D m .x
    have e : Real.pi / W * W = Real.pi := by field_simp
    refine ⟨by rw [segmentUnitary_resonant, e, axisPulse_x], ?_⟩
    refine (segment_detuning_deriv (by positivity) 0 W).congr ?_
    rw [e, Real.sin_pi_div_two, axisPulse, pulseError, su2_mul, su2_inj]
    refine ⟨by ring, by ring, by ring, ?_⟩
    rw [one_div_div]; ring
  | y =>
    simp only at hw ⊢
    set W := piWidth R D m .y
    have e : Real.pi / W * W = Real.pi := by field_simp
    refine ⟨by rw [segmentUnitary_resonant, e, axisPulse_y], ?_⟩
    refine (segment_detuning_deriv (by positivity) (Real.pi / 2) W).congr ?_
    rw [e, Real.sin_pi_div_two, axisPulse, pulseError, su2_mul, su2_inj]
    refine ⟨by ring, by ring, by ring, ?_⟩
    rw [one_div_div]; ring
  | z =>
    simp only at hw ⊢
    set W := piWidth R D m .z
    have e : Real.pi / W * W = Real.pi := by field_simp
    have h : segmentUnitary 0 0 (Real.pi / W) W = axisPulse .z := by
      rw [segmentUnitary_eq_pulseUnitary, zero_mul, e]
      exact pulseUnitary_axis .z
    refine ⟨h, ?_⟩
    refine (zTurn_deriv (Real.pi / W) W).congr ?_
    rw [h]; rfl

/-- the number of pulses about one axis, signed by the pulses before about the axes other than another -/
noncomputable def crossSum (pulse noise : Axis) : List (ℝ × Axis) → ℝ
  | [] => 0
  | p :: r => (if p.2 = pulse then 1 else 0) + axisSign noise p.2 * crossSum pulse noise r

theorem deriv_step {U S : ℝ → M2} {U₀ S₀ X X' Y : M2} (hU0 : U 0 = U₀) (hS0 : S 0 = S₀)
    (hU : HasMatrixDerivAt U (U₀ * X) 0) (hS : HasMatrixDerivAt S (S₀ * Y) 0)
    (hX : X * S₀ = S₀ * X') :
    HasMatrixDerivAt (fun d => U d * S d) (U₀ * S₀ * (X' + Y)) 0 := by
  refine (hU.mul hS).congr ?_
  rw [hU0, hS0, mul_assoc, hX, mul_add]
  simp only [mul_assoc]

/-- the error of the segments of a table -/
theorem keptFrom_deriv (hR : 0 < R) (hD : 0 < D) (name : Option String) (l : List (ℝ × Axis)) (a : ℝ)
    (hf : fitsFrom T R D m a (l.map tablePulse)) :
    detunedEvolution name (keptFrom T R D m a (l.map tablePulse)) 0 = tableProduct l ∧
    HasMatrixDerivAt (detunedEvolution name (keptFrom T R D m a (l.map tablePulse)))
      (tableProduct l * su2 0 (-(piWidth R D m .x / Real.pi) * crossSum .y .x l)
        (piWidth R D m .x / Real.pi * crossSum .x .y l)
        (axisSum id .z T a (l.map (centreOf T R D m)) / 2)) 0 := by
  induction l generalizing a with
  | nil =>
    have e : detunedEvolution name (keptFrom T R D m a []) = fun d =>
        segmentUnitary 0 0 (0 + d) (T - a) := by
      funext d
      have := detunedEvolution_keep name (g := ⟨0, 0, 0, T - a⟩) (sub_nonneg.mpr hf) [] d
      rw [List.append_nil] at this
      rw [keptFrom, this]
      exact one_mul _
    simp only [List.map_nil, tableProduct, crossSum, axisSum, id, mul_zero, one_mul]
    rw [e]
    refine ⟨by simp only [add_zero, segmentUnitary_idle], ?_⟩
    have := zTurn_deriv 0 (T - a)
    rwa [segmentUnitary_idle, one_mul] at this
  | cons p r ih =>
    obtain ⟨h1, h2⟩ := hf
    obtain ⟨v, d1⟩ := ih _ h2
    obtain ⟨vp, dp⟩ := pulseSeg_deriv (m := m) hR hD p
    have hw := piWidth_pos (m := m) hR hD p.2
    have hdur : 0 ≤ (pulseSeg R D m (tablePulse p)).duration := by
      show 0 ≤ width R D m (tablePulse p)
      rw [width_tablePulse]; exact hw.le
    have e : detunedEvolution name (keptFrom T R D m a ((p :: r).map tablePulse)) = fun d =>
        (detunedEvolution name (keptFrom T R D m (window T R D m (tablePulse p)).2
          (r.map tablePulse)) d *
        segmentUnitary (pulseSeg R D m (tablePulse p)).rabi (pulseSeg R D m (tablePulse p)).azimuthal
          ((pulseSeg R D m (tablePulse p)).detuning + d) (pulseSeg R D m (tablePulse p)).duration) *
        segmentUnitary 0 0 (0 + d) ((window T R D m (tablePulse p)).1 - a) := by
      funext d
      rw [List.map_cons, keptFrom, detunedEvolution_keep name (sub_nonneg.mpr h1),
        detunedEvolution_keep name hdur]
    have df := zTurn_deriv 0 ((window T R D m (tablePulse p)).1 - a)
    rw [segmentUnitary_idle] at df
    have s1 := deriv_step v (by rw [add_zero]; exact vp) d1 dp (su2_axisPulse _ _ _ _ _)
    have s2 := deriv_step (by rw [v, add_zero, vp]) (by rw [add_zero, segmentUnitary_idle]) s1 df
      (by rw [mul_one, one_mul])
    rw [e]
    refine ⟨?_, s2.congr ?_⟩
    · simp only [add_zero]
      rw [v, vp, segmentUnitary_idle, mul_one]; rfl
    · have hshift : ∀ (x y : ℝ) (l : List (ℝ × Axis)),
          axisSum id .z T x l = (y - x) + axisSum id .z T y l := by
        intro x y l
        cases l <;> simp only [axisSum, id] <;> ring
      have hc := window_centre (T := T) (R := R) (D := D) (m := m) p
      have hn := hshift (centreOf T R D m p).1 (window T R D m (tablePulse p)).2
        (r.map (centreOf T R D m))
      simp only [List.map_cons, tableProduct, crossSum, axisSum, id, mul_one]
      rw [hn, hc]
      congr 1
      obtain ⟨t, c⟩ := p
      have hxy : piWidth R D m .y = piWidth R D m .x := rfl
      cases c <;>
        simp only [pulseError, su2_add, su2_inj, axisSign, centreOf, hxy] <;>
        simp <;> (try constructor) <;> ring

end OpenControls
