import Verif.Proofs.FiniteWidthFamilies
import Verif.Props.EndToEnd

/-!
# C87: pulses of finite width and a constant detuning error
-/

namespace OpenControls

open Spec RealInst

theorem converted_deriv {s : Sequence ℝ} (hs : s.Constructed) (hT : 1 / 10 ^ 8 < s.duration)
    {l : List (ℝ × Axis)} (hl : s = piSequence s.duration l s.name) {R D m : ℝ}
    (hno : NoOverlap R D m s) {name : Option String} {c : DrivenControl ℝ}
    (h : convertDDS s R D m name = .ok c) :
    (0 < R ∧ 0 < D) ∧ fitsFrom s.duration R D m 0 (l.map tablePulse) ∧
    HasMatrixDerivAt (fun d => evolution (withDetuningError d c))
      (tableProduct l * su2 0 (-(piWidth R D m .x / Real.pi) * crossSum .y .x l)
        (piWidth R D m .x / Real.pi * crossSum .x .y l)
        (axisSum id .z s.duration 0 (l.map (centreOf s.duration R D m)) / 2)) 0 := by
  obtain ⟨hc, h | h⟩ := converted hs h
  · exact absurd (allSmall_duration hs hc h.1) (not_le.mpr hT)
  · obtain ⟨-, rfl⟩ := h
    have hT0 : 0 < s.duration := lt_trans (by norm_num) hT
    have hpl : pulseList s = l.map tablePulse := by
      rw [hl]; exact pulseList_pi _ _ _
    unfold NoOverlap at hno
    rw [windows_eq hs, hpl] at hno
    have hf := fits_pad hT0 _ hno
    refine ⟨⟨hc.1, hc.2.1⟩, hf, ?_⟩
    have := (keptFrom_deriv hc.1 hc.2.1 name l 0 hf).2
    rw [hpl, kept_pad hT0]
    exact this

/-- the integral and the signed counts as sums over the table -/
theorem centred_sums {T R D m : ℝ} (hR : 0 < R) (hD : 0 < D) {l : List (ℝ × Axis)}
    (hf : fitsFrom T R D m 0 (l.map tablePulse)) (name : Option String) :
    (∫ t in 0..T, sensitivityAlong .z (centred R D m (piSequence T l name)) t) =
      axisSum id .z T 0 (l.map (centreOf T R D m)) ∧
    ∀ a b : Axis, signedCount a b (centred R D m (piSequence T l name)) = crossSum a b l := by
  obtain ⟨h0, hb, hp⟩ := centres_bounds hR hD l 0 hf
  rw [centred_table]
  refine ⟨?_, fun a b => ?_⟩
  · have e : piSequence T (l.map (centreOf T R D m)) name =
        finished T (l.map (centreOf T R D m)) false name := rfl
    simp only [e, sensitivityAlong_finished]
    rw [axisSum_eq]
    have := (integral_switching (F := id) (f := fun _ => 1) (fun x => hasDerivAt_id x)
      continuous_const T (axisFlips .z (l.map (centreOf T R D m))) 0 h0
      (axisFlips_sorted (hp.imp le_of_lt) .z) (by
        intro t ht
        unfold axisFlips at ht
        obtain ⟨p, hp, rfl⟩ := List.mem_map.mp ht
        have := hb p (List.mem_of_mem_filter hp)
        exact ⟨this.1.le, this.2.le⟩)).2
    simpa using this
  · rw [signedCount_table, crossSum_eq _ _ _ hp, crossSum_map _ _ (centreOf T R D m) fun _ => rfl]

/-- **C87.** A sequence of π-pulses about X, Y and Z is converted to a driven control with pulses of finite width
that do not overlap. To first order in a constant detuning error `d` the control does what the pulses do, preceded
by the error `exp(-i d/2 (A σx + B σy + C σz))`. `C` is the integral of the sensitivity of the sequence, as if the
pulses were instantaneous and at the centre of their windows. The width `W` of the pulses enters only through
`B = 2W/π` times the number of X pulses, signed by the X and Z pulses before, and `A = -2W/π` times the number of
Y pulses, signed by the Y and Z pulses before. -/
theorem C87_error (s : Sequence ℝ) (hs : s.Constructed) (hT : 1 / 10 ^ 8 < s.duration)
    (hp : ∀ p ∈ pulseList s, ∃ axis : Axis, p.IsPi axis) (R D m : ℝ) (hno : NoOverlap R D m s)
    (name : Option String) (c : DrivenControl ℝ) (h : convertDDS s R D m name = .ok c) :
    HasMatrixDerivAt (fun d => evolution (withDetuningError d c))
      (pulses s * ((-Complex.I / 2) •
        (((-(2 * max (Real.pi / R) m / Real.pi * signedCount .y .x (centred R D m s)) : ℝ) : ℂ) • σx +
        ((2 * max (Real.pi / R) m / Real.pi * signedCount .x .y (centred R D m s) : ℝ) : ℂ) • σy +
        ((∫ t in 0..s.duration, sensitivityAlong .z (centred R D m s) t : ℝ) : ℂ) • σz))) 0 := by
  obtain ⟨l, hl⟩ := sequence_table hs hp
  obtain ⟨⟨hR, hD⟩, hf, hd⟩ := converted_deriv hs hT hl hno h
  refine hd.congr ?_
  obtain ⟨h1, h2⟩ := centred_sums hR hD hf s.name
  rw [← hl] at h1 h2
  have hpu : pulses s = tableProduct l := by rw [hl]; exact pulses_table _ _ _
  rw [h1, h2, h2, hpu, su2_eq]
  congr 1
  have e : piWidth R D m .x = max (Real.pi / R) m := rfl
  rw [e]
  simp only [smul_add, smul_smul]
  push_cast
  rw [zero_smul, zero_add]
  refine congrArg₂ _ (congrArg₂ _ (congrArg (· • σx) ?_) (congrArg (· • σy) ?_))
    (congrArg (· • σz) ?_) <;> ring

/-- **C87**, so the converted control is insensitive to a small detuning error exactly if the integral and both
signed numbers of pulses vanish. -/
theorem C87_insensitive_iff (s : Sequence ℝ) (hs : s.Constructed) (hT : 1 / 10 ^ 8 < s.duration)
    (hp : ∀ p ∈ pulseList s, ∃ axis : Axis, p.IsPi axis) (R D m : ℝ) (hno : NoOverlap R D m s)
    (name : Option String) (c : DrivenControl ℝ) (h : convertDDS s R D m name = .ok c) :
    FirstOrderInsensitive (fun d => evolution (withDetuningError d c)) ↔
      ∫ t in 0..s.duration, sensitivityAlong .z (centred R D m s) t = 0 ∧
      signedCount .x .y (centred R D m s) = 0 ∧ signedCount .y .x (centred R D m s) = 0 := by
  obtain ⟨l, hl⟩ := sequence_table hs hp
  obtain ⟨⟨hR, hD⟩, hf, hd⟩ := converted_deriv hs hT hl hno h
  obtain ⟨h1, h2⟩ := centred_sums hR hD hf s.name
  rw [← hl] at h1 h2
  have hw := (piWidth_pos (m := m) hR hD .x).ne'
  have hpi := Real.pi_pos.ne'
  rw [h1, h2, h2, firstOrder_iff_of_deriv hd, (tableProduct_unit l).mul_right_eq_zero, ← su2_zero,
    su2_inj]
  simp [hw, hpi]
  tauto

theorem family_sums {family : Family} {T : ℝ} {name : Option String} {s : Sequence ℝ}
    (hs : family.call T false name = .ok s) (hT : 1 / 10 ^ 8 < T) {R D m : ℝ}
    (hno : NoOverlap R D m s) {cname : Option String} {c : DrivenControl ℝ}
    (h : convertDDS s R D m cname = .ok c) :
    (0 < R ∧ 0 < D) ∧
    (FirstOrderInsensitive (fun d => evolution (withDetuningError d c)) ↔
      axisSum id .z T 0 ((family.table T).map (centreOf T R D m)) = 0 ∧
        crossSum .x .y (family.table T) = 0 ∧ crossSum .y .x (family.table T) = 0) := by
  obtain ⟨⟨hT0, hv⟩, hwf⟩ := (C43_well_formed family T false name).ok hs
  have hcon := hwf.constructed hT0
  rw [Family.call_eq hv hT0] at hs
  injection hs with hs
  have hs' : s = piSequence T (family.table T) name := hs.symm
  have hd : s.duration = T := by rw [hs']; rfl
  have hn : s.name = name := by rw [hs']; rfl
  obtain ⟨hRD, hf, hd⟩ := converted_deriv hcon (by rw [hd]; exact hT) (l := family.table T)
    (by rw [hd, hn]; exact hs') hno h
  refine ⟨hRD, ?_⟩
  have hw := (piWidth_pos (m := m) hRD.1 hRD.2 .x).ne'
  have hpi := Real.pi_pos.ne'
  rw [firstOrder_iff_of_deriv hd, (tableProduct_unit _).mul_right_eq_zero, ← su2_zero, su2_inj]
  have hdur : s.duration = T := by rw [hs']; rfl
  rw [hdur]
  simp [hw, hpi]
  tauto

/-- **C87** for the predefined sequences without pre and post rotations: which of them stay insensitive to a
constant detuning error when their pulses have a finite width. -/
theorem C87_families (family : Family) (T : ℝ) (hT : 1 / 10 ^ 8 < T) (name : Option String)
    (s : Sequence ℝ) (hs : family.call T false name = .ok s) (R D m : ℝ) (hno : NoOverlap R D m s)
    (cname : Option String) (c : DrivenControl ℝ) (h : convertDDS s R D m cname = .ok c) :
    FirstOrderInsensitive (fun d => evolution (withDetuningError d c)) ↔
      family.InsensitiveWhenConverted := by
  obtain ⟨⟨hR, hD⟩, hsum⟩ := family_sums hs hT hno h
  obtain ⟨⟨hT0, hv⟩, hwf⟩ := (C43_well_formed family T false name).ok hs
  have hint := C44_iff family T false name s hs
  rw [hsum]
  -- away from the end the centres are the times of the pulses
  have hinside : (∀ p ∈ family.table T, p.1 < T) →
      (axisSum id .z T 0 ((family.table T).map (centreOf T R D m)) = 0 ↔ family.Refocuses) := by
    intro hlt
    rw [centres_inside fun p hp => ⟨(Family.table_bounds hv hT0 p hp).1, hlt p hp⟩,
      axisSum_integral hv hT0 .z (f := fun _ => 1) (fun x => hasDerivAt_id x) continuous_const,
      ← hint]
    have hs' := hs
    rw [Family.call_eq hv hT0] at hs'
    injection hs' with hs'
    subst hs'
    simp only [sensitivity_finished, axisFlips_z, mul_one]
  have hlt : ¬ family.IsXY → ∀ p ∈ family.table T, p.1 < T := fun hxy p hp =>
    ((Family.table_ordered hv hxy hT0).2 p.1 (List.mem_map.mpr ⟨p, hp, rfl⟩)).2
  have hx : ∀ ts : List ℝ, crossSum .x .y (onAxis .x ts) = 0 ∧ crossSum .y .x (onAxis .x ts) = 0 ↔
      Even ts.length := by
    intro ts
    rw [crossSum_same (by simp), crossSum_other (by simp)]
    by_cases he : Even ts.length <;> simp [he]
  have hy : ∀ ts : List ℝ, crossSum .x .y (onAxis .y ts) = 0 ∧ crossSum .y .x (onAxis .y ts) = 0 ↔
      Even ts.length := by
    intro ts
    rw [crossSum_same (by simp), crossSum_other (by simp)]
    by_cases he : Even ts.length <;> simp [he]
  cases family with
  | ramsey =>
    rw [hinside (hlt id)]
    exact iff_of_false (fun h => h.1) id
  | spinEcho =>
    rw [hinside (hlt id)]
    have := hx [T / 2]
    rw [show Family.table .spinEcho T = onAxis .x [T / 2] from rfl, this]
    exact iff_of_false (fun h => by simpa using h.2) id
  | carrPurcell n =>
    rw [hinside (hlt id)]
    simp only [Family.table, hx, Family.Refocuses, Family.InsensitiveWhenConverted, true_and]
    simp [cpmgTimes]
  | cpmg n =>
    rw [hinside (hlt id)]
    simp only [Family.table, hy, Family.Refocuses, Family.InsensitiveWhenConverted, true_and]
    simp [cpmgTimes]
  | uhrig n =>
    rw [hinside (hlt id)]
    simp only [Family.table, hy, Family.Refocuses, Family.InsensitiveWhenConverted, true_and]
    simp [uhrigTimes]
  | periodic n =>
    rw [hinside (hlt id)]
    simp only [Family.table, hx, Family.Refocuses, Family.InsensitiveWhenConverted, iff_false]
    rintro ⟨ho, he⟩
    have : (periodicTimes T ⌊n⌋₊).length = ⌊n⌋₊ := by simp [periodicTimes]
    rw [this] at he
    exact Nat.not_even_iff_odd.mpr ho he
  | walsh k =>
    rw [hinside (hlt id)]
    simp only [Family.table, hx, Family.Refocuses, Family.InsensitiveWhenConverted, true_and]
    exact walsh_parity T (Nat.floor_pos.mpr hv.1).ne'
  | quadratic n k =>
    rw [hinside (hlt id)]
    have hno' := table_no_y (family := .quadratic n k) trivial T
    rw [crossSum_zero hno']
    simp only [Family.table, crossSum_quadratic, Family.Refocuses, Family.InsensitiveWhenConverted,
      true_and, and_true]
    have hk : ⌊k⌋₊ ≠ 0 := (Nat.floor_pos.mpr hv.2).ne'
    have hl : (uhrigTimes T ⌊k⌋₊).length = ⌊k⌋₊ := by simp [uhrigTimes]
    rw [hl]
    by_cases hn : Even ⌊n⌋₊
    · by_cases he : Even ⌊k⌋₊ <;> simp [hn, he]
    · simp [hn, hk]
  | xConcatenated l =>
    rw [hinside (hlt id)]
    simp only [Family.table, hx, Family.Refocuses, Family.InsensitiveWhenConverted, true_and]
    have hl := (Nat.floor_pos.mpr hv).ne'
    obtain ⟨j, hj⟩ : ∃ j, ⌊l⌋₊ = j + 1 := ⟨⌊l⌋₊ - 1, by omega⟩
    rw [hj, ← walsh_ones hT0, walsh_parity T (by
      have := Nat.one_lt_two_pow (n := j + 1) (by omega); omega), ones_digits]
  | xyConcatenated l =>
    have hsep : l < 3 := by
      have := (Family.increasing_iff hs).mp
        (((C46_convertible s (hwf.constructed hT0) R D m cname).ok h).1).2.2.2.2.2.1
      exact this.1
    have hl := (Nat.floor_pos.mpr (show (1 : ℝ) ≤ l from hv)).ne'
    have hl3 : ⌊l⌋₊ < 3 :=
      (Nat.floor_lt (by have : (1 : ℝ) ≤ l := hv; linarith)).mpr (by exact_mod_cast hsep)
    simp only [Family.InsensitiveWhenConverted]
    obtain h1 | h2 : ⌊l⌋₊ = 1 ∨ ⌊l⌋₊ = 2 := by omega
    · rw [h1]
      refine iff_of_false ?_ (by norm_num)
      rintro ⟨h0, -⟩
      have hW := piWidth_pos (m := m) hR hD .y
      simp only [Family.table, h1, xyTable_one hT0, List.map_cons, List.map_nil] at h0
      have e4 : (((4 : ℕ) : ℝ) * (T / 4 ^ 1), Axis.y) = (T, Axis.y) := by
        ext
        · show ((4 : ℕ) : ℝ) * (T / 4 ^ 1) = T
          push_cast; ring
        · rfl
      have c4 : (centreOf T R D m (T, .y)).1 = T - piWidth R D m .y / 2 := by
        have := window_centre (T := T) (R := R) (D := D) (m := m) (T, .y)
        have he : (window T R D m (tablePulse (T, .y))).2 = T := window_end hT0 rfl
        rw [this] at he
        simp only at he
        linarith
      rw [e4, centreOf_inside (by push_cast; linarith) (by push_cast; linarith),
        centreOf_inside (by push_cast; linarith) (by push_cast; linarith),
        centreOf_inside (by push_cast; linarith) (by push_cast; linarith)] at h0
      simp only [axisSum, id, axisSign, c4, show (centreOf T R D m (T, .y)).2 = .y from rfl] at h0
      push_cast at h0
      simp at h0
      linarith
    · rw [hinside (by simp only [Family.table, h2]; exact xy_two_end hT0)]
      rw [h2]
      refine iff_of_true ?_ rfl
      refine ⟨.inr (by rw [h2]; decide), ?_⟩
      simp only [Family.table, h2, xyTable_two hT0, List.map_cons, List.map_nil, crossSum, axisSign]
      simp

/-! ### Non-vacuity -/

/-- Two CPMG pulses of width 1/20 in a sequence of duration 1 are insensitive to a detuning error; two periodic
pulses are not. -/
example : (∃ s c, newCPMGSequence (1 : ℝ) 2 false none = .ok s ∧
      convertDDS s (20 * Real.pi) (20 * Real.pi) 0 none = .ok c ∧
      FirstOrderInsensitive fun d => evolution (withDetuningError d c)) ∧
    ∃ s c, newPeriodicSequence (1 : ℝ) 2 false none = .ok s ∧
      convertDDS s (20 * Real.pi) (20 * Real.pi) 0 none = .ok c ∧
      ¬ FirstOrderInsensitive fun d => evolution (withDetuningError d c) := by
  have hpi := Real.pi_pos
  have hw : ∀ a, piWidth (20 * Real.pi) (20 * Real.pi) 0 a = 1 / 20 := by
    have : Real.pi / (20 * Real.pi) = 1 / 20 := by field_simp
    intro a
    cases a <;> simp only [piWidth, this] <;> norm_num
  have key : ∀ (family : Family) (s : Sequence ℝ) (t₁ t₂ : ℝ) (a : Axis), family.Valid →
      family.call 1 false none = .ok s → family.table 1 = [(t₁, a), (t₂, a)] →
      1 / 10 < t₁ → t₁ + 1 / 10 < t₂ → t₂ < 9 / 10 →
      (∃ c, convertDDS s (20 * Real.pi) (20 * Real.pi) 0 none = .ok c) ∧
        NoOverlap (20 * Real.pi) (20 * Real.pi) 0 s := by
    intro family s t₁ t₂ a hv hs ht h1 h2 h3
    obtain ⟨-, hwf⟩ := (C43_well_formed family 1 false none).ok hs
    have hcon := hwf.constructed one_pos
    rw [Family.call_eq hv one_pos, ht] at hs
    injection hs with hs
    have hs' : s = piSequence 1 [(t₁, a), (t₂, a)] none := hs.symm
    have hwin : windows (20 * Real.pi) (20 * Real.pi) 0 s =
        [(0, 0), (t₁ - 1 / 40, t₁ + 1 / 40), (t₂ - 1 / 40, t₂ + 1 / 40), (1, 1)] := by
      have e1 : window 1 (20 * Real.pi) (20 * Real.pi) 0 (tablePulse (t₁, a)) =
          (t₁ - 1 / 40, t₁ + 1 / 40) := by
        rw [window_centre, centreOf_inside (by simp; linarith) (by simp; linarith), hw]
        norm_num
      have e2 : window 1 (20 * Real.pi) (20 * Real.pi) 0 (tablePulse (t₂, a)) =
          (t₂ - 1 / 40, t₂ + 1 / 40) := by
        rw [window_centre, centreOf_inside (by simp; linarith) (by simp; linarith), hw]
        norm_num
      rw [hs', windows, pulseList_pi]
      have n1 : t₁ ≠ 0 := by linarith
      have n2 : t₂ ≠ 1 := by linarith
      simp [piSequence, n1, n2, e1, e2]
    have hpl : pulseList s = [(t₁, a), (t₂, a)].map tablePulse := by rw [hs']; exact pulseList_pi _ _ _
    have hgap : NoOverlap (20 * Real.pi) (20 * Real.pi) 0 s := by
      unfold NoOverlap
      rw [hwin]
      simp only [EachGap, List.isChain_cons_cons]
      refine ⟨by linarith, by linarith, by linarith, List.isChain_singleton _⟩
    refine ⟨?_, hgap⟩
    obtain ⟨c, hc, -⟩ := (C46_convertible s hcon (20 * Real.pi) (20 * Real.pi) 0 none).1 (by
      refine ⟨by positivity, by positivity, le_rfl, ?_, ?_, ?_, ?_⟩
      · rw [hpl]
        cases a <;> simp [tablePulse, Axis.rabi, hpi.le]
      · rw [hpl]
        cases a <;> simp [tablePulse, Axis.rabi, Axis.detuning]
      · rw [hs']
        simp [piSequence]
        linarith
      · rw [hwin]
        simp only [EachGap, List.isChain_cons_cons]
        exact ⟨.inl (by linarith), .inl (by linarith), .inl (by linarith), List.isChain_singleton _⟩)
    exact ⟨c, hc⟩
  have h2 : ⌊(2 : ℝ)⌋₊ = 2 := by norm_num
  constructor
  · have hv : Family.Valid (.cpmg 2) := show (1 : ℝ) ≤ 2 by norm_num
    obtain ⟨s, hs, -⟩ := (C43_well_formed (.cpmg 2) 1 false none).1 ⟨one_pos, hv⟩
    obtain ⟨⟨c, hc⟩, hno⟩ := key (.cpmg 2) s (1 / 4) (3 / 4) .y hv hs (by
      simp [Family.table, h2, cpmgTimes, List.range', onAxis]; norm_num) (by norm_num) (by norm_num)
      (by norm_num)
    refine ⟨s, c, hs, hc, ?_⟩
    rw [C87_families (.cpmg 2) 1 (by norm_num) none s hs _ _ _ hno none c hc]
    simp only [Family.InsensitiveWhenConverted, h2]
    decide
  · have hv : Family.Valid (.periodic 2) := show (1 : ℝ) ≤ 2 by norm_num
    obtain ⟨s, hs, -⟩ := (C43_well_formed (.periodic 2) 1 false none).1 ⟨one_pos, hv⟩
    obtain ⟨⟨c, hc⟩, hno⟩ := key (.periodic 2) s (1 / 3) (2 / 3) .x hv hs (by
      simp [Family.table, h2, periodicTimes, List.range', onAxis]; norm_num) (by norm_num)
      (by norm_num) (by norm_num)
    refine ⟨s, c, hs, hc, ?_⟩
    rw [C87_families (.periodic 2) 1 (by norm_num) none s hs _ _ _ hno none c hc]
    exact id

end OpenControls
