import Verif.Proofs.FiniteWidthRotations
import Verif.Props.FiniteWidth

/-!
# C90: pre and post rotations of finite width and a constant detuning error
-/

namespace OpenControls

open Spec RealInst

theorem rotations_family {family : Family} {T : ℝ} {name : Option String} {s : Sequence ℝ}
    (hs : family.call T true name = .ok s) (hT : 1 / 10 ^ 8 < T) {R D m : ℝ}
    (hno : NoOverlap R D m s) {cname : Option String} {c : DrivenControl ℝ}
    (h : convertDDS s R D m cname = .ok c) :
    (family.Valid ∧ 0 < T) ∧ (0 < R ∧ 0 < D) ∧ s = finished T (family.table T) true name ∧
    ((∀ p ∈ family.table T, p.1 < T) ∧ (family.table T).Pairwise fun p q => p.1 < q.1) ∧
    HasMatrixDerivAt (fun d => evolution (withDetuningError d c))
      (rotation (Real.pi / 2) (finalAngle (family.table T)) * tableProduct (family.table T) *
        rotation (Real.pi / 2) 0 *
        su2 0 (-(piWidth R D m .x / Real.pi) * crossSum .y .x (family.table T))
          ((axisSum id .z T 0 (family.table T) -
            (1 - 2 / Real.pi) * halfWidth R m * (1 + tableSign .z (family.table T))) / 2)
          (2 * (halfWidth R m / Real.pi) -
            piWidth R D m .x / Real.pi * crossSum .x .y (family.table T))) 0 := by
  obtain ⟨⟨hT0, hv⟩, hwf⟩ := (C43_well_formed family T true name).ok hs
  have hcon := hwf.constructed hT0
  rw [Family.call_eq hv hT0] at hs
  injection hs with hs
  have hs' : s = finished T (family.table T) true name := hs.symm
  have hd : s.duration = T := by rw [hs']; rfl
  obtain ⟨hc, h | h⟩ := converted hcon h
  · exact absurd (allSmall_duration hcon hc h.1) (by rw [hd]; exact not_le.mpr hT)
  · obtain ⟨-, rfl⟩ := h
    have hpl : pulseList s = ⟨0, Real.pi / 2, 0, 0⟩ :: ((family.table T).map tablePulse ++
        [⟨T, Real.pi / 2, finalAngle (family.table T), 0⟩]) := by
      rw [hs']; exact pulseList_prePost _ _ _ _
    unfold NoOverlap at hno
    rw [windows_eq hcon, hpl, hd] at hno
    have hf := fits_pad hT0 _ hno
    obtain ⟨h1, h2⟩ := rotations_deriv hT0 hc.1 hc.2.1 cname (family.table T)
      (fun p hp => Family.table_bounds hv hT0 p hp) hf
    refine ⟨⟨hv, hT0⟩, ⟨hc.1, hc.2.1⟩, hs', h1, ?_⟩
    rw [hpl, hd, kept_pad hT0]
    exact h2

/-- the integral of the sensitivity of a predefined sequence -/
theorem rotations_integral {family : Family} {T : ℝ} (hv : family.Valid) (hT : 0 < T)
    (prePost : Bool) (name : Option String) :
    axisSum id .z T 0 (family.table T) =
      ∫ t in 0..T, sensitivityAlong .z (finished T (family.table T) prePost name) t := by
  rw [axisSum_integral hv hT .z (f := fun _ => 1) (fun x => hasDerivAt_id x) continuous_const]
  simp only [sensitivityAlong_finished, mul_one]

/-- **C90.** A predefined sequence with pre and post rotations is converted to a driven control with pulses of
finite width that do not overlap: `W` for a π-pulse, `w` for a π/2 rotation. To first order in a constant detuning
error `d` the control does what the pulses do, preceded by the error `exp(-i d/2 (A σx + B σy + C σz))`. `B` is the
integral of the sensitivity of the sequence less `(1 - 2/π) w` for the pre rotation and as much, with the sign of the
sensitivity at the end, for the post rotation. `C` is `4w/π` for the two rotations less `2W/π` times the signed
number of X pulses, and `A` is `-2W/π` times the signed number of Y pulses. -/
theorem C90_error (family : Family) (T : ℝ) (hT : 1 / 10 ^ 8 < T) (name : Option String)
    (s : Sequence ℝ) (hs : family.call T true name = .ok s) (R D m : ℝ) (hno : NoOverlap R D m s)
    (cname : Option String) (c : DrivenControl ℝ) (h : convertDDS s R D m cname = .ok c) :
    HasMatrixDerivAt (fun d => evolution (withDetuningError d c))
      (pulses s * ((-Complex.I / 2) •
        (((-(2 * max (Real.pi / R) m / Real.pi * signedCount .y .x s) : ℝ) : ℂ) • σx +
        (((∫ t in 0..T, sensitivityAlong .z s t) -
          (1 - 2 / Real.pi) * max (Real.pi / 2 / R) m * (1 + sensitivityAlong .z s T) : ℝ) : ℂ) • σy +
        ((4 * max (Real.pi / 2 / R) m / Real.pi -
          2 * max (Real.pi / R) m / Real.pi * signedCount .x .y s : ℝ) : ℂ) • σz))) 0 := by
  obtain ⟨⟨hv, hT0⟩, -, rfl, ⟨hlt, hpw⟩, hd⟩ := rotations_family hs hT hno h
  refine hd.congr ?_
  have hpu : pulses (finished T (family.table T) true name) =
      rotation (Real.pi / 2) (finalAngle (family.table T)) * tableProduct (family.table T) *
        rotation (Real.pi / 2) 0 := by
    have := pulses_withPrePost_eq T (family.table T) name (finalAngle (family.table T))
    rwa [pulseUnitary_resonant, pulseUnitary_resonant] at this
  rw [hpu, signedCount_rotations _ _ _ _ _ hpw, signedCount_rotations _ _ _ _ _ hpw,
    ← rotations_integral hv hT0, sensitivityAlong_finished, switching_end _ _ hlt, su2_eq]
  congr 1
  have e : piWidth R D m .x = max (Real.pi / R) m := rfl
  have e' : halfWidth R m = max (Real.pi / 2 / R) m := rfl
  rw [e, e']
  simp only [smul_add, smul_smul]
  push_cast
  rw [zero_smul, zero_add]
  refine congrArg₂ _ (congrArg₂ _ (congrArg (· • σx) ?_) (congrArg (· • σy) ?_))
    (congrArg (· • σz) ?_) <;> ring

/-- **C90**, so the converted control is insensitive to a small detuning error exactly if the signed number of Y
pulses vanishes, the signed X pulses together are as wide as both rotations, and the integral of the sensitivity is
what the rotations take away. -/
theorem C90_insensitive_iff (family : Family) (T : ℝ) (hT : 1 / 10 ^ 8 < T) (name : Option String)
    (s : Sequence ℝ) (hs : family.call T true name = .ok s) (R D m : ℝ) (hno : NoOverlap R D m s)
    (cname : Option String) (c : DrivenControl ℝ) (h : convertDDS s R D m cname = .ok c) :
    FirstOrderInsensitive (fun d => evolution (withDetuningError d c)) ↔
      signedCount .y .x s = 0 ∧
      ∫ t in 0..T, sensitivityAlong .z s t =
        (1 - 2 / Real.pi) * max (Real.pi / 2 / R) m * (1 + sensitivityAlong .z s T) ∧
      signedCount .x .y s * max (Real.pi / R) m = 2 * max (Real.pi / 2 / R) m := by
  obtain ⟨⟨hv, hT0⟩, ⟨hR, hD⟩, rfl, ⟨hlt, hpw⟩, hd⟩ := rotations_family hs hT hno h
  have hrot : ∀ φ, IsUnit (rotation (Real.pi / 2) φ) := by
    intro φ
    refine IsUnit.of_mul_eq_one (rotation (-(Real.pi / 2)) φ) ?_
    rw [rotation_mul_same, add_neg_cancel, rotation_zero]
  rw [firstOrder_iff_of_deriv hd,
    (((hrot _).mul (tableProduct_unit _)).mul (hrot _)).mul_right_eq_zero, ← su2_zero, su2_inj,
    signedCount_rotations _ _ _ _ _ hpw, signedCount_rotations _ _ _ _ _ hpw,
    ← rotations_integral hv hT0, sensitivityAlong_finished, switching_end _ _ hlt]
  have hw := (piWidth_pos (m := m) hR hD .x).ne'
  have hpi := Real.pi_pos.ne'
  have e : max (Real.pi / R) m = piWidth R D m .x := rfl
  have e' : max (Real.pi / 2 / R) m = halfWidth R m := rfl
  rw [e, e']
  refine ⟨?_, ?_⟩
  · rintro ⟨-, h1, h2, h3⟩
    refine ⟨?_, by linarith, ?_⟩
    · rcases mul_eq_zero.mp h1 with h | h
      · rw [neg_eq_zero, div_eq_zero_iff] at h
        tauto
      · exact h
    · field_simp at h3
      linarith
  · rintro ⟨h1, h2, h3⟩
    refine ⟨rfl, by rw [h1, mul_zero], by rw [h2, sub_self, zero_div], ?_⟩
    field_simp
    linarith

/-- **C90** for each family: with pre and post rotations of finite width exactly these sequences stay insensitive to
a constant detuning error, and only if the minimum duration does not stretch the π/2 rotations. -/
theorem C90_families (family : Family) (T : ℝ) (hT : 1 / 10 ^ 8 < T) (name : Option String)
    (s : Sequence ℝ) (hs : family.call T true name = .ok s) (R D m : ℝ) (hno : NoOverlap R D m s)
    (cname : Option String) (c : DrivenControl ℝ) (h : convertDDS s R D m cname = .ok c) :
    FirstOrderInsensitive (fun d => evolution (withDetuningError d c)) ↔
      family.InsensitiveWithRotations ∧ m ≤ Real.pi / 2 / R := by
  rw [C90_insensitive_iff family T hT name s hs R D m hno cname c h]
  have hint := C44_iff family T true name s hs
  have hsep := (Family.increasing_iff hs).mp
    (((C46_convertible s (((C43_well_formed family T true name).ok hs).2.constructed
      ((C43_well_formed family T true name).ok hs).1.1) R D m cname).ok h).1).2.2.2.2.2.1
  obtain ⟨⟨hv, hT0⟩, ⟨hR, hD⟩, rfl, ⟨hlt, hpw⟩, -⟩ := rotations_family hs hT hno h
  have hpi := Real.pi_gt_three
  rw [signedCount_rotations _ _ _ _ _ hpw, signedCount_rotations _ _ _ _ _ hpw]
  have hI : (∫ t in 0..T, sensitivityAlong .z (finished T (family.table T) true name) t) = 0 ↔
      family.Refocuses := by
    rw [← hint]
    simp only [sensitivity_finished, sensitivityAlong_finished, axisFlips_z]
  rw [sensitivityAlong_finished, switching_end _ _ hlt]
  have hw := halfWidth_pos (m := m) hR
  have hW := piWidth_pos (m := m) hR hD .x
  have e : max (Real.pi / R) m = piWidth R D m .x := rfl
  have e' : max (Real.pi / 2 / R) m = halfWidth R m := rfl
  have hhalf : Real.pi / R = 2 * (Real.pi / 2 / R) := by ring
  have hpos : 0 < Real.pi / 2 / R := by positivity
  -- the X pulses have to make up for the rotations
  have hfew : ∀ n : ℝ, n ≤ 0 → ¬ n * max (Real.pi / R) m = 2 * max (Real.pi / 2 / R) m := by
    intro n hn h
    rw [e, e'] at h
    nlinarith
  have hone : (1 : ℝ) * max (Real.pi / R) m = 2 * max (Real.pi / 2 / R) m ↔ m ≤ Real.pi / 2 / R := by
    rw [one_mul, hhalf]
    constructor
    · intro h
      by_contra hm
      push Not at hm
      rw [max_eq_right hm.le] at h
      have := max_lt (show 2 * (Real.pi / 2 / R) < 2 * m by linarith) (show m < 2 * m by linarith)
      linarith
    · intro h
      rw [max_eq_left h, max_eq_left (by linarith)]
  -- one uncompensated X pulse and no Y pulse
  have hgood : family.Refocuses → crossSum .x .y (family.table T) = 1 →
      crossSum .y .x (family.table T) = 0 → tableSign .z (family.table T) = -1 →
      family.InsensitiveWithRotations →
      ((crossSum .y .x (family.table T) = 0 ∧
        (∫ t in 0..T, sensitivityAlong .z (finished T (family.table T) true name) t) =
          (1 - 2 / Real.pi) * max (Real.pi / 2 / R) m * (1 + tableSign .z (family.table T)) ∧
        crossSum .x .y (family.table T) * max (Real.pi / R) m = 2 * max (Real.pi / 2 / R) m) ↔
        family.InsensitiveWithRotations ∧ m ≤ Real.pi / 2 / R) := by
    intro h1 h2 h3 h4 h5
    rw [h2, h3, h4, hI.mpr h1, hone]
    simp [h5]
  have hbad : crossSum .x .y (family.table T) ≤ 0 → ¬ family.InsensitiveWithRotations →
      ((crossSum .y .x (family.table T) = 0 ∧
        (∫ t in 0..T, sensitivityAlong .z (finished T (family.table T) true name) t) =
          (1 - 2 / Real.pi) * max (Real.pi / 2 / R) m * (1 + tableSign .z (family.table T)) ∧
        crossSum .x .y (family.table T) * max (Real.pi / R) m = 2 * max (Real.pi / 2 / R) m) ↔
        family.InsensitiveWithRotations ∧ m ≤ Real.pi / 2 / R) := fun h1 h2 =>
    iff_of_false (fun h => hfew _ h1 h.2.2) (fun h => h2 h.1)
  -- sequences of X pulses only
  have hX : ∀ ts : List ℝ, family.table T = onAxis .x ts → family.Refocuses ∨ Even ts.length →
      (family.InsensitiveWithRotations ↔ Odd ts.length) →
      ((crossSum .y .x (family.table T) = 0 ∧
        (∫ t in 0..T, sensitivityAlong .z (finished T (family.table T) true name) t) =
          (1 - 2 / Real.pi) * max (Real.pi / 2 / R) m * (1 + tableSign .z (family.table T)) ∧
        crossSum .x .y (family.table T) * max (Real.pi / R) m = 2 * max (Real.pi / 2 / R) m) ↔
        family.InsensitiveWithRotations ∧ m ≤ Real.pi / 2 / R) := by
    intro ts ht hr hi
    have hx : crossSum .x .y (family.table T) = if Even ts.length then 0 else 1 := by
      rw [ht, crossSum_same (by simp)]
    by_cases he : Even ts.length
    · exact hbad (by rw [hx, if_pos he]) (fun h => Nat.not_even_iff_odd.mpr (hi.mp h) he)
    · have ho := Nat.not_even_iff_odd.mp he
      refine hgood (hr.resolve_right he) (by rw [hx, if_neg he])
        (by rw [ht, crossSum_other (by simp)]) ?_ (hi.mpr ho)
      rw [ht]
      simp [tableSign, onAxis, axisSign, Function.comp_def, ho.neg_one_pow]
  have hY : ∀ ts : List ℝ, family.table T = onAxis .y ts → crossSum .x .y (family.table T) ≤ 0 :=
    fun ts ht => by rw [ht, crossSum_other (by simp)]
  cases family with
  | ramsey => exact hbad le_rfl id
  | spinEcho =>
    exact hX [T / 2] rfl (.inl trivial) (by simp [Family.InsensitiveWithRotations])
  | carrPurcell n =>
    exact hX _ rfl (.inl trivial) (by simp [Family.InsensitiveWithRotations, cpmgTimes])
  | cpmg n => exact hbad (hY _ rfl) id
  | uhrig n => exact hbad (hY _ rfl) id
  | periodic n =>
    have hl : (periodicTimes T ⌊n⌋₊).length = ⌊n⌋₊ := by simp [periodicTimes]
    refine hX _ rfl ?_ (by rw [hl]; exact Iff.rfl)
    rw [hl]
    exact (Nat.even_or_odd ⌊n⌋₊).symm
  | walsh k =>
    refine hX _ rfl (.inl trivial) ?_
    have := walsh_parity T (Nat.floor_pos.mpr hv.1).ne'
    rw [← Nat.not_even_iff_odd, this]
    exact Nat.not_even_iff_odd.symm
  | quadratic n k =>
    have hno' := table_no_y (family := .quadratic n k) trivial T
    have hk : ⌊k⌋₊ ≠ 0 := (Nat.floor_pos.mpr hv.2).ne'
    have hl : (uhrigTimes T ⌊k⌋₊).length = ⌊k⌋₊ := by simp [uhrigTimes]
    have hx : crossSum .x .y (Family.table (.quadratic n k) T) =
        if Even ⌊n⌋₊ then (if Even ⌊k⌋₊ then 0 else 1) else -(⌊k⌋₊ : ℝ) := by
      simp only [Family.table, crossSum_quadratic, hl]
    by_cases hn : Even ⌊n⌋₊
    · by_cases he : Even ⌊k⌋₊
      · exact hbad (by rw [hx, if_pos hn, if_pos he]) fun h => Nat.not_even_iff_odd.mpr h.2 he
      · have ho := Nat.not_even_iff_odd.mp he
        refine hgood trivial (by rw [hx, if_pos hn, if_neg he]) (crossSum_zero hno') ?_ ⟨hn, ho⟩
        have hq : ∀ (l : List ℝ) (a : ℝ), tableSign .z (quadraticTable ⌊n⌋₊ T a l) =
            (-1) ^ l.length := by
          have hz : ∀ ts : List ℝ, ((onAxis .z ts).map fun p => axisSign .z p.2).prod = 1 := by
            intro ts
            simp [onAxis, axisSign, Function.comp_def]
          intro l
          induction l with
          | nil =>
            intro a
            rw [quadraticTable, tableSign, hz]; simp
          | cons b r ih =>
            intro a
            have := ih b
            unfold tableSign at this ⊢
            rw [quadraticTable, List.map_append, List.prod_append, hz, List.map_cons,
              List.prod_cons, this, List.length_cons, pow_succ]
            simp [axisSign]
        have := hq (uhrigTimes T ⌊k⌋₊) 0
        rw [hl, ho.neg_one_pow] at this
        exact this
    · exact hbad (by rw [hx, if_neg hn]; simp) fun h => hn h.1
  | xConcatenated l =>
    refine hX _ rfl (.inl trivial) ?_
    have hl := (Nat.floor_pos.mpr hv).ne'
    obtain ⟨j, hj⟩ : ∃ j, ⌊l⌋₊ = j + 1 := ⟨⌊l⌋₊ - 1, by omega⟩
    have := walsh_parity T (k := 2 ^ (j + 1) - 1) (by
      have := Nat.one_lt_two_pow (n := j + 1) (by omega); omega)
    rw [walsh_ones hT0, ones_digits] at this
    simp only [Family.InsensitiveWithRotations]
    rw [hj, ← Nat.not_even_iff_odd, ← this, ← Nat.not_even_iff_odd]
  | xyConcatenated l =>
    have hl := (Nat.floor_pos.mpr (show (1 : ℝ) ≤ l from hv)).ne'
    have hl3 : ⌊l⌋₊ < 3 :=
      (Nat.floor_lt (by have : (1 : ℝ) ≤ l := hv; linarith)).mpr (by exact_mod_cast hsep.1)
    refine hbad ?_ id
    obtain h1 | h2 : ⌊l⌋₊ = 1 ∨ ⌊l⌋₊ = 2 := by omega
    · simp only [Family.table, h1, xyTable_one hT0, List.map_cons, List.map_nil, crossSum, axisSign]
      simp
    · simp only [Family.table, h2, xyTable_two hT0, List.map_cons, List.map_nil, crossSum, axisSign]
      simp

/-! ### Non-vacuity -/

/-- A spin echo of duration 1 with rotations, at a Rabi rate of 20π: insensitive without a minimum duration, and not
with a minimum of 1/30, more than the π/2 rotations need. -/
example : ∃ s c c', newSpinEchoSequence (1 : ℝ) true none = .ok s ∧
    convertDDS s (20 * Real.pi) (20 * Real.pi) 0 none = .ok c ∧
    convertDDS s (20 * Real.pi) (20 * Real.pi) (1 / 30) none = .ok c' ∧
    FirstOrderInsensitive (fun d => evolution (withDetuningError d c)) ∧
    ¬ FirstOrderInsensitive fun d => evolution (withDetuningError d c') := by
  have hpi := Real.pi_pos
  obtain ⟨s, hs, hwf⟩ := (C43_well_formed .spinEcho 1 true none).1 ⟨one_pos, trivial⟩
  have hcon := hwf.constructed one_pos
  have hs' := hs
  rw [Family.call_eq (family := .spinEcho) trivial one_pos] at hs'
  injection hs' with hs'
  have hpl : pulseList s = ⟨0, Real.pi / 2, 0, 0⟩ :: ([(1 / 2, Axis.x)].map tablePulse ++
      [⟨1, Real.pi / 2, finalAngle [(1 / 2, Axis.x)], 0⟩]) := by
    rw [← hs']; exact pulseList_prePost _ _ _ _
  have hquarter : Real.pi / 2 / (20 * Real.pi) = 1 / 40 := by field_simp; norm_num
  have key : ∀ m : ℝ, 0 ≤ m → m ≤ 1 / 30 →
      (∃ c, convertDDS s (20 * Real.pi) (20 * Real.pi) m none = .ok c) ∧
        NoOverlap (20 * Real.pi) (20 * Real.pi) m s := by
    intro m h0 hm
    have hw : piWidth (20 * Real.pi) (20 * Real.pi) m .x ≤ 1 / 20 := by
      have : Real.pi / (20 * Real.pi) = 1 / 20 := by field_simp
      simp only [piWidth, this]
      exact max_le le_rfl (by linarith)
    have hh : halfWidth (20 * Real.pi) m ≤ 1 / 30 := by
      unfold halfWidth
      rw [hquarter]
      exact max_le (by norm_num) hm
    have hwin : windows (20 * Real.pi) (20 * Real.pi) m s =
        [(0, halfWidth (20 * Real.pi) m),
          (1 / 2 - piWidth (20 * Real.pi) (20 * Real.pi) m .x / 2,
            1 / 2 + piWidth (20 * Real.pi) (20 * Real.pi) m .x / 2),
          (1 - halfWidth (20 * Real.pi) m, 1)] := by
      have hd : s.duration = 1 := by rw [← hs']; rfl
      have e1 : window 1 (20 * Real.pi) (20 * Real.pi) m (tablePulse (1 / 2, .x)) =
          (1 / 2 - piWidth (20 * Real.pi) (20 * Real.pi) m .x / 2,
            1 / 2 + piWidth (20 * Real.pi) (20 * Real.pi) m .x / 2) := by
        rw [window_centre, centreOf_inside (by norm_num) (by norm_num)]
      have e0 : window 1 (20 * Real.pi) (20 * Real.pi) m ⟨0, Real.pi / 2, 0, 0⟩ =
          (0, halfWidth (20 * Real.pi) m) := by
        simp [window, width_half]
      have e2 : window 1 (20 * Real.pi) (20 * Real.pi) m
          ⟨1, Real.pi / 2, finalAngle [(1 / 2, Axis.x)], 0⟩ = (1 - halfWidth (20 * Real.pi) m, 1) := by
        simp [window, width_half]
      have ho : s.offsets = [0, 1 / 2, 1] := by
        rw [← hs']
        simp [finished, withPrePost, piSequence, Family.table]
      unfold windows
      rw [hpl, hd, ho]
      simp only [List.map_cons, List.map_nil, List.map_append, e0, e1, e2]
      simp
    have hgap : NoOverlap (20 * Real.pi) (20 * Real.pi) m s := by
      unfold NoOverlap
      rw [hwin]
      simp only [EachGap, List.isChain_cons_cons]
      exact ⟨by linarith, by linarith, List.isChain_singleton _⟩
    refine ⟨?_, hgap⟩
    obtain ⟨c, hc, -⟩ := (C46_convertible s hcon (20 * Real.pi) (20 * Real.pi) m none).1 (by
      refine ⟨by positivity, by positivity, h0, ?_, ?_, ?_, ?_⟩
      · rw [hpl]
        simp [tablePulse, Axis.rabi, hpi.le]
        positivity
      · rw [hpl]
        simp [tablePulse, Axis.rabi, Axis.detuning]
      · rw [← hs']
        simp [finished, withPrePost, piSequence, Family.table]
        norm_num
      · rw [hwin]
        simp only [EachGap, List.isChain_cons_cons]
        exact ⟨.inl (by linarith), .inl (by linarith), List.isChain_singleton _⟩)
    exact ⟨c, hc⟩
  obtain ⟨⟨c, hc⟩, hno⟩ := key 0 le_rfl (by norm_num)
  obtain ⟨⟨c', hc'⟩, hno'⟩ := key (1 / 30) (by norm_num) le_rfl
  refine ⟨s, c, c', hs, hc, hc', ?_, ?_⟩
  · rw [C90_families .spinEcho 1 (by norm_num) none s hs _ _ _ hno none c hc, hquarter]
    exact ⟨trivial, by norm_num⟩
  · rw [C90_families .spinEcho 1 (by norm_num) none s hs _ _ _ hno' none c' hc', hquarter]
    rintro ⟨-, h⟩
    norm_num at h

end OpenControls
