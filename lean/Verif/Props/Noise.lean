import Verif.Proofs.XYAxes
import Verif.Props.CancellationOrder

/-!
# C81-C82: sequences of ideal pulses on a noisy qubit
-/

namespace OpenControls

open Spec RealInst

/-- **C81**, the free evolution used here solves the Schroedinger equation `dU/dt = -i/2 β(t) σz U` and starts
at the identity. -/
theorem C81_dephasing_solves (β : ℝ → ℝ) (hβ : Continuous β) (a t : ℝ) :
    dephasing β a a = 1 ∧
    HasMatrixDerivAt (fun b => dephasing β a b)
      ((-Complex.I * (β t : ℂ) / 2) • (σz * dephasing β a t)) t := by
  refine ⟨dephasing_refl β a, ?_⟩
  have hl : HasDerivAt (fun b => (∫ t in a..b, β t) / 2) (β t / 2) t :=
    (intervalIntegral.integral_hasDerivAt_right (hβ.intervalIntegrable _ _)
      hβ.stronglyMeasurable.stronglyMeasurableAtFilter hβ.continuousAt).div_const 2
  simp only [dephasing_eq]
  refine (HasMatrixDerivAt.su2 hl.cos (hasDerivAt_const t 0) (hasDerivAt_const t 0) hl.sin).congr ?_
  generalize Real.cos ((∫ t in a..t, β t) / 2) = c
  generalize Real.sin ((∫ t in a..t, β t) / 2) = s
  ext i j
  fin_cases i <;> fin_cases j <;>
    simp [su2, σz, Complex.ext_iff] <;>
    (try constructor) <;> ring

/-- **C81.** On a qubit with dephasing noise `β(t) σz / 2` every predefined sequence, without pre and post
rotations, does what its pulses do, preceded by a rotation about Z by the integral of the noise weighted with the
sensitivity. -/
theorem C81_dephasing_phase (family : Family) (T : ℝ) (name : Option String) (s : Sequence ℝ)
    (hs : family.call T false name = .ok s) (β : ℝ → ℝ) (hβ : Continuous β) :
    underNoise (dephasing β) s = pulses s *
      NormedSpace.exp ((-Complex.I * ((∫ t in 0..T, sensitivity s t * β t : ℝ) : ℂ) / 2) • σz) := by
  obtain ⟨⟨hT, hv⟩, -⟩ := (C43_well_formed family T false name).ok hs
  rw [Family.call_eq hv hT] at hs
  injection hs with hs
  subst hs
  have h := dephasing_eq (fun t => sensitivity (finished T (family.table T) false name) t * β t) 0 T
  unfold dephasing at h
  rw [h]
  simp only [sensitivity_finished]
  have e : finished T (family.table T) false name = piSequence T (family.table T) name := rfl
  rw [e, underNoise_table, pulses_table, family_dephasing hv hT hβ]
  rfl

/-- **C81** with pre and post rotations: the probability to find the qubit in the initial state is the squared
cosine of half that integral. -/
theorem C81_return_probability (family : Family) (T : ℝ) (name : Option String) (s : Sequence ℝ)
    (hs : family.call T true name = .ok s) (β : ℝ → ℝ) (hβ : Continuous β) :
    returnProbability (underNoise (dephasing β) s) =
      Real.cos ((∫ t in 0..T, sensitivity s t * β t) / 2) ^ 2 := by
  obtain ⟨⟨hT, hv⟩, -⟩ := (C43_well_formed family T true name).ok hs
  rw [Family.call_eq hv hT] at hs
  injection hs with hs
  subst hs
  simp only [sensitivity_finished]
  have e : finished T (family.table T) true name =
    withPrePost (finalAngle (family.table T)) (piSequence T (family.table T) name) := rfl
  have hp := pulses_withPrePost T (family.table T) name
  rw [pulses_withPrePost_eq] at hp
  refine returnProbability_eq hp ?_
  rw [e, underNoise_withPrePost _ (dephasing_refl β), family_dephasing hv hT hβ]
  simp only [mul_assoc]

/-- **C81**, cancellation: dephasing noise that is a polynomial in time of a degree below the order of
cancellation of the sequence has no effect at all, whatever its strength. -/
theorem C81_cancelled (family : Family) (T : ℝ) (prePost : Bool) (name : Option String)
    (s : Sequence ℝ) (hs : family.call T prePost name = .ok s) (β : Polynomial ℝ)
    (hβ : β.degree < family.cancellationOrder) :
    underNoise (dephasing fun t => β.eval t) s = pulses s := by
  have hc := (C72_cancellation_order family T prePost name s hs).1
  obtain ⟨⟨hT, hv⟩, hw⟩ := (C43_well_formed family T prePost name).ok hs
  rw [hw.1] at hc
  rw [Family.call_eq hv hT] at hs
  injection hs with hs
  subst hs
  simp only [sensitivity_finished] at hc
  have hint : ∀ k : ℕ, IntervalIntegrable
      (fun t => switching (flipTimes (family.table T)) t * t ^ k) MeasureTheory.volume 0 T :=
    fun k => (integral_switching (hasDerivAt_power k) (continuous_pow k) T _ 0 hT.le
      (axisFlips_sorted (Family.table_sorted hv hT) .z) (fun t ht => by
        unfold axisFlips at ht
        obtain ⟨p, hp, rfl⟩ := List.mem_map.mp ht
        have := Family.table_bounds hv hT p (List.mem_of_mem_filter hp)
        exact ⟨this.1.le, this.2⟩)).1
  have hzero : ∫ t in 0..T, switching (flipTimes (family.table T)) t * β.eval t = 0 := by
    have he : ∀ t, switching (flipTimes (family.table T)) t * β.eval t =
        ∑ k ∈ Finset.range (β.natDegree + 1), β.coeff k *
          (switching (flipTimes (family.table T)) t * t ^ k) := by
      intro t
      rw [Polynomial.eval_eq_sum_range, Finset.mul_sum]
      exact Finset.sum_congr rfl fun k _ => by ring
    simp only [he]
    rw [intervalIntegral.integral_finsetSum fun k _ => (hint k).const_mul _]
    apply Finset.sum_eq_zero
    intro k hk
    rw [intervalIntegral.integral_const_mul]
    by_cases h0 : β = 0
    · simp [h0]
    · have : β.natDegree < family.cancellationOrder := by
        rw [Polynomial.degree_eq_natDegree h0] at hβ
        exact_mod_cast hβ
      rw [hc k (by have := Finset.mem_range.mp hk; omega), mul_zero]
  have hcont : Continuous fun t => β.eval t := by
    simp only [Polynomial.eval_eq_sum_range]
    fun_prop
  have htab : tableNoise (dephasing fun t => β.eval t) T 0 (family.table T) =
      tableProduct (family.table T) := by
    rw [family_dephasing hv hT hcont, hzero, zrot_zero, mul_one]
  cases prePost with
  | false =>
    have e : finished T (family.table T) false name = piSequence T (family.table T) name := rfl
    rw [e, underNoise_table, pulses_table, htab]
  | true =>
    have e : finished T (family.table T) true name =
      withPrePost (finalAngle (family.table T)) (piSequence T (family.table T) name) := rfl
    rw [e, underNoise_withPrePost _ (dephasing_refl _), pulses_withPrePost_eq, htab]

/-- the hypotheses are met: a five-pulse Uhrig sequence with pre and post rotations returns the qubit to
`|0⟩` under the noise `1000 t⁴` -/
example : ∃ s, newUhrigSequence (1 : ℝ) 5 true none = .ok s ∧
    returnProbability (underNoise (dephasing fun t => 1000 * t ^ 4) s) = 1 := by
  obtain ⟨s, hs, -⟩ := (C43_well_formed (.uhrig 5) 1 true none).1
    ⟨by norm_num, show (1 : ℝ) ≤ 5 by norm_num⟩
  refine ⟨s, hs, ?_⟩
  rw [C81_return_probability (.uhrig 5) 1 none s hs _ (by fun_prop)]
  have h5 : ⌊(5 : ℝ)⌋₊ = 5 := by norm_num
  have := C45_uhrig_moments 1 5 true none s hs 4 (by omega)
  have e : ∀ t, sensitivity s t * (1000 * t ^ 4) = 1000 * (sensitivity s t * t ^ 4) := fun t => by ring
  simp only [e]
  rw [intervalIntegral.integral_const_mul, this]
  simp

theorem underNoise_static_deriv (family : Family) {T : ℝ} (prePost : Bool)
    (name : Option String) (x y z : ℝ) :
    ∃ A B : M2, IsUnit A ∧ IsUnit B ∧ HasMatrixDerivAt
      (fun e => underNoise (staticNoise (e * x) (e * y) (e * z))
        (finished T (family.table T) prePost name))
      (A * su2 0 (x / 2 * axisSum id .x T 0 (family.table T))
        (y / 2 * axisSum id .y T 0 (family.table T))
        (z / 2 * axisSum id .z T 0 (family.table T)) * B) 0 := by
  have hax : ∀ p : Axis, IsUnit (axisPulse p) := by
    intro p
    have : axisPulse p * -axisPulse p = 1 := by
      cases p <;> simp only [axisPulse, su2_neg, su2_mul, ← su2_one, su2_inj] <;> norm_num
    exact IsUnit.of_mul_eq_one _ this
  have htab : ∀ t : List (ℝ × Axis), IsUnit (tableProduct t) := by
    intro t
    induction t with
    | nil => exact isUnit_one
    | cons p r ih => exact ih.mul (hax p.2)
  have hpulse : ∀ φ, IsUnit (pulseUnitary (Real.pi / 2) φ 0) := by
    intro φ
    have e : pulseUnitary (Real.pi / 2) φ 0 = rotation (Real.pi / 2) φ := by
      rw [pulseUnitary_eq_segmentUnitary, segmentUnitary_resonant, mul_one]
    have : rotation (Real.pi / 2) φ * rotation (-(Real.pi / 2)) φ = 1 := by
      rw [rotation_mul_same, add_neg_cancel, rotation_zero]
    rw [e]
    exact IsUnit.of_mul_eq_one _ this
  have h := tableNoise_static x y z T 0 (family.table T)
  cases prePost with
  | false =>
    have e : finished T (family.table T) false name = piSequence T (family.table T) name := rfl
    refine ⟨_, 1, htab (family.table T), isUnit_one, ?_⟩
    simp only [e, underNoise_table, mul_one]
    exact h
  | true =>
    have e : finished T (family.table T) true name =
      withPrePost (finalAngle (family.table T)) (piSequence T (family.table T) name) := rfl
    refine ⟨_, _, (hpulse (finalAngle (family.table T))).mul (htab (family.table T)), hpulse 0, ?_⟩
    simp only [e, underNoise_withPrePost _ (staticNoise_refl _ _ _)]
    refine (((HasMatrixDerivAt.const _ 0).mul h).mul (HasMatrixDerivAt.const _ 0)).congr ?_
    simp only [zero_mul, mul_zero, add_zero, zero_add, mul_assoc]

/-- a sequence decouples exactly if the three sensitivities integrate to zero -/
theorem decouples_iff (family : Family) (hv : family.Valid) {T : ℝ} (hT : 0 < T) (prePost : Bool)
    (name : Option String) :
    DecouplesStaticNoise (finished T (family.table T) prePost name) ↔
      ∀ c : Axis, ∫ t in 0..T, switching (axisFlips c (family.table T)) t = 0 := by
  have hsum : ∀ c : Axis, axisSum id c T 0 (family.table T) =
      ∫ t in 0..T, switching (axisFlips c (family.table T)) t := by
    intro c
    rw [axisSum_integral hv hT c (f := fun _ => 1) (fun x => hasDerivAt_id x) continuous_const]
    simp
  constructor
  · intro h c
    have key : ∀ x y z : ℝ, su2 0 (x / 2 * axisSum id .x T 0 (family.table T))
        (y / 2 * axisSum id .y T 0 (family.table T))
        (z / 2 * axisSum id .z T 0 (family.table T)) = su2 0 0 0 0 := by
      intro x y z
      obtain ⟨A, B, hA, hB, hd⟩ := underNoise_static_deriv family prePost name x y z (T := T)
      have h0 : A * su2 0 (x / 2 * axisSum id .x T 0 (family.table T))
          (y / 2 * axisSum id .y T 0 (family.table T))
          (z / 2 * axisSum id .z T 0 (family.table T)) * B = 0 := by
        ext i j
        exact (hd i j).unique (h x y z i j)
      rw [su2_zero]
      have h1 := hB.mul_left_eq_zero.mp h0
      exact hA.mul_right_eq_zero.mp h1
    have k1 := su2_inj.mp (key 2 2 2)
    rw [← hsum]
    cases c
    · have := k1.2.1; linarith
    · have := k1.2.2.1; linarith
    · have := k1.2.2.2; linarith
  · intro h x y z
    obtain ⟨A, B, -, -, hd⟩ := underNoise_static_deriv family prePost name x y z (T := T)
    refine hd.congr ?_
    rw [hsum, hsum, hsum, h, h, h]
    simp only [mul_zero, su2_zero, zero_mul]

/-- **C82.** A predefined sequence decouples the qubit from static noise of every direction, to first order in
the noise, exactly if it is a quadratic sequence (of any orders) or an XY-concatenated one of order one or two.
From order three on the XY-concatenated sequences of the code do not. -/
theorem C82_universal_iff (family : Family) (T : ℝ) (prePost : Bool) (name : Option String)
    (s : Sequence ℝ) (hs : family.call T prePost name = .ok s) :
    DecouplesStaticNoise s ↔ family.Universal := by
  obtain ⟨⟨hT, hv⟩, -⟩ := (C43_well_formed family T prePost name).ok hs
  rw [Family.call_eq hv hT] at hs
  injection hs with hs
  subst hs
  rw [decouples_iff family hv hT]
  have single : ∀ (a : Axis) (times : List ℝ),
      ¬ ∀ c : Axis, ∫ t in 0..T, switching (axisFlips c (onAxis a times)) t = 0 := by
    intro a times h
    have h1 := h a
    have e : axisFlips a (onAxis a times) = [] := by simp [axisFlips, onAxis]
    rw [e] at h1
    simp [switching, hT.ne'] at h1
  cases family with
  | ramsey => exact iff_of_false (single .x []) id
  | spinEcho => exact iff_of_false (single .x [T / 2]) id
  | carrPurcell n => exact iff_of_false (single .x _) id
  | cpmg n => exact iff_of_false (single .y _) id
  | uhrig n => exact iff_of_false (single .y _) id
  | periodic n => exact iff_of_false (single .x _) id
  | walsh k => exact iff_of_false (single .x _) id
  | xConcatenated l => exact iff_of_false (single .x _) id
  | quadratic n m =>
    refine iff_of_true (fun c => ?_) trivial
    by_cases hc : c = .z
    · subst hc
      rw [axisFlips_z, Family.table, flipTimes_quadratic]
      simpa using uhrig_moment hT (Nat.floor_pos.mpr hv.2)
    · have ho := uhrig_ordered hT ⌊m⌋₊
      have h := quadratic_axisSum hc (Nat.floor_pos.mpr hv.1) (uhrigTimes T ⌊m⌋₊) 0 hT ho.1 ho.2
      have h2 := axisSum_integral (family := .quadratic n m) hv hT c (hasDerivAt_power 0)
        (continuous_pow 0)
      simp only [Family.table] at h2 ⊢
      rw [h] at h2
      simpa using h2.symm
  | xyConcatenated l =>
    have hl : ⌊l⌋₊ ≠ 0 := (Nat.floor_pos.mpr (show (1 : ℝ) ≤ l from hv)).ne'
    simp only [Family.table, Family.Universal]
    generalize ⌊l⌋₊ = m at hl
    have hsmall : ∀ k : ℕ, k ≠ 0 → 0 < T * (1 - 1 / (16 : ℝ) ^ k) := by
      intro k hk
      have h16 : (1 : ℝ) < 16 ^ k := one_lt_pow₀ (by norm_num) hk
      have : (1 : ℝ) / 16 ^ k < 1 := by rw [div_lt_one (by positivity)]; exact h16
      have : 0 < 1 - (1 : ℝ) / 16 ^ k := by linarith
      positivity
    constructor
    · intro h
      by_contra hm
      rcases Nat.even_or_odd m with he | ho
      · obtain ⟨k, rfl⟩ : ∃ k, m = 2 * k + 2 := ⟨m / 2 - 1, by obtain ⟨r, rfl⟩ := he; omega⟩
        have h1 := h .x
        rw [xy_axis_even (by simp) hT k] at h1
        have := hsmall k (by omega)
        linarith
      · obtain ⟨k, rfl⟩ := ho
        have h1 := h .z
        rw [axisFlips_z, xy_integral_odd hT k] at h1
        have := hsmall k (by omega)
        linarith
    · intro hm c
      obtain rfl | rfl : m = 1 ∨ m = 2 := by omega
      · exact xy_axis_one c hT
      · by_cases hc : c = .z
        · subst hc
          rw [axisFlips_z]
          exact xy_integral_even hT 0
        · have := xy_axis_even hc hT 0
          simpa using this

theorem sensitivityAlong_finished (c : Axis) (T : ℝ) (table : List (ℝ × Axis)) (prePost : Bool)
    (name : Option String) (t : ℝ) :
    sensitivityAlong c (finished T table prePost name) t = switching (axisFlips c table) t := by
  classical
  have hpi := Real.pi_pos
  have hne : ∀ a : Axis, Real.pi / 2 ≠ a.rabi := by
    intro a
    cases a <;> simp only [Axis.rabi] <;> intro h <;> linarith
  have hax : ∀ a b : Axis, a.rabi = b.rabi → a.azimuthal = b.azimuthal →
      a.detuning = b.detuning → a = b := by
    intro a b h1 h2 h3
    cases a <;> cases b <;> first
      | rfl
      | (exfalso; simp only [Axis.rabi, Axis.azimuthal, Axis.detuning] at h1 h2 h3; linarith)
  have key : ((table.map fun p => p.1).zip ((table.map fun p => p.2.rabi).zip
      ((table.map fun p => p.2.azimuthal).zip (table.map fun p => p.2.detuning)))).countP
      (fun p => decide (p.1 < t ∧ ∃ a : Axis, a ≠ c ∧ p.2 = (a.rabi, a.azimuthal, a.detuning))) =
      (axisFlips c table).countP fun s => s < t := by
    unfold axisFlips
    induction table with
    | nil => rfl
    | cons p table ih =>
      obtain ⟨s, b⟩ := p
      have hiff : (∃ a : Axis, a ≠ c ∧ (b.rabi, b.azimuthal, b.detuning) =
          (a.rabi, a.azimuthal, a.detuning)) ↔ b ≠ c := by
        constructor
        · rintro ⟨a, ha, e⟩
          simp only [Prod.mk.injEq] at e
          rw [hax b a e.1 e.2.1 e.2.2]
          exact ha
        · exact fun h => ⟨b, h, rfl⟩
      simp only [List.map_cons, List.zip_cons_cons, List.countP_cons, hiff]
      rw [ih]
      by_cases hb : b = c <;> simp [hb, List.countP_cons]
  unfold sensitivityAlong finished switching
  rw [← key]
  congr 1
  cases prePost with
  | false => rfl
  | true =>
    simp only [if_true, withPrePost, piSequence, List.zip_cons_cons, List.countP_cons]
    rw [List.zip_append (by simp), List.zip_append (by simp), List.zip_append (by simp),
      List.countP_append]
    simp [hne]

/-- **C82** for quadratic sequences, time-dependent noise: the sensitivity to noise along X and along Y is
orthogonal to `t^k` for all `k` below the number of inner pulses (for noise along Z it is the number of outer
pulses: C45). -/
theorem C82_quadratic_moments (T inner outer : ℝ) (prePost : Bool) (name : Option String)
    (s : Sequence ℝ) (hs : newQuadraticSequence T inner outer prePost name = .ok s) (k : ℕ)
    (hk : k < ⌊inner⌋₊) :
    ∫ t in 0..T, sensitivityAlong .x s t * t ^ k = 0 ∧
    ∫ t in 0..T, sensitivityAlong .y s t * t ^ k = 0 := by
  have hs' : Family.call (.quadratic inner outer) T prePost name = .ok s := hs
  obtain ⟨⟨hT, hv⟩, -⟩ := (C43_well_formed (.quadratic inner outer) T prePost name).ok hs'
  rw [Family.call_eq hv hT] at hs'
  injection hs' with hs'
  subst hs'
  simp only [sensitivityAlong_finished]
  have ho := uhrig_ordered hT ⌊outer⌋₊
  have h : ∀ c : Axis, c ≠ .z → ∫ t in 0..T, switching
      (axisFlips c ((Family.quadratic inner outer).table T)) t * t ^ k = 0 := by
    intro c hc
    rw [← axisSum_integral hv hT c (hasDerivAt_power k) (continuous_pow k)]
    exact quadratic_axisSum hc hk (uhrigTimes T ⌊outer⌋₊) 0 hT ho.1 ho.2
  exact ⟨h .x (by simp), h .y (by simp)⟩

/-- the hypotheses are met: a quadratic sequence with two inner and three outer pulses decouples, an
XY-concatenated one of order three does not -/
example : (∃ s, newQuadraticSequence (1 : ℝ) 2 3 false none = .ok s ∧ DecouplesStaticNoise s) ∧
    ∃ s, newXYConcatenatedSequence (1 : ℝ) 3 false none = .ok s ∧ ¬ DecouplesStaticNoise s := by
  obtain ⟨s, hs, -⟩ := (C43_well_formed (.quadratic 2 3) 1 false none).1
    ⟨by norm_num, show (1 : ℝ) ≤ 2 ∧ (1 : ℝ) ≤ 3 by norm_num⟩
  obtain ⟨s', hs', -⟩ := (C43_well_formed (.xyConcatenated 3) 1 false none).1
    ⟨by norm_num, show (1 : ℝ) ≤ 3 by norm_num⟩
  refine ⟨⟨s, hs, (C82_universal_iff (.quadratic 2 3) 1 false none s hs).mpr trivial⟩, s', hs', ?_⟩
  rw [C82_universal_iff (.xyConcatenated 3) 1 false none s' hs']
  simp [Family.Universal]

end OpenControls
