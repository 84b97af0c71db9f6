import Verif.Proofs.Noise

/-!
# The predefined sequences on a noisy qubit
-/

namespace OpenControls

open Spec RealInst

theorem Spec.Family.table_sorted {family : Family} (hv : family.Valid) {T : ℝ} (hT : 0 < T) :
    (family.table T).Pairwise fun p q => p.1 ≤ q.1 := by
  by_cases hxy : family.IsXY
  · cases family with
    | xyConcatenated l =>
      obtain ⟨n, hn⟩ := Nat.exists_eq_succ_of_ne_zero (Nat.floor_pos.mpr hv).ne'
      simp only [Family.table, hn]
      exact xyTable_sorted hT n
    | _ => exact absurd hxy id
  · have := (Family.table_ordered hv hxy hT).1
    rw [List.pairwise_map] at this
    exact this.imp le_of_lt

theorem axisFlips_sorted {table : List (ℝ × Axis)} (h : table.Pairwise fun p q => p.1 ≤ q.1)
    (c : Axis) : (axisFlips c table).Pairwise (· ≤ ·) := by
  unfold axisFlips
  rw [List.pairwise_map]
  exact h.filter _

/-- The signed sum is the integral of the sensitivity. -/
theorem axisSum_integral {family : Family} (hv : family.Valid) {T : ℝ} (hT : 0 < T) (c : Axis)
    {f F : ℝ → ℝ} (hF : ∀ x, HasDerivAt F (f x) x) (hf : Continuous f) :
    axisSum F c T 0 (family.table T) =
      ∫ t in 0..T, switching (axisFlips c (family.table T)) t * f t := by
  rw [axisSum_eq]
  refine (integral_switching hF hf T _ 0 hT.le (axisFlips_sorted (Family.table_sorted hv hT) c) ?_).2.symm
  intro t ht
  unfold axisFlips at ht
  obtain ⟨p, hp, rfl⟩ := List.mem_map.mp ht
  have := Family.table_bounds hv hT p (List.mem_of_mem_filter hp)
  exact ⟨this.1.le, this.2⟩

theorem primitive_deriv {β : ℝ → ℝ} (hβ : Continuous β) (x : ℝ) :
    HasDerivAt (fun b => ∫ t in 0..b, β t) (β x) x :=
  intervalIntegral.integral_hasDerivAt_right (hβ.intervalIntegrable _ _)
    hβ.stronglyMeasurable.stronglyMeasurableAtFilter hβ.continuousAt

/-- The evolution under dephasing noise, without pre and post rotations. -/
theorem family_dephasing {family : Family} (hv : family.Valid) {T : ℝ} (hT : 0 < T) {β : ℝ → ℝ}
    (hβ : Continuous β) : tableNoise (dephasing β) T 0 (family.table T) =
      tableProduct (family.table T) *
        zrot (∫ t in 0..T, switching (flipTimes (family.table T)) t * β t) := by
  rw [tableNoise_dephasing (F := fun b => ∫ t in 0..b, β t), axisSum_integral hv hT .z
    (primitive_deriv hβ) hβ, axisFlips_z]
  intro a b
  have := intervalIntegral.integral_add_adjacent_intervals (hβ.intervalIntegrable (μ := MeasureTheory.volume) 0 a)
    (hβ.intervalIntegrable a b)
  linarith

theorem dephasing_refl (β : ℝ → ℝ) (a : ℝ) : dephasing β a a = 1 := by
  rw [dephasing_eq]; simp [← su2_one]

/-- `|0⟩` is returned to with the probability given by the phase. -/
theorem returnProbability_eq {A P : M2} {χ : ℝ}
    (h : EqUpToPhase (A * pulseUnitary (Real.pi / 2) 0 0) 1 ∨
      EqUpToPhase (A * pulseUnitary (Real.pi / 2) 0 0) σz)
    (hP : P = A * zrot χ * pulseUnitary (Real.pi / 2) 0 0) :
    returnProbability P = Real.cos (χ / 2) ^ 2 := by
  have hpre : pulseUnitary (Real.pi / 2) 0 0 = su2 (Real.cos (Real.pi / 4)) (Real.sin (Real.pi / 4)) 0 0 := by
    rw [pulseUnitary_eq_segmentUnitary, segmentUnitary_resonant, mul_one, rotation_eq]
    simp only [Real.cos_zero, Real.sin_zero, mul_zero, mul_one]
    congr 2 <;> ring
  have hcomm : zrot χ * pulseUnitary (Real.pi / 2) 0 0 = pulseUnitary (Real.pi / 2) 0 0 *
      su2 (Real.cos (χ / 2)) 0 (Real.sin (χ / 2)) 0 := by
    rw [hpre]
    unfold zrot
    rw [su2_mul, su2_mul, su2_inj, Real.cos_pi_div_four, Real.sin_pi_div_four]
    have := Real.sq_sqrt (show (0 : ℝ) ≤ 2 by norm_num)
    refine ⟨by ring, by ring, by ring, by ring⟩
  rw [hP, mul_assoc, hcomm, ← mul_assoc]
  unfold returnProbability
  rcases h with ⟨z, hz, e⟩ | ⟨z, hz, e⟩
  · rw [e, smul_mul_assoc, one_mul, Matrix.smul_apply, smul_eq_mul, norm_mul, hz, one_mul]
    have : su2 (Real.cos (χ / 2)) 0 (Real.sin (χ / 2)) 0 0 0 = (Real.cos (χ / 2) : ℂ) := by
      generalize Real.cos (χ / 2) = c
      simp [su2, Complex.ext_iff]
    rw [this, Complex.norm_real, Real.norm_eq_abs, sq_abs]
  · rw [e, smul_mul_assoc, Matrix.smul_apply, smul_eq_mul, norm_mul, hz, one_mul]
    have : (σz * su2 (Real.cos (χ / 2)) 0 (Real.sin (χ / 2)) 0) 0 0 = (Real.cos (χ / 2) : ℂ) := by
      rw [Matrix.mul_apply, Fin.sum_univ_two]
      generalize Real.cos (χ / 2) = c
      simp [su2, σz, Complex.ext_iff]
    rw [this, Complex.norm_real, Real.norm_eq_abs, sq_abs]

/-! ## Quadratic sequences: noise along X and Y -/

theorem axisSum_append (F : ℝ → ℝ) (c : Axis) (T a b : ℝ) (ax : Axis) (l r : List (ℝ × Axis)) :
    ∃ s : ℝ, axisSum F c T a (l ++ (b, ax) :: r) = axisSum F c b a l + s * axisSum F c T b r := by
  induction l generalizing a with
  | nil => exact ⟨axisSign c ax, rfl⟩
  | cons p l ih =>
    obtain ⟨s, hs⟩ := ih p.1
    refine ⟨axisSign c p.2 * s, ?_⟩
    simp only [List.cons_append, axisSum, hs]
    ring

theorem axisFlips_onAxis {c a : Axis} (h : a ≠ c) (times : List ℝ) :
    axisFlips c (onAxis a times) = times := by
  simp [axisFlips, onAxis, List.filter_map, Function.comp_def, h]

theorem switching_shift (a t : ℝ) (times : List ℝ) :
    switching (times.map (a + ·)) (a + t) = switching times t := by
  unfold switching
  rw [List.countP_map]
  congr 1
  apply List.countP_congr
  intro s _
  simp

/-- A shifted Uhrig sequence cancels powers of time. -/
theorem uhrig_shifted {a b : ℝ} (h : a < b) {n k : ℕ} (hk : k < n) :
    altSum (fun t => t ^ (k + 1) / (k + 1)) b a ((uhrigTimes (b - a) n).map (a + ·)) = 0 := by
  have hT : 0 < b - a := sub_pos.mpr h
  have ho := uhrig_ordered hT n
  have hs : ((uhrigTimes (b - a) n).map (a + ·)).Pairwise (· ≤ ·) := by
    rw [List.pairwise_map]
    exact ho.1.imp fun h => by linarith
  have hb : ∀ t ∈ (uhrigTimes (b - a) n).map (a + ·), a ≤ t ∧ t ≤ b := by
    intro t ht
    obtain ⟨s, hs, rfl⟩ := List.mem_map.mp ht
    have := ho.2 s hs
    constructor <;> linarith
  rw [← (integral_switching (hasDerivAt_power k) (continuous_pow k) b _ a h.le hs hb).2]
  have e : ∫ t in a..b, switching ((uhrigTimes (b - a) n).map (a + ·)) t * t ^ k =
      ∫ t in 0..(b - a), switching (uhrigTimes (b - a) n) t * (a + t) ^ k := by
    have := intervalIntegral.integral_comp_add_left (a := 0) (b := b - a)
      (fun t => switching ((uhrigTimes (b - a) n).map (a + ·)) t * t ^ k) a
    rw [add_zero, add_sub_cancel] at this
    rw [← this]
    simp only [switching_shift]
  rw [e]
  have hsum : ∀ t : ℝ, switching (uhrigTimes (b - a) n) t * (a + t) ^ k =
      ∑ m ∈ Finset.range (k + 1), (a ^ m * (k.choose m : ℝ)) *
        (switching (uhrigTimes (b - a) n) t * t ^ (k - m)) := by
    intro t
    rw [add_pow, Finset.mul_sum]
    exact Finset.sum_congr rfl fun m _ => by ring
  simp only [hsum]
  rw [intervalIntegral.integral_finsetSum]
  · apply Finset.sum_eq_zero
    intro m _
    rw [intervalIntegral.integral_const_mul, uhrig_moment hT (by omega), mul_zero]
  · intro m _
    exact (integral_switching (hasDerivAt_power (k - m)) (continuous_pow (k - m)) (b - a) _ 0 hT.le
      (ho.1.imp le_of_lt) (fun t ht => ⟨(ho.2 t ht).1.le, (ho.2 t ht).2.le⟩)).1.const_mul _

theorem quadratic_axisSum {c : Axis} (hc : c ≠ .z) {n k : ℕ} (hk : k < n) {T : ℝ} (r : List ℝ) (a : ℝ)
    (ha : a < T) (hs : r.Pairwise (· < ·)) (hb : ∀ t ∈ r, a < t ∧ t < T) :
    axisSum (fun t => t ^ (k + 1) / (k + 1)) c T a (quadraticTable n T a r) = 0 := by
  induction r generalizing a with
  | nil =>
    rw [quadraticTable, axisSum_eq, axisFlips_onAxis (Ne.symm hc), uhrig_shifted ha hk]
  | cons b r ih =>
    rw [List.pairwise_cons] at hs
    rw [quadraticTable]
    obtain ⟨s, e⟩ := axisSum_append (fun t : ℝ => t ^ (k + 1) / (k + 1)) c T a b .x
      (onAxis .z ((uhrigTimes (b - a) n).map (a + ·))) (quadraticTable n T b r)
    rw [e, axisSum_eq, axisFlips_onAxis (Ne.symm hc), uhrig_shifted (hb b (by simp)).1 hk,
      ih b (hb b (by simp)).2 hs.2
        (fun t ht => ⟨hs.1 t ht, (hb t (List.mem_cons_of_mem _ ht)).2⟩)]
    ring

end OpenControls
