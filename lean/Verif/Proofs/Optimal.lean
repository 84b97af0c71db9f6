import Mathlib.Algebra.Polynomial.BigOperators
import Mathlib.Topology.Algebra.Polynomial
import Mathlib.MeasureTheory.Integral.IntervalIntegral.Basic
import Verif.Spec.Optimal
import Verif.Proofs.Moments

/-!
# How many orders of dephasing can be cancelled by a number of pulses

The switching function of the times `τ` has the sign of the polynomial `∏ (τ - t)`.
-/

namespace OpenControls

open Spec MeasureTheory

/-! ### The polynomial -/

/-- the polynomial `∏ (τ - t)` -/
noncomputable def zeroAt (times : List ℝ) : Polynomial ℝ :=
  (times.map fun a => Polynomial.C a - Polynomial.X).prod

theorem zeroAt_cons (a : ℝ) (r : List ℝ) (t : ℝ) :
    (zeroAt (a :: r)).eval t = (a - t) * (zeroAt r).eval t := by
  simp [zeroAt]

theorem zeroAt_degree (times : List ℝ) : (zeroAt times).natDegree ≤ times.length := by
  induction times with
  | nil => simp [zeroAt]
  | cons a r ih =>
    have e : zeroAt (a :: r) = (Polynomial.C a - Polynomial.X) * zeroAt r := by simp [zeroAt]
    rw [e]
    refine Polynomial.natDegree_mul_le.trans ?_
    have : (Polynomial.C a - Polynomial.X : Polynomial ℝ).natDegree ≤ 1 := by
      refine (Polynomial.natDegree_sub_le _ _).trans ?_
      simp
    simp only [List.length_cons]
    omega

/-- the sign of the polynomial is that of the switching function -/
theorem switching_zeroAt (times : List ℝ) (t : ℝ) :
    switching times t * (zeroAt times).eval t = |(zeroAt times).eval t| := by
  induction times with
  | nil => simp [zeroAt, switching]
  | cons a r ih =>
    rw [zeroAt_cons, abs_mul, ← ih]
    by_cases h : a < t
    · rw [switching_cons h, abs_of_neg (sub_neg.mpr h)]; ring
    · have e : switching (a :: r) t = switching r t := by
        unfold switching
        rw [List.countP_cons, if_neg (by simpa using h), add_zero]
      rw [e, abs_of_nonneg (by linarith [not_lt.mp h])]; ring

theorem zeroAt_eq_zero {times : List ℝ} {t : ℝ} : (zeroAt times).eval t = 0 ↔ t ∈ times := by
  induction times with
  | nil => simp [zeroAt]
  | cons a r ih =>
    rw [zeroAt_cons, mul_eq_zero, ih, List.mem_cons, sub_eq_zero, eq_comm (a := a)]

/-! ### Integrals -/

theorem switching_measurable (times : List ℝ) : Measurable (switching times) := by
  induction times with
  | nil =>
    have : switching [] = fun _ => 1 := by funext t; simp [switching]
    rw [this]; exact measurable_const
  | cons a r ih =>
    have e : switching (a :: r) = fun t => if t ∈ Set.Ioi a then -switching r t else switching r t := by
      funext t
      by_cases h : a < t
      · rw [if_pos (Set.mem_Ioi.mpr h), switching_cons h]
      · rw [if_neg (by simpa using h)]
        unfold switching
        rw [List.countP_cons, if_neg (by simpa using h), add_zero]
    rw [e]
    exact Measurable.ite measurableSet_Ioi ih.neg ih

theorem switching_abs (times : List ℝ) (t : ℝ) : |switching times t| = 1 := by
  unfold switching; simp

theorem switching_cases (times : List ℝ) (t : ℝ) : switching times t = 1 ∨ switching times t = -1 := by
  unfold switching
  exact neg_one_pow_eq_or ℝ _

theorem switching_integrable (times : List ℝ) {f : ℝ → ℝ} (hf : Continuous f) (T : ℝ) :
    IntervalIntegrable (fun t => switching times t * f t) volume 0 T := by
  have h := (hf.intervalIntegrable (μ := volume) 0 T)
  refine h.mono_fun ((switching_measurable times).mul hf.measurable).aestronglyMeasurable ?_
  refine Filter.Eventually.of_forall fun t => ?_
  simp only [norm_mul, Real.norm_eq_abs, switching_abs, one_mul, le_refl]

theorem switching_polynomial (times : List ℝ) {T : ℝ} {n : ℕ}
    (h : ∀ k < n, ∫ t in 0..T, switching times t * t ^ k = 0) (p : Polynomial ℝ) (hp : p.natDegree < n) :
    ∫ t in 0..T, switching times t * p.eval t = 0 := by
  have e : ∀ t, switching times t * p.eval t =
      ∑ k ∈ Finset.range n, p.coeff k * (switching times t * t ^ k) := by
    intro t
    rw [Polynomial.eval_eq_sum_range' hp, Finset.mul_sum]
    exact Finset.sum_congr rfl fun k _ => by ring
  simp only [e]
  rw [intervalIntegral.integral_finsetSum]
  · refine Finset.sum_eq_zero fun k hk => ?_
    rw [intervalIntegral.integral_const_mul, h k (Finset.mem_range.mp hk), mul_zero]
  · intro k _
    exact (switching_integrable times (continuous_pow k) T).const_mul _

/-- **The bound**: `n` flips cannot cancel the `n + 1` orders `0, …, n`. -/
theorem switching_bound (times : List ℝ) {T : ℝ} (hT : 0 < T) :
    ¬ ∀ k < times.length + 1, ∫ t in 0..T, switching times t * t ^ k = 0 := by
  intro h
  have h0 := switching_polynomial times h (zeroAt times)
    (lt_of_le_of_lt (zeroAt_degree times) (Nat.lt_succ_self _))
  simp only [switching_zeroAt] at h0
  have hc : Continuous fun t => |(zeroAt times).eval t| := (zeroAt times).continuous.abs
  obtain ⟨c, hc0, hcT⟩ : ∃ c ∈ Set.Ioo 0 T, c ∉ times := by
    have : (Set.Ioo 0 T \ {x | x ∈ times}).Nonempty := by
      refine ((Set.Ioo_infinite hT).sdiff ?_).nonempty
      exact times.finite_toSet
    obtain ⟨c, h1, h2⟩ := this
    exact ⟨c, h1, h2⟩
  have hpos : 0 < ∫ t in 0..T, |(zeroAt times).eval t| := by
    refine intervalIntegral.integral_pos hT hc.continuousOn (fun t _ => abs_nonneg _)
      ⟨c, ⟨hc0.1.le, hc0.2.le⟩, ?_⟩
    exact abs_pos.mpr fun e => hcT (zeroAt_eq_zero.mp e)
  linarith

/-! ### Uniqueness -/

theorem switching_skip {a : ℝ} {r : List ℝ} {t : ℝ} (h : t ≤ a) :
    switching (a :: r) t = switching r t := by
  unfold switching
  rw [List.countP_cons, if_neg (by simpa using h), add_zero]

theorem switching_perm {a b : List ℝ} (h : a.Perm b) : switching a = switching b := by
  funext t; unfold switching; rw [h.countP_eq]

theorem difference_polynomial (τ σ : List ℝ) {T : ℝ} {n : ℕ}
    (h : ∀ k < n, ∫ t in 0..T, (switching τ t - switching σ t) * t ^ k = 0) (p : Polynomial ℝ)
    (hp : p.natDegree < n) :
    ∫ t in 0..T, (switching τ t - switching σ t) * p.eval t = 0 := by
  have e : ∀ t, (switching τ t - switching σ t) * p.eval t =
      ∑ k ∈ Finset.range n, p.coeff k * ((switching τ t - switching σ t) * t ^ k) := by
    intro t
    rw [Polynomial.eval_eq_sum_range' hp, Finset.mul_sum]
    exact Finset.sum_congr rfl fun k _ => by ring
  simp only [e]
  rw [intervalIntegral.integral_finsetSum]
  · refine Finset.sum_eq_zero fun k hk => ?_
    rw [intervalIntegral.integral_const_mul, h k (Finset.mem_range.mp hk), mul_zero]
  · intro k _
    have := (switching_integrable τ (continuous_pow k) T).sub (switching_integrable σ (continuous_pow k) T)
    simpa only [sub_mul] using this.const_mul (p.coeff k)

/-- the earlier first flip decides -/
theorem first_flip {T a b : ℝ} {τ σ : List ℝ} {n : ℕ} (hab : a < b) (ha : 0 < a) (hbT : b < T)
    (hτ : (a :: τ).Pairwise (· < ·)) (hσ : (b :: σ).Pairwise (· < ·)) (hl : τ.length < n)
    (h : ∀ k < n, ∫ t in 0..T, (switching (b :: σ) t - switching (a :: τ) t) * t ^ k = 0) : False := by
  have hT : 0 < T := by linarith
  have hdeg : (zeroAt τ).natDegree < n := lt_of_le_of_lt (zeroAt_degree τ) hl
  have i1 := switching_integrable (a :: τ) (zeroAt τ).continuous T
  have i2 := switching_integrable (b :: σ) (zeroAt τ).continuous T
  have e : ∫ t in 0..T, (switching (b :: σ) t * (zeroAt τ).eval t -
      switching (a :: τ) t * (zeroAt τ).eval t) = 0 := by
    have := difference_polynomial _ _ h (zeroAt τ) hdeg
    simpa only [sub_mul] using this
  have hlow : ∀ t ≤ a, switching (b :: σ) t * (zeroAt τ).eval t -
      switching (a :: τ) t * (zeroAt τ).eval t = 0 := by
    intro t ht
    rw [switching_eq_one (times := b :: σ), switching_eq_one (times := a :: τ), sub_self]
    · intro s hs
      rcases List.mem_cons.mp hs with rfl | hs
      · exact ht
      · exact ht.trans (List.rel_of_pairwise_cons hτ hs).le
    · intro s hs
      rcases List.mem_cons.mp hs with rfl | hs
      · exact ht.trans hab.le
      · exact (ht.trans hab.le).trans (List.rel_of_pairwise_cons hσ hs).le
  have hhigh : ∀ t, a < t → switching (b :: σ) t * (zeroAt τ).eval t -
      switching (a :: τ) t * (zeroAt τ).eval t =
      (1 + switching (b :: σ) t * switching τ t) * |(zeroAt τ).eval t| := by
    intro t ht
    rw [switching_cons ht, ← switching_zeroAt]
    rcases switching_cases τ t with h | h <;> rw [h] <;> ring
  have hnn : ∀ t, 0 ≤ switching (b :: σ) t * (zeroAt τ).eval t -
      switching (a :: τ) t * (zeroAt τ).eval t := by
    intro t
    rcases le_or_gt t a with ht | ht
    · rw [hlow t ht]
    · rw [hhigh t ht]
      refine mul_nonneg ?_ (abs_nonneg _)
      rcases switching_cases τ t with h | h <;> rcases switching_cases (b :: σ) t with h' | h' <;>
        rw [h, h'] <;> norm_num
  obtain ⟨c, hac, hcb, hcτ⟩ : ∃ c, a < c ∧ c ≤ b ∧ ∀ s ∈ τ, c ≤ s := by
    cases τ with
    | nil => exact ⟨b, hab, le_rfl, by simp⟩
    | cons x r =>
      refine ⟨min b x, lt_min hab (List.rel_of_pairwise_cons hτ (by simp)), min_le_left _ _, ?_⟩
      intro s hs
      rcases List.mem_cons.mp hs with rfl | hs
      · exact min_le_right _ _
      · exact (min_le_right _ _).trans
          (List.rel_of_pairwise_cons (List.pairwise_cons.mp hτ).2 hs).le
  have hpart : ∫ t in a..c, (switching (b :: σ) t * (zeroAt τ).eval t -
      switching (a :: τ) t * (zeroAt τ).eval t) = ∫ t in a..c, 2 * |(zeroAt τ).eval t| := by
    refine intervalIntegral.integral_congr_ae (Filter.Eventually.of_forall fun t ht => ?_)
    rw [Set.uIoc_of_le hac.le] at ht
    rw [hhigh t ht.1, switching_eq_one (times := b :: σ), switching_eq_one (times := τ)]
    · norm_num
    · intro s hs; exact ht.2.trans (hcτ s hs)
    · intro s hs
      rcases List.mem_cons.mp hs with rfl | hs
      · exact ht.2.trans hcb
      · exact (ht.2.trans hcb).trans (List.rel_of_pairwise_cons hσ hs).le
  have hpos : 0 < ∫ t in a..c, 2 * |(zeroAt τ).eval t| := by
    have hc : Continuous fun t => 2 * |(zeroAt τ).eval t| := (zeroAt τ).continuous.abs.const_mul 2
    refine intervalIntegral.integral_pos hac hc.continuousOn
      (fun t _ => mul_nonneg zero_le_two (abs_nonneg _)) ⟨(a + c) / 2, ⟨by linarith, by linarith⟩, ?_⟩
    refine mul_pos two_pos (abs_pos.mpr fun e => ?_)
    have := hcτ _ (zeroAt_eq_zero.mp e)
    linarith
  have hmono : ∫ t in a..c, (switching (b :: σ) t * (zeroAt τ).eval t -
      switching (a :: τ) t * (zeroAt τ).eval t) ≤ ∫ t in 0..T, (switching (b :: σ) t * (zeroAt τ).eval t -
      switching (a :: τ) t * (zeroAt τ).eval t) := by
    refine intervalIntegral.integral_mono_interval ha.le hac.le (by linarith) ?_ (i2.sub i1)
    exact Filter.Eventually.of_forall hnn
  linarith

/-- Ordered flips inside `(0, T)` are determined by as many moments. -/
theorem flips_unique {T : ℝ} : ∀ (τ σ : List ℝ) (n : ℕ), τ.length = σ.length → τ.length ≤ n →
    τ.Pairwise (· < ·) → σ.Pairwise (· < ·) → (∀ t ∈ τ, 0 < t ∧ t < T) → (∀ t ∈ σ, 0 < t ∧ t < T) →
    (∀ k < n, ∫ t in 0..T, (switching τ t - switching σ t) * t ^ k = 0) → τ = σ := by
  intro τ
  induction τ with
  | nil =>
    intro σ n hl _ _ _ _ _ _
    exact (List.length_eq_zero_iff.mp hl.symm).symm
  | cons a τ ih =>
    intro σ n hl hn hτ hσ hτT hσT h
    cases σ with
    | nil => simp at hl
    | cons b σ =>
      have hl' : τ.length = σ.length := by simpa using hl
      have hn' : τ.length < n := by simpa using hn
      have hsymm : ∀ k < n, ∫ t in 0..T, (switching (b :: σ) t - switching (a :: τ) t) * t ^ k = 0 := by
        intro k hk
        have := h k hk
        have e : ∀ t, (switching (b :: σ) t - switching (a :: τ) t) * t ^ k =
            -((switching (a :: τ) t - switching (b :: σ) t) * t ^ k) := fun t => by ring
        simp only [e]
        rw [intervalIntegral.integral_neg, this, neg_zero]
      rcases lt_trichotomy a b with hab | rfl | hab
      · exact (first_flip hab (hτT a (by simp)).1 (hσT b (by simp)).2 hτ hσ hn' hsymm).elim
      · rw [ih σ n hl' hn'.le (List.pairwise_cons.mp hτ).2 (List.pairwise_cons.mp hσ).2
          (fun t ht => hτT t (by simp [ht])) (fun t ht => hσT t (by simp [ht])) ?_]
        intro k hk
        have e : ∀ t, (switching τ t - switching σ t) * t ^ k =
            -((switching (a :: τ) t - switching (a :: σ) t) * t ^ k) := by
          intro t
          rcases lt_or_ge a t with ht | ht
          · rw [switching_cons ht, switching_cons ht]; ring
          · have h1 : switching τ t = 1 :=
              switching_eq_one fun s hs => ht.trans (List.rel_of_pairwise_cons hτ hs).le
            have h2 : switching σ t = 1 :=
              switching_eq_one fun s hs => ht.trans (List.rel_of_pairwise_cons hσ hs).le
            rw [switching_skip ht, switching_skip ht, h1, h2]; ring
        simp only [e]
        rw [intervalIntegral.integral_neg, h k hk, neg_zero]
      · exact (first_flip hab (hσT b (by simp)).1 (hτT a (by simp)).2 hσ hτ (hl' ▸ hn') h).elim

/-! ### Flips in any order -/

/-- A list of flips that are not distinct and inside `(0, T)` acts as a shorter list. -/
theorem switching_shorter {T : ℝ} (times : List ℝ) (h : ¬ (times.Nodup ∧ ∀ t ∈ times, 0 < t ∧ t < T)) :
    ∃ shorter : List ℝ, shorter.length < times.length ∧
      ((∀ t, 0 < t → t ≤ T → switching times t = switching shorter t) ∨
        ∀ t, 0 < t → t ≤ T → switching times t = -switching shorter t) := by
  by_cases hd : times.Nodup
  · have : ∃ a ∈ times, ¬ (0 < a ∧ a < T) := by
      by_contra hc
      push Not at hc
      exact h ⟨hd, hc⟩
    obtain ⟨a, ha, hna⟩ := this
    have hp := List.perm_cons_erase ha
    refine ⟨times.erase a, by rw [hp.length_eq]; simp, ?_⟩
    rw [switching_perm hp]
    rcases lt_or_ge 0 a with h0 | h0
    · left
      intro t _ ht
      have : T ≤ a := by by_contra hc; exact hna ⟨h0, not_le.mp hc⟩
      exact switching_skip (ht.trans this)
    · right
      intro t ht _
      exact switching_cons (lt_of_le_of_lt h0 ht)
  · obtain ⟨a, ha⟩ : ∃ a, List.Duplicate a times := by
      by_contra hc
      push Not at hc
      exact hd (List.nodup_iff_forall_not_duplicate.mpr hc)
    have hm : a ∈ times := ha.mem
    have hp := List.perm_cons_erase hm
    have hm2 : a ∈ times.erase a := by
      have := List.duplicate_iff_two_le_count.mp ha
      rw [← List.one_le_count_iff, List.count_erase_self]
      omega
    have hp2 := List.perm_cons_erase hm2
    have hp3 : times.Perm (a :: a :: (times.erase a).erase a) := hp.trans (hp2.cons a)
    refine ⟨(times.erase a).erase a, by rw [hp3.length_eq]; simp, Or.inl fun t _ _ => ?_⟩
    rw [switching_perm hp3]
    rcases lt_or_ge a t with ht | ht
    · rw [switching_cons ht, switching_cons ht, neg_neg]
    · rw [switching_skip ht, switching_skip ht]

theorem flips_inside {T : ℝ} (hT : 0 < T) (times : List ℝ)
    (h : ∀ k < times.length, ∫ t in 0..T, switching times t * t ^ k = 0) :
    times.Nodup ∧ ∀ t ∈ times, 0 < t ∧ t < T := by
  by_contra hc
  obtain ⟨shorter, hl, hs⟩ := switching_shorter times hc
  refine switching_bound shorter hT fun k hk => ?_
  have hk' := h k (by omega)
  rcases hs with hs | hs
  · refine Eq.trans ?_ hk'
    refine intervalIntegral.integral_congr_ae (Filter.Eventually.of_forall fun t ht => ?_)
    rw [Set.uIoc_of_le hT.le] at ht
    simp only [hs t ht.1 ht.2]
  · rw [← neg_eq_zero]
    refine Eq.trans ?_ hk'
    rw [← intervalIntegral.integral_neg]
    refine intervalIntegral.integral_congr_ae (Filter.Eventually.of_forall fun t ht => ?_)
    rw [Set.uIoc_of_le hT.le] at ht
    simp only [hs t ht.1 ht.2]; ring

/-- `n` flips that cancel the orders below `n` are those of Uhrig. -/
theorem flips_uhrig {T : ℝ} (hT : 0 < T) (times : List ℝ)
    (h : ∀ k < times.length, ∫ t in 0..T, switching times t * t ^ k = 0) :
    times.Perm (uhrigTimes T times.length) := by
  obtain ⟨hd, hin⟩ := flips_inside hT times h
  set sorted := times.mergeSort (fun a b => decide (a ≤ b)) with hsorted
  have hp : sorted.Perm times := List.mergeSort_perm _ _
  have hle : sorted.Pairwise (fun a b => a ≤ b) := by
    have := List.pairwise_mergeSort (le := fun a b : ℝ => decide (a ≤ b))
      (fun a b c h1 h2 => by simp only [decide_eq_true_eq] at *; exact h1.trans h2)
      (fun a b => by simp only [Bool.or_eq_true, decide_eq_true_eq]; exact le_total a b) times
    exact this.imp fun h => by simpa using h
  have hlt : sorted.Pairwise (fun a b => a < b) := by
    have hn : sorted.Nodup := hp.nodup_iff.mpr hd
    exact (hle.and hn).imp fun h => lt_of_le_of_ne h.1 h.2
  have ho := uhrig_ordered hT times.length
  have hlen : sorted.length = (uhrigTimes T times.length).length := by
    rw [hp.length_eq]; simp [uhrigTimes]
  have e : sorted = uhrigTimes T times.length := by
    refine flips_unique (T := T) sorted _ times.length hlen hp.length_eq.le hlt ho.1
      (fun t ht => hin t (hp.mem_iff.mp ht)) (fun t ht => ho.2 t ht) ?_
    intro k hk
    simp only [sub_mul]
    rw [intervalIntegral.integral_sub (switching_integrable _ (continuous_pow k) T)
      (switching_integrable _ (continuous_pow k) T), uhrig_moment hT hk, switching_perm hp, h k hk, sub_zero]
  rw [← e]
  exact hp.symm

/-! ### Sequences -/

theorem sensitivity_switching (s : Sequence ℝ) (t : ℝ) :
    sensitivity s t = switching (piPulseTimes s) t := by
  unfold sensitivity switching piPulseTimes
  rw [List.countP_map, List.countP_filter]
  congr 1
  refine List.countP_congr fun p _ => ?_
  simp [and_comm]

theorem piPulseTimes_finished (T : ℝ) (table : List (ℝ × Axis)) (prePost : Bool) (name : Option String) :
    piPulseTimes (finished T table prePost name) = flipTimes table := by
  have hne : Real.pi / 2 ≠ Real.pi := by
    have := Real.pi_pos
    intro h; linarith
  have h0 : (0 : ℝ) ≠ Real.pi := Real.pi_pos.ne
  have key : (((table.map fun p => p.1).zip (table.map fun p => p.2.rabi)).filter
      fun p => p.2 = Real.pi).map (fun p => p.1) = flipTimes table := by
    unfold flipTimes
    induction table with
    | nil => rfl
    | cons p table ih =>
      obtain ⟨s, a⟩ := p
      simp only [List.map_cons, List.zip_cons_cons, List.filter_cons]
      cases a <;> simpa [Axis.rabi, h0] using ih
  unfold piPulseTimes finished
  cases prePost with
  | false => exact key
  | true =>
    rw [← key]
    simp only [if_true, withPrePost, piSequence, List.zip_cons_cons, List.filter_cons]
    rw [List.zip_append (by simp), List.filter_append]
    simp [hne]

end OpenControls
