import Verif.Proofs.Moments
import Verif.Proofs.Coincidences

/-!
# Exact order of dephasing cancellation: moments of Walsh functions
-/

namespace OpenControls

open Spec RealInst intervalIntegral MeasureTheory

/-! ## Products of Rademacher functions -/

/-- product of the Rademacher functions selected by a list, the coarsest first -/
noncomputable def walshProduct : List Bool → ℝ → ℝ
  | [], _ => 1
  | b :: bs, x => (if b then rademacher 1 x else 1) * walshProduct bs (2 * x)

/-- moments of such products over `[0, 1]` -/
noncomputable def walshMoment : List Bool → ℕ → ℝ
  | [], n => 1 / (n + 1)
  | b :: bs, n => (1 / 2) ^ (n + 1) * (walshMoment bs n +
      (if b then -1 else 1) * ∑ i ∈ Finset.range (n + 1), n.choose i * walshMoment bs i)

theorem rademacher_double (j : ℕ) (x : ℝ) : rademacher (j + 1) x = rademacher j (2 * x) := by
  unfold rademacher
  congr 2
  ring

theorem walshProduct_range (f : ℕ → Bool) (n : ℕ) (x : ℝ) :
    walshProduct ((List.range n).map f) x =
      ∏ j ∈ Finset.range n, if f j then rademacher (j + 1) x else 1 := by
  induction n generalizing f x with
  | zero => simp [walshProduct]
  | succ n ih =>
    rw [List.range_succ_eq_map, List.map_cons, List.map_map, walshProduct, ih,
      Finset.prod_range_succ', mul_comm]
    congr 1
    apply Finset.prod_congr rfl
    intro j _
    simp only [Function.comp_apply, Nat.succ_eq_add_one]
    rw [rademacher_double (j + 1)]

theorem walshProduct_periodic (bs : List Bool) (x : ℝ) :
    walshProduct bs (x + 1) = walshProduct bs x := by
  induction bs generalizing x with
  | nil => rfl
  | cons b bs ih =>
    simp only [walshProduct]
    rw [show 2 * (x + 1) = (2 * x + 1) + 1 by ring, ih, ih]
    congr 2
    unfold rademacher
    rw [show 2 ^ 1 * Real.pi * (x + 1) = 2 ^ 1 * Real.pi * x + 2 * Real.pi by ring,
      Real.sin_add_two_pi]

theorem measurable_sign : Measurable Real.sign := by
  have : Real.sign = fun r : ℝ => if r < 0 then (-1 : ℝ) else if 0 < r then 1 else 0 := by
    funext r; rfl
  rw [this]
  exact Measurable.ite measurableSet_Iio measurable_const
    (Measurable.ite measurableSet_Ioi measurable_const measurable_const)

theorem measurable_rademacher (j : ℕ) : Measurable (rademacher j) := by
  unfold rademacher
  exact measurable_sign.comp (Real.continuous_sin.measurable.comp (measurable_const.mul measurable_id))

theorem measurable_walshProduct (bs : List Bool) : Measurable (walshProduct bs) := by
  induction bs with
  | nil => exact measurable_const
  | cons b bs ih =>
    have h2 : Measurable fun x : ℝ => walshProduct bs (2 * x) :=
      ih.comp (measurable_const.mul measurable_id)
    cases b with
    | false => simpa [walshProduct] using h2
    | true =>
      have := (measurable_rademacher 1).mul h2
      simp only [walshProduct, if_true]
      exact this

theorem abs_sign_le (r : ℝ) : |Real.sign r| ≤ 1 := by
  rcases Real.sign_apply_eq r with h | h | h <;> rw [h] <;> norm_num

theorem walshProduct_bound (bs : List Bool) (x : ℝ) : |walshProduct bs x| ≤ 1 := by
  induction bs generalizing x with
  | nil => simp [walshProduct]
  | cons b bs ih =>
    simp only [walshProduct]
    rw [abs_mul]
    apply mul_le_one₀ _ (abs_nonneg _) (ih _)
    cases b with
    | false => simp
    | true => exact abs_sign_le _

theorem walshProduct_integrable (bs : List Bool) {f : ℝ → ℝ} (hf : Continuous f) (a b : ℝ) :
    IntervalIntegrable (fun x => walshProduct bs x * f x) volume a b := by
  have := hf.intervalIntegrable a b (μ := volume)
  rw [intervalIntegrable_iff] at this ⊢
  apply this.bdd_mul (c := 1) (measurable_walshProduct bs).aestronglyMeasurable
  exact Filter.Eventually.of_forall fun x => by simpa using walshProduct_bound bs x

theorem rademacher_one_left {x : ℝ} (h0 : 0 < x) (h1 : x < 1 / 2) : rademacher 1 x = 1 := by
  unfold rademacher
  have hpi := Real.pi_pos
  rw [Real.sign_of_pos]
  apply Real.sin_pos_of_pos_of_lt_pi
  · positivity
  · nlinarith

theorem rademacher_one_right {x : ℝ} (h0 : 1 / 2 < x) (h1 : x < 1) : rademacher 1 x = -1 := by
  unfold rademacher
  have hpi := Real.pi_pos
  rw [Real.sign_of_neg]
  rw [← Real.sin_sub_two_pi]
  apply Real.sin_neg_of_neg_of_neg_pi_lt
  · nlinarith
  · nlinarith

theorem ae_ne (c : ℝ) : ∀ᵐ x : ℝ, x ≠ c := by
  rw [ae_iff]; simp

theorem integral_walshProduct (bs : List Bool) (n : ℕ) :
    ∫ x in (0:ℝ)..1, walshProduct bs x * x ^ n = walshMoment bs n := by
  induction bs generalizing n with
  | nil => simp [walshProduct, walshMoment]
  | cons b bs ih =>
    have hint : ∀ a c : ℝ, IntervalIntegrable (fun x => walshProduct (b :: bs) x * x ^ n) volume a c :=
      fun a c => walshProduct_integrable _ (continuous_pow n) a c
    rw [← integral_add_adjacent_intervals (hint 0 (1 / 2)) (hint (1 / 2) 1)]
    set g : ℝ → ℝ := fun u => walshProduct bs u * (u / 2) ^ n with hg
    have h1 : ∫ x in (0:ℝ)..(1 / 2), walshProduct (b :: bs) x * x ^ n =
        ∫ x in (0:ℝ)..(1 / 2), g (2 * x) := by
      apply intervalIntegral.integral_congr_ae
      filter_upwards [ae_ne (1 / 2)] with x hx hx'
      rw [Set.uIoc_of_le (by norm_num)] at hx'
      have hr := rademacher_one_left hx'.1 (lt_of_le_of_ne hx'.2 hx)
      simp only [walshProduct, hr, hg, ite_self, one_mul]
      rw [show 2 * x / 2 = x by ring]
    have h2 : ∫ x in (1 / 2 : ℝ)..1, walshProduct (b :: bs) x * x ^ n =
        (if b then -1 else 1) * ∫ x in (1 / 2 : ℝ)..1, g (2 * x) := by
      rw [← intervalIntegral.integral_const_mul]
      apply intervalIntegral.integral_congr_ae
      filter_upwards [ae_ne 1] with x hx hx'
      rw [Set.uIoc_of_le (by norm_num)] at hx'
      have hr := rademacher_one_right hx'.1 (lt_of_le_of_ne hx'.2 hx)
      simp only [walshProduct, hr, hg]
      rw [show 2 * x / 2 = x by ring, mul_assoc]
    rw [h1, h2, integral_comp_mul_left _ (by norm_num), integral_comp_mul_left _ (by norm_num)]
    have h3 : ∫ x in (2 * (1 / 2) : ℝ)..(2 * 1), g x = ∫ x in (0:ℝ)..1, g (x + 1) := by
      rw [integral_comp_add_right]; norm_num
    have h4 : ∫ x in (2 * 0 : ℝ)..(2 * (1 / 2)), g x = (1 / 2) ^ n * walshMoment bs n := by
      rw [← ih, ← intervalIntegral.integral_const_mul]
      rw [show (2 * 0 : ℝ) = 0 by norm_num, show (2 * (1 / 2) : ℝ) = 1 by norm_num]
      apply intervalIntegral.integral_congr
      intro x _
      simp only [hg, div_pow]
      ring
    have h5 : ∫ x in (0:ℝ)..1, g (x + 1) =
        (1 / 2) ^ n * ∑ i ∈ Finset.range (n + 1), n.choose i * walshMoment bs i := by
      have e : ∀ x : ℝ, g (x + 1) = ∑ i ∈ Finset.range (n + 1),
          (1 / 2) ^ n * (n.choose i) * (walshProduct bs x * x ^ i) := by
        intro x
        simp only [hg, walshProduct_periodic, div_pow]
        rw [add_pow, Finset.sum_div, Finset.mul_sum]
        apply Finset.sum_congr rfl
        intro i _
        rw [one_pow, mul_one]
        ring
      simp only [e]
      rw [intervalIntegral.integral_finsetSum fun i _ =>
        (walshProduct_integrable bs (continuous_pow i) 0 1).const_mul _, Finset.mul_sum]
      apply Finset.sum_congr rfl
      intro i _
      rw [intervalIntegral.integral_const_mul, ih]
      ring
    rw [h3, h4, h5, walshMoment]
    simp only [smul_eq_mul]
    ring

theorem walshMoment_zero (bs : List Bool) (n : ℕ) (h : n < bs.count true) : walshMoment bs n = 0 := by
  induction bs generalizing n with
  | nil => simp at h
  | cons b bs ih =>
    cases b with
    | false =>
      simp only [List.count_cons, beq_iff_eq, Bool.false_eq_true, if_false, add_zero] at h
      rw [walshMoment, ih n h, Finset.sum_eq_zero]
      · simp
      · intro i hi
        rw [ih i (by rw [Finset.mem_range] at hi; omega), mul_zero]
    | true =>
      simp only [List.count_cons, beq_self_eq_true, if_true] at h
      rw [walshMoment, Finset.sum_range_succ, Finset.sum_eq_zero]
      · simp
      · intro i hi
        rw [ih i (by rw [Finset.mem_range] at hi; omega), mul_zero]

/-- the first moment that does not vanish -/
noncomputable def firstMoment : List Bool → ℝ
  | [] => 1
  | b :: bs => (if b then -((bs.count true + 1 : ℕ) : ℝ) / 2 else 1) * (1 / 2) ^ ((b :: bs).count true) *
      firstMoment bs

theorem walshMoment_first (bs : List Bool) : walshMoment bs (bs.count true) = firstMoment bs := by
  induction bs with
  | nil => simp [walshMoment, firstMoment]
  | cons b bs ih =>
    cases b with
    | false =>
      have hc : (false :: bs).count true = bs.count true := by simp
      rw [firstMoment, walshMoment, hc, Finset.sum_range_succ, Finset.sum_eq_zero, ih]
      · simp [pow_succ]; ring
      · intro i hi
        rw [walshMoment_zero bs i (by rw [Finset.mem_range] at hi; omega), mul_zero]
    | true =>
      have hc : (true :: bs).count true = bs.count true + 1 := by simp
      rw [firstMoment, walshMoment, hc, Finset.sum_range_succ, Finset.sum_range_succ,
        Finset.sum_eq_zero, ih]
      · simp [pow_succ]; ring
      · intro i hi
        rw [walshMoment_zero bs i (by rw [Finset.mem_range] at hi; omega), mul_zero]

theorem firstMoment_ne (bs : List Bool) : firstMoment bs ≠ 0 := by
  induction bs with
  | nil => simp [firstMoment]
  | cons b bs ih =>
    rw [firstMoment]
    refine mul_ne_zero (mul_ne_zero ?_ (by positivity)) ih
    split
    · have : (0 : ℝ) < ((bs.count true + 1 : ℕ) : ℝ) := by positivity
      intro h
      have h' : ((bs.count true + 1 : ℕ) : ℝ) = 0 := by linarith
      exact this.ne' h'
    · norm_num

/-! ## Walsh and X-concatenated sequences -/

/-- binary digits of a Paley order, the lowest first -/
def orderBits (k : ℕ) : List Bool := (List.range (Nat.log2 k + 1)).map k.testBit

theorem orderBits_count {k : ℕ} (hk : k ≠ 0) : (orderBits k).count true = (Nat.digits 2 k).sum := by
  have hlen : (Nat.digits 2 k).length = Nat.log2 k + 1 := by
    rw [Nat.length_digits 2 k (by norm_num) hk, Nat.log2_eq_log_two]
  have hd : Nat.digits 2 k = (orderBits k).map Bool.toNat := by
    apply List.ext_getElem
    · simp [orderBits, hlen]
    · intro i h1 h2
      have := Nat.getD_digits k i (b := 2) (by norm_num)
      rw [List.getD_eq_getElem?_getD, List.getElem?_eq_getElem h1, Option.getD_some] at this
      rw [this]
      simp [orderBits, Nat.toNat_testBit]
  rw [hd]
  generalize orderBits k = l
  induction l with
  | nil => rfl
  | cons b l ih => cases b <;> simp [ih, add_comm]

theorem orderBits_ones (l : ℕ) : (orderBits (2 ^ (l + 1) - 1)).count true = l + 1 := by
  unfold orderBits
  rw [log2_ones]
  have : (List.range (l + 1)).map (2 ^ (l + 1) - 1).testBit = List.replicate (l + 1) true := by
    rw [List.eq_replicate_iff]
    refine ⟨by simp, fun b hb => ?_⟩
    obtain ⟨i, hi, rfl⟩ := List.mem_map.mp hb
    rw [Nat.testBit_two_pow_sub_one]
    simpa using hi
  rw [this]
  simp

theorem walsh_moment {T : ℝ} (hT : 0 < T) {k : ℕ} (hk : k ≠ 0) (n : ℕ) :
    ∫ t in 0..T, switching (walshTimes T k) t * t ^ n =
      T ^ (n + 1) * walshMoment (orderBits k) n := by
  have hW : ∀ x, paley k x = walshProduct (orderBits k) x := by
    intro x; unfold paley orderBits; rw [walshProduct_range]
  set g : ℝ → ℝ := fun u => T ^ n * (walshProduct (orderBits k) u * u ^ n) with hg
  have h1 : ∫ t in 0..T, switching (walshTimes T k) t * t ^ n = ∫ t in 0..T, g (t / T) := by
    apply intervalIntegral.integral_congr_ae
    have hcount : Set.Countable (Set.range fun c : ℕ => T * ((c : ℝ) / 2 ^ (Nat.log2 k + 1))) :=
      Set.countable_range _
    filter_upwards [ae_ne T, hcount.ae_notMem volume] with t ht hedge ht'
    rw [Set.uIoc_of_le hT.le] at ht'
    have hne : paley k (t / T) ≠ 0 := by
      rw [Ne, paley_eq_zero_iff hk (div_pos ht'.1 hT)]
      rintro ⟨c, hc⟩
      apply hedge
      refine ⟨c, ?_⟩
      simp only
      rw [← hc]; field_simp
    rw [walsh_switching hT hk ht'.1 (lt_of_le_of_ne ht'.2 ht) hne, hW]
    simp only [hg, div_pow]
    field_simp
  rw [h1, integral_comp_div _ hT.ne']
  rw [zero_div, div_self hT.ne', intervalIntegral.integral_const_mul, integral_walshProduct]
  simp only [smul_eq_mul]
  ring

/-! ## Sequences on a grid -/

theorem integral_grid_mul {h : ℝ} (hh : 0 < h) {times : List ℝ}
    (hg : ∀ t ∈ times, ∃ k : ℕ, t = k * h) {f F : ℝ → ℝ} (hF : ∀ x, HasDerivAt F (f x) x)
    (hf : Continuous f) (N : ℕ) :
    ∫ t in 0..(N * h), switching times t * f t =
      ∑ j ∈ Finset.range N, gridSign h times j * (F ((j + 1 : ℕ) * h) - F (j * h)) := by
  have hcell : ∀ j : ℕ, Set.EqOn (fun t => gridSign h times j * f t)
      (fun t => switching times t * f t) (Set.uIoc ((j : ℝ) * h) (((j + 1 : ℕ) : ℝ) * h)) := by
    intro j t ht
    have hle : (j : ℝ) * h ≤ ((j + 1 : ℕ) : ℝ) * h := by push_cast; nlinarith
    rw [Set.uIoc_of_le hle] at ht
    simp only
    rw [gridSign_eq hh hg ht.1 (by have := ht.2; push_cast at this; exact this)]
  have hint : ∀ k < N, IntervalIntegrable (fun t => switching times t * f t) volume ((k : ℝ) * h)
      (((k + 1 : ℕ) : ℝ) * h) := fun k _ =>
    ((hf.intervalIntegrable _ _).const_mul (gridSign h times k)).congr (hcell k)
  have hs := sum_integral_adjacent_intervals (a := fun k : ℕ => (k : ℝ) * h) hint
  simp only [Nat.cast_zero, zero_mul] at hs
  rw [← hs]
  apply Finset.sum_congr rfl
  intro j _
  rw [← intervalIntegral.integral_congr_ae (f := fun t => gridSign h times j * f t)
    (Filter.Eventually.of_forall fun t ht => hcell j ht), intervalIntegral.integral_const_mul,
    integral_eq_sub_of_hasDerivAt (fun x _ => hF x) (hf.intervalIntegrable _ _)]

theorem hasDerivAt_power (k : ℕ) (x : ℝ) :
    HasDerivAt (fun x : ℝ => x ^ (k + 1) / ((k : ℝ) + 1)) (x ^ k) x := by
  have h1 := (hasDerivAt_pow (k + 1) x).div_const ((k : ℝ) + 1)
  refine h1.congr_deriv ?_
  have : (k : ℝ) + 1 ≠ 0 := by positivity
  push_cast
  field_simp

theorem alternating_odd_sum (m : ℕ) :
    ∑ j ∈ Finset.range (2 * m), (-1 : ℝ) ^ j * (2 * j + 1) = -(2 * m) := by
  induction m with
  | zero => simp
  | succ m ih =>
    rw [show 2 * (m + 1) = 2 * m + 1 + 1 by ring, Finset.sum_range_succ, Finset.sum_range_succ, ih]
    rw [pow_succ, pow_mul]
    push_cast
    norm_num
    ring

theorem sum_pairs (f : ℕ → ℝ) (n : ℕ) :
    ∑ j ∈ Finset.range (2 * n), f j = ∑ i ∈ Finset.range n, (f (2 * i) + f (2 * i + 1)) := by
  induction n with
  | zero => simp
  | succ n ih =>
    rw [show 2 * (n + 1) = 2 * n + 1 + 1 by ring, Finset.sum_range_succ, Finset.sum_range_succ, ih,
      Finset.sum_range_succ]
    ring

theorem cpmg_signs {T : ℝ} (hT : 0 < T) {n : ℕ} (hn : n ≠ 0) (i : ℕ) (hi : i < n) :
    gridSign (T / (2 * n)) (cpmgTimes T n) (2 * i) = (-1) ^ i ∧
    gridSign (T / (2 * n)) (cpmgTimes T n) (2 * i + 1) = -(-1) ^ i := by
  have hn' : (0 : ℝ) < n := by exact_mod_cast Nat.pos_of_ne_zero hn
  have hh : 0 < T / (2 * n) := by positivity
  have hgrid : ∀ t ∈ cpmgTimes T n, ∃ k : ℕ, t = k * (T / (2 * n)) ∧ k % 2 = 1 := by
    intro t ht
    obtain ⟨i, hi, rfl⟩ := List.mem_map.mp ht
    rw [List.mem_range'_1] at hi
    refine ⟨2 * i - 1, ?_, by omega⟩
    rw [Nat.cast_sub (by omega)]
    push_cast
    field_simp
  have hg : ∀ t ∈ cpmgTimes T n, ∃ k : ℕ, t = k * (T / (2 * n)) := fun t ht => by
    obtain ⟨k, h, -⟩ := hgrid t ht; exact ⟨k, h⟩
  have ho := cpmg_ordered hT n
  have hodd : ∀ i < n, gridSign (T / (2 * n)) (cpmgTimes T n) (2 * i + 1) =
      -gridSign (T / (2 * n)) (cpmgTimes T n) (2 * i) := by
    intro i hi
    rw [gridSign_succ hh hg, (odd_count_of_mem (ho.1.imp ne_of_lt) _).neg_one_pow, neg_one_mul]
    refine List.mem_map.mpr ⟨i + 1, List.mem_range'_1.mpr (by omega), ?_⟩
    push_cast
    field_simp
    ring
  have heven : ∀ i < n, gridSign (T / (2 * n)) (cpmgTimes T n) (2 * i) = (-1) ^ i := by
    intro i hi
    induction i with
    | zero =>
      rw [pow_zero]
      unfold gridSign
      apply switching_eq_one
      intro s hs
      obtain ⟨k, rfl, hk⟩ := hgrid s hs
      have : (1 : ℝ) ≤ k := by exact_mod_cast (by omega : 1 ≤ k)
      simp only [mul_zero, Nat.cast_zero, zero_add]
      nlinarith
    | succ i ih =>
      rw [show 2 * (i + 1) = (2 * i + 1) + 1 by ring, gridSign_succ hh hg, List.count_eq_zero_of_not_mem,
        hodd i (by omega), ih (by omega), pow_zero, pow_succ]
      · ring
      · intro hmem
        obtain ⟨k, h, hk⟩ := hgrid _ hmem
        have : ((2 * i + 1 + 1 : ℕ) : ℝ) = k := mul_right_cancel₀ hh.ne' h
        have : 2 * i + 1 + 1 = k := by exact_mod_cast this
        omega
  exact ⟨heven i hi, by rw [hodd i hi, heven i hi]⟩

theorem cpmg_moment {T : ℝ} (hT : 0 < T) {n : ℕ} (hn : n ≠ 0) (k : ℕ) :
    ∫ t in 0..T, switching (cpmgTimes T n) t * t ^ k =
      (T / (2 * n)) ^ (k + 1) / (k + 1) * ∑ i ∈ Finset.range n, (-1 : ℝ) ^ i *
        (2 * (2 * i + 1) ^ (k + 1) - (2 * i) ^ (k + 1) - (2 * i + 2) ^ (k + 1)) := by
  have hn' : (0 : ℝ) < n := by exact_mod_cast Nat.pos_of_ne_zero hn
  have hh : 0 < T / (2 * n) := by positivity
  have hend : ((2 * n : ℕ) : ℝ) * (T / (2 * n)) = T := by push_cast; field_simp
  have hg : ∀ t ∈ cpmgTimes T n, ∃ k : ℕ, t = k * (T / (2 * n)) := by
    intro t ht
    obtain ⟨i, hi, rfl⟩ := List.mem_map.mp ht
    rw [List.mem_range'_1] at hi
    refine ⟨2 * i - 1, ?_⟩
    rw [Nat.cast_sub (by omega)]
    push_cast
    field_simp
  have := integral_grid_mul hh hg (hasDerivAt_power k) (continuous_pow k) (2 * n)
  rw [hend] at this
  rw [this, sum_pairs, Finset.mul_sum]
  apply Finset.sum_congr rfl
  intro i hi
  obtain ⟨h1, h2⟩ := cpmg_signs hT hn i (Finset.mem_range.mp hi)
  rw [h1, h2]
  simp only [mul_pow]
  push_cast
  rw [show (2 * (i : ℝ) + 1 + 1) = 2 * i + 2 by ring]
  generalize (T / (2 * n)) ^ (k + 1) = c
  field_simp
  ring

theorem cpmg_moments_odd {T : ℝ} (hT : 0 < T) {n : ℕ} (hn : Odd n) :
    ∫ t in 0..T, switching (cpmgTimes T n) t * t ^ 1 ≠ 0 := by
  have hn0 : n ≠ 0 := by rintro rfl; exact absurd hn (by decide)
  have hn' : (0 : ℝ) < n := by exact_mod_cast Nat.pos_of_ne_zero hn0
  rw [cpmg_moment hT hn0]
  have : ∑ i ∈ Finset.range n, (-1 : ℝ) ^ i *
        (2 * (2 * i + 1) ^ (1 + 1) - (2 * i) ^ (1 + 1) - (2 * i + 2) ^ (1 + 1)) = -2 := by
    rw [show (-2 : ℝ) = -2 * ∑ i ∈ Finset.range n, (-1 : ℝ) ^ i by
      rw [neg_one_geom_sum, if_neg (Nat.not_even_iff_odd.mpr hn), mul_one], Finset.mul_sum]
    apply Finset.sum_congr rfl
    intro i _
    ring
  rw [this]
  positivity

theorem cpmg_moments_even {T : ℝ} (hT : 0 < T) {n : ℕ} (hn : Even n) (hn0 : n ≠ 0) :
    ∫ t in 0..T, switching (cpmgTimes T n) t * t ^ 1 = 0 ∧
    ∫ t in 0..T, switching (cpmgTimes T n) t * t ^ 2 ≠ 0 := by
  have hn' : (0 : ℝ) < n := by exact_mod_cast Nat.pos_of_ne_zero hn0
  rw [cpmg_moment hT hn0, cpmg_moment hT hn0]
  constructor
  · have : ∑ i ∈ Finset.range n, (-1 : ℝ) ^ i *
        (2 * (2 * i + 1) ^ (1 + 1) - (2 * i) ^ (1 + 1) - (2 * i + 2) ^ (1 + 1)) = 0 := by
      rw [show (0 : ℝ) = -2 * ∑ i ∈ Finset.range n, (-1 : ℝ) ^ i by
        rw [neg_one_geom_sum, if_pos hn, mul_zero], Finset.mul_sum]
      apply Finset.sum_congr rfl
      intro i _
      ring
    rw [this, mul_zero]
  · have : ∑ i ∈ Finset.range n, (-1 : ℝ) ^ i *
        (2 * (2 * i + 1) ^ (2 + 1) - (2 * i) ^ (2 + 1) - (2 * i + 2) ^ (2 + 1)) = 6 * (n : ℝ) := by
      obtain ⟨m, hm⟩ := hn
      obtain rfl : n = 2 * m := by omega
      have := alternating_odd_sum m
      rw [show 6 * ((2 * m : ℕ) : ℝ) = -6 * -(2 * m) by push_cast; ring, ← this, Finset.mul_sum]
      apply Finset.sum_congr rfl
      intro i _
      ring
    rw [this]
    positivity

theorem periodic_moment_odd {T : ℝ} (hT : 0 < T) {n : ℕ} (hn : Odd n) :
    ∫ t in 0..T, switching (periodicTimes T n) t * t ^ 1 ≠ 0 := by
  have hh : 0 < T / ((n : ℝ) + 1) := by positivity
  have hend : ((n + 1 : ℕ) : ℝ) * (T / ((n : ℝ) + 1)) = T := by push_cast; field_simp
  have h := integral_grid_mul hh (periodic_grid (T := T) n) (hasDerivAt_power 1) (continuous_pow 1)
    (n + 1)
  rw [hend] at h
  rw [h]
  have h0 : gridSign (T / ((n : ℝ) + 1)) (periodicTimes T n) 0 = 1 := by
    unfold gridSign
    apply switching_eq_one
    intro s hs
    obtain ⟨i, hi, rfl⟩ := List.mem_map.mp hs
    rw [List.mem_range'_1] at hi
    have : (1 : ℝ) ≤ i := by exact_mod_cast hi.1
    simp only [Nat.cast_zero, zero_add]
    nlinarith
  have hs : ∀ j ≤ n, gridSign (T / ((n : ℝ) + 1)) (periodicTimes T n) j = (-1) ^ j := by
    intro j hj
    induction j with
    | zero => simpa using h0
    | succ j ih =>
      rw [gridSign_succ hh (periodic_grid (T := T) n), ih (by omega),
        (odd_count_of_mem ((periodic_ordered hT _).1.imp ne_of_lt)
          (periodic_mem (by omega) hj)).neg_one_pow, pow_succ]
      ring
  rw [Finset.sum_congr rfl fun j hj => by rw [hs j (by rw [Finset.mem_range] at hj; omega)]]
  obtain ⟨m, rfl⟩ := hn
  have hsum := alternating_odd_sum (m + 1)
  generalize hc : T / (((2 * m + 1 : ℕ) : ℝ) + 1) = c at hh
  have : ∑ j ∈ Finset.range (2 * m + 1 + 1), (-1 : ℝ) ^ j *
      ((((j + 1 : ℕ) : ℝ) * c) ^ (1 + 1) / (((1 : ℕ) : ℝ) + 1) -
        ((j : ℝ) * c) ^ (1 + 1) / (((1 : ℕ) : ℝ) + 1)) = c ^ 2 / 2 * -(2 * ((m + 1 : ℕ) : ℝ)) := by
    rw [← hsum, show 2 * m + 1 + 1 = 2 * (m + 1) by ring, Finset.mul_sum]
    apply Finset.sum_congr rfl
    intro j _
    push_cast
    ring
  rw [this]
  have : (0 : ℝ) < ((m + 1 : ℕ) : ℝ) := by positivity
  have : 0 < c ^ 2 / 2 * (2 * ((m + 1 : ℕ) : ℝ)) := by positivity
  intro h0
  linarith [h0]

/-! ## The Uhrig sequence -/

theorem alt_cos_top {N : ℕ} (hN : N ≠ 0) : ∑ j ∈ Finset.range N, (-1 : ℝ) ^ j *
      (Real.cos ((N : ℤ) * ((j + 1 : ℕ) * Real.pi / N)) - Real.cos ((N : ℤ) * ((j : ℕ) * Real.pi / N))) =
      -(2 * N) := by
  have hN' : (N : ℝ) ≠ 0 := by exact_mod_cast hN
  have e : ∀ j : ℕ, Real.cos (((N : ℤ) : ℝ) * ((j : ℝ) * Real.pi / N)) = (-1) ^ j := by
    intro j
    rw [show ((N : ℤ) : ℝ) * ((j : ℝ) * Real.pi / N) = j * Real.pi by push_cast; field_simp,
      Real.cos_nat_mul_pi]
  have : ∀ j ∈ Finset.range N, (-1 : ℝ) ^ j *
      (Real.cos ((N : ℤ) * ((j + 1 : ℕ) * Real.pi / N)) -
        Real.cos ((N : ℤ) * ((j : ℕ) * Real.pi / N))) = -2 := by
    intro j _
    rw [e, e, pow_succ]
    have : (-1 : ℝ) ^ j * (-1) ^ j = 1 := by rw [← pow_add, ← two_mul, pow_mul]; simp
    linear_combination -2 * this
  rw [Finset.sum_congr rfl this]
  simp
  ring

theorem alt_cos_pow_top {N : ℕ} (p : ℕ) (m : ℕ) (hm : 1 ≤ m) (hN : m + p = N) :
    ∑ j ∈ Finset.range N, (-1 : ℝ) ^ j *
      (Real.cos ((m : ℤ) * ((j + 1 : ℕ) * Real.pi / N)) * (1 - Real.cos ((j + 1 : ℕ) * Real.pi / N)) ^ p -
        Real.cos ((m : ℤ) * ((j : ℕ) * Real.pi / N)) * (1 - Real.cos ((j : ℕ) * Real.pi / N)) ^ p) =
      (-(1 / 2)) ^ p * -(2 * N) := by
  induction p generalizing m with
  | zero =>
    obtain rfl : m = N := by omega
    simpa using alt_cos_top (by omega)
  | succ p ih =>
    have h0 := alt_cos_pow (N := N) p m (by simp; omega)
    have h1 := ih (m + 1) (by omega) (by omega)
    have h2 := alt_cos_pow (N := N) p ((m : ℤ) - 1) (by
      rw [abs_of_nonneg (by omega)]; omega)
    have step : ∀ θ : ℝ, Real.cos ((m : ℤ) * θ) * (1 - Real.cos θ) ^ (p + 1) =
        Real.cos ((m : ℤ) * θ) * (1 - Real.cos θ) ^ p -
          (Real.cos (((m + 1 : ℕ) : ℤ) * θ) * (1 - Real.cos θ) ^ p +
            Real.cos ((((m : ℤ) - 1 : ℤ) : ℝ) * θ) * (1 - Real.cos θ) ^ p) / 2 := by
      intro θ
      have e1 : (((m + 1 : ℕ) : ℤ) : ℝ) * θ = ((m : ℤ) : ℝ) * θ + θ := by push_cast; ring
      have e2 : (((m : ℤ) - 1 : ℤ) : ℝ) * θ = ((m : ℤ) : ℝ) * θ - θ := by push_cast; ring
      rw [e1, e2, Real.cos_add, Real.cos_sub]
      ring
    simp only [step]
    have comb : ∀ (a b c : ℕ → ℝ) (y : ℝ), (∑ j ∈ Finset.range N, a j = 0) →
        (∑ j ∈ Finset.range N, b j = y) → (∑ j ∈ Finset.range N, c j = 0) →
        ∑ j ∈ Finset.range N, (a j - (b j + c j) / 2) = -(1 / 2) * y := by
      intro a b c y ha hb hc
      rw [Finset.sum_sub_distrib, ← Finset.sum_div, Finset.sum_add_distrib, ha, hb, hc]
      ring
    rw [pow_succ, mul_comm ((-(1 / 2) : ℝ) ^ p), mul_assoc, ← comb _ _ _ _ h0 h1 h2]
    apply Finset.sum_congr rfl
    intro j _
    ring

theorem uhrig_moment_ne {T : ℝ} (hT : 0 < T) (n : ℕ) :
    ∫ t in 0..T, switching (uhrigTimes T n) t * t ^ n ≠ 0 := by
  set τ : ℕ → ℝ := fun j => T * Real.sin (j * Real.pi / (2 * ((n : ℝ) + 1))) ^ 2 with hτ
  have ho := uhrig_ordered hT n
  have h := (integral_switching (hasDerivAt_power n) (continuous_pow n) T (uhrigTimes T n) 0 hT.le
    (ho.1.imp le_of_lt) fun t ht => ⟨(ho.2 t ht).1.le, (ho.2 t ht).2.le⟩).2
  rw [h]
  have h0 : τ 0 = 0 := by simp [hτ]
  have hend : τ (0 + n + 1) = T := by
    simp only [hτ, zero_add]
    have : ((n + 1 : ℕ) : ℝ) * Real.pi / (2 * ((n : ℝ) + 1)) = Real.pi / 2 := by
      push_cast; field_simp
    rw [this, Real.sin_pi_div_two]; ring
  have hlist : uhrigTimes T n = (List.range' (0 + 1) n).map τ := rfl
  have := altSum_range (fun x : ℝ => x ^ (n + 1) / ((n : ℝ) + 1)) τ n 0
  rw [hend, h0, ← hlist] at this
  rw [this]
  have hval : ∀ j : ℕ, τ j ^ (n + 1) / ((n : ℝ) + 1) = (T / 2) ^ (n + 1) / ((n : ℝ) + 1) *
        (1 - Real.cos (j * Real.pi / (n + 1 : ℕ))) ^ (n + 1) := by
    intro j
    have e : (j : ℝ) * Real.pi / (n + 1 : ℕ) = 2 * (j * Real.pi / (2 * ((n : ℝ) + 1))) := by
      push_cast; field_simp
    have e2 : τ j = T / 2 * (1 - Real.cos (j * Real.pi / (n + 1 : ℕ))) := by
      rw [e, Real.cos_two_mul, Real.cos_sq']
      simp only [hτ]; ring
    rw [e2, mul_pow]
    ring
  -- (1 - cos)^(n+1) = (1 - cos)^n - cos (1 - cos)^n
  have g0 := alt_cos_pow (N := n + 1) n 0 (by simp)
  have g1 := alt_cos_pow_top (N := n + 1) n 1 (le_refl _) (by omega)
  have hsum : ∑ j ∈ Finset.range (n + 1), (-1 : ℝ) ^ j *
      ((1 - Real.cos ((j + 1 : ℕ) * Real.pi / (n + 1 : ℕ))) ^ (n + 1) -
        (1 - Real.cos ((j : ℕ) * Real.pi / (n + 1 : ℕ))) ^ (n + 1)) =
      -((-(1 / 2)) ^ n * -(2 * ((n + 1 : ℕ) : ℝ))) := by
    have comb : ∀ (a b : ℕ → ℝ) (y : ℝ), (∑ j ∈ Finset.range (n + 1), a j = 0) →
        (∑ j ∈ Finset.range (n + 1), b j = y) →
        ∑ j ∈ Finset.range (n + 1), (a j - b j) = -y := by
      intro a b y ha hb
      rw [Finset.sum_sub_distrib, ha, hb, zero_sub]
    rw [← comb _ _ _ g0 g1]
    apply Finset.sum_congr rfl
    intro j _
    simp only [Int.cast_zero, zero_mul, Real.cos_zero, Nat.cast_one, Int.cast_one, one_mul]
    ring
  have hfin : ∑ j ∈ Finset.range (n + 1), (-1 : ℝ) ^ j *
        (τ (0 + j + 1) ^ (n + 1) / ((n : ℝ) + 1) - τ (0 + j) ^ (n + 1) / ((n : ℝ) + 1)) =
      (T / 2) ^ (n + 1) / ((n : ℝ) + 1) * -((-(1 / 2)) ^ n * -(2 * ((n + 1 : ℕ) : ℝ))) := by
    rw [← hsum, Finset.mul_sum]
    apply Finset.sum_congr rfl
    intro j _
    rw [zero_add, hval, hval]
    ring
  rw [hfin]
  have h1 : (T / 2) ^ (n + 1) / ((n : ℝ) + 1) ≠ 0 := by positivity
  have h2 : (-(1 / 2) : ℝ) ^ n ≠ 0 := pow_ne_zero _ (by norm_num)
  have h3 : (2 * ((n + 1 : ℕ) : ℝ)) ≠ 0 := by positivity
  exact mul_ne_zero h1 (neg_ne_zero.mpr (mul_ne_zero h2 (neg_ne_zero.mpr h3)))

end OpenControls
