import Verif.Proofs.Families
import Mathlib.MeasureTheory.Integral.IntervalIntegral.FundThmCalculus
import Mathlib.Analysis.SpecialFunctions.Integrals.Basic

/-!
# Integrals of switching functions
-/

namespace OpenControls

open Spec RealInst intervalIntegral MeasureTheory

/-! ## Alternating sums -/

/-- `∫ y f` for the switching function `y` of the times, `F` an antiderivative of `f` -/
def altSum (F : ℝ → ℝ) (T : ℝ) : ℝ → List ℝ → ℝ
  | a, [] => F T - F a
  | a, b :: r => (F b - F a) - altSum F T b r

theorem switching_eq_one {times : List ℝ} {t : ℝ} (h : ∀ s ∈ times, t ≤ s) :
    switching times t = 1 := by
  unfold switching
  rw [List.countP_eq_zero.mpr, pow_zero]
  intro s hs
  simpa using h s hs

theorem switching_cons {b : ℝ} {r : List ℝ} {t : ℝ} (h : b < t) :
    switching (b :: r) t = -switching r t := by
  unfold switching
  rw [List.countP_cons, if_pos (by simpa using h), pow_succ]
  ring

theorem integral_switching {f F : ℝ → ℝ} (hF : ∀ x, HasDerivAt F (f x) x) (hf : Continuous f)
    (T : ℝ) (times : List ℝ) (a : ℝ) (ha : a ≤ T) (hs : times.Pairwise (· ≤ ·))
    (hb : ∀ t ∈ times, a ≤ t ∧ t ≤ T) :
    IntervalIntegrable (fun t => switching times t * f t) volume a T ∧
    ∫ t in a..T, switching times t * f t = altSum F T a times := by
  induction times generalizing a with
  | nil =>
    have e : (fun t => switching [] t * f t) = f := by
      funext t; simp [switching]
    rw [e]
    exact ⟨hf.intervalIntegrable _ _,
      integral_eq_sub_of_hasDerivAt (fun x _ => hF x) (hf.intervalIntegrable _ _)⟩
  | cons b r ih =>
    obtain ⟨hab, hbT⟩ := hb b (by simp)
    rw [List.pairwise_cons] at hs
    obtain ⟨i2, e2⟩ := ih b hbT hs.2 fun t ht =>
      ⟨hs.1 t ht, (hb t (List.mem_cons_of_mem _ ht)).2⟩
    have c1 : Set.EqOn f (fun t => switching (b :: r) t * f t) (Set.uIoc a b) := by
      intro t ht
      rw [Set.uIoc_of_le hab] at ht
      simp only
      rw [switching_eq_one, one_mul]
      intro s hs'
      rcases List.mem_cons.mp hs' with rfl | hs'
      · exact ht.2
      · exact ht.2.trans (hs.1 s hs')
    have c2 : Set.EqOn (fun t => -(switching r t * f t)) (fun t => switching (b :: r) t * f t)
        (Set.uIoc b T) := by
      intro t ht
      rw [Set.uIoc_of_le hbT] at ht
      simp only
      rw [switching_cons ht.1]
      ring
    have i1 : IntervalIntegrable (fun t => switching (b :: r) t * f t) volume a b :=
      (hf.intervalIntegrable a b).congr c1
    have i3 : IntervalIntegrable (fun t => switching (b :: r) t * f t) volume b T :=
      i2.neg.congr c2
    refine ⟨i1.trans i3, ?_⟩
    rw [← integral_add_adjacent_intervals i1 i3, altSum]
    have e1 : ∫ t in a..b, switching (b :: r) t * f t = F b - F a := by
      rw [← integral_congr_ae (f := f) (Filter.Eventually.of_forall fun t ht => c1 ht)]
      exact integral_eq_sub_of_hasDerivAt (fun x _ => hF x) (hf.intervalIntegrable _ _)
    have e3 : ∫ t in b..T, switching (b :: r) t * f t = -altSum F T b r := by
      rw [← integral_congr_ae (f := fun t => -(switching r t * f t))
        (Filter.Eventually.of_forall fun t ht => c2 ht), intervalIntegral.integral_neg, e2]
    rw [e1, e3]
    ring

theorem altSum_range (F : ℝ → ℝ) (τ : ℕ → ℝ) (n s : ℕ) :
    altSum F (τ (s + n + 1)) (τ s) ((List.range' (s + 1) n).map τ) =
      ∑ j ∈ Finset.range (n + 1), (-1) ^ j * (F (τ (s + j + 1)) - F (τ (s + j))) := by
  induction n generalizing s with
  | zero => simp [altSum]
  | succ n ih =>
    rw [List.range'_succ, List.map_cons, altSum]
    have := ih (s + 1)
    rw [show s + 1 + n + 1 = s + (n + 1) + 1 by ring] at this
    rw [this, Finset.sum_range_succ' _ (n + 1)]
    simp only [pow_succ, pow_zero, one_mul, add_zero]
    rw [sub_eq_add_neg, add_comm, ← Finset.sum_neg_distrib]
    congr 1
    apply Finset.sum_congr rfl
    intro j _
    rw [show s + 1 + j + 1 = s + (j + 1) + 1 by ring, show s + 1 + j = s + (j + 1) by ring]
    ring

/-! ## Uhrig moments -/

/-- alternating differences of `cos (jβ)` -/
theorem alt_cos {N : ℕ} (m : ℤ) (hm : |m| < N) :
    ∑ j ∈ Finset.range N, (-1 : ℝ) ^ j *
      (Real.cos (m * ((j + 1 : ℕ) * Real.pi / N)) - Real.cos (m * ((j : ℕ) * Real.pi / N))) = 0 := by
  have hN : (0 : ℝ) < N := by
    have : (0 : ℤ) < N := lt_of_le_of_lt (abs_nonneg m) hm
    exact_mod_cast this
  set β : ℝ := m * Real.pi / N with hβ
  have hcos : Real.cos (β / 2) ≠ 0 := by
    apply ne_of_gt
    apply Real.cos_pos_of_mem_Ioo
    have hm' : |(m : ℝ)| < N := by exact_mod_cast hm
    obtain ⟨h1, h2⟩ := abs_lt.mp hm'
    have hpi := Real.pi_pos
    constructor
    · rw [hβ, lt_div_iff₀ (by norm_num), lt_div_iff₀ hN]; nlinarith
    · rw [hβ, div_lt_iff₀ (by norm_num), div_lt_iff₀ hN]; nlinarith
  have term : ∀ j : ℕ, Real.cos (m * ((j + 1 : ℕ) * Real.pi / N)) -
      Real.cos (m * ((j : ℕ) * Real.pi / N)) = -2 * Real.sin (β / 2) * Real.sin ((j + 1 / 2) * β) := by
    intro j
    have h1 : m * (((j + 1 : ℕ) : ℝ) * Real.pi / N) = (j + 1 / 2) * β + β / 2 := by
      rw [hβ]; push_cast; field_simp; ring
    have h2 : m * (((j : ℕ) : ℝ) * Real.pi / N) = (j + 1 / 2) * β - β / 2 := by
      rw [hβ]; field_simp; ring
    rw [h1, h2, Real.cos_add, Real.cos_sub]
    ring
  have tele : ∀ n : ℕ, 2 * Real.cos (β / 2) *
      ∑ j ∈ Finset.range n, (-1 : ℝ) ^ j * Real.sin ((j + 1 / 2) * β) =
        -(-1) ^ n * Real.sin (n * β) := by
    intro n
    induction n with
    | zero => simp
    | succ n ih =>
      rw [Finset.sum_range_succ, mul_add, ih, pow_succ]
      have h1 : (((n + 1 : ℕ) : ℝ)) * β = (n + 1 / 2) * β + β / 2 := by push_cast; ring
      have h2 : (n : ℝ) * β = (n + 1 / 2) * β - β / 2 := by ring
      rw [h1, h2, Real.sin_add, Real.sin_sub]
      ring
  have hzero := tele N
  have hsin : Real.sin (N * β) = 0 := by
    have : (N : ℝ) * β = m * Real.pi := by rw [hβ]; field_simp
    rw [this, Real.sin_int_mul_pi]
  rw [hsin, mul_zero] at hzero
  have hsum := (mul_eq_zero.mp hzero).resolve_left (by simpa using hcos)
  simp only [term]
  calc ∑ j ∈ Finset.range N, (-1 : ℝ) ^ j * (-2 * Real.sin (β / 2) * Real.sin ((j + 1 / 2) * β))
      = -2 * Real.sin (β / 2) * ∑ j ∈ Finset.range N, (-1 : ℝ) ^ j * Real.sin ((j + 1 / 2) * β) := by
        rw [Finset.mul_sum]
        apply Finset.sum_congr rfl
        intro j _; ring
    _ = 0 := by rw [hsum, mul_zero]

theorem alt_cos_pow {N : ℕ} (p : ℕ) (m : ℤ) (hm : |m| + p < N) :
    ∑ j ∈ Finset.range N, (-1 : ℝ) ^ j *
      (Real.cos (m * ((j + 1 : ℕ) * Real.pi / N)) * (1 - Real.cos ((j + 1 : ℕ) * Real.pi / N)) ^ p -
        Real.cos (m * ((j : ℕ) * Real.pi / N)) * (1 - Real.cos ((j : ℕ) * Real.pi / N)) ^ p) = 0 := by
  induction p generalizing m with
  | zero => simpa using alt_cos m (by simpa using hm)
  | succ p ih =>
    push_cast at hm
    have h0 := ih m (by omega)
    have h1 := ih (m + 1) (by have := abs_add_le m 1; simp at this; omega)
    have h2 := ih (m - 1) (by have := abs_sub m 1; simp at this; omega)
    have step : ∀ θ : ℝ, Real.cos (m * θ) * (1 - Real.cos θ) ^ (p + 1) =
        Real.cos (m * θ) * (1 - Real.cos θ) ^ p -
          (Real.cos ((m + 1 : ℤ) * θ) * (1 - Real.cos θ) ^ p +
            Real.cos ((m - 1 : ℤ) * θ) * (1 - Real.cos θ) ^ p) / 2 := by
      intro θ
      have e1 : ((m + 1 : ℤ) : ℝ) * θ = m * θ + θ := by push_cast; ring
      have e2 : ((m - 1 : ℤ) : ℝ) * θ = m * θ - θ := by push_cast; ring
      rw [e1, e2, Real.cos_add, Real.cos_sub]
      ring
    simp only [step]
    have : ∀ a b c : ℕ → ℝ, (∑ j ∈ Finset.range N, a j = 0) → (∑ j ∈ Finset.range N, b j = 0) →
        (∑ j ∈ Finset.range N, c j = 0) →
        ∑ j ∈ Finset.range N, (a j - (b j + c j) / 2) = 0 := by
      intro a b c ha hb hc
      rw [Finset.sum_sub_distrib, ← Finset.sum_div, Finset.sum_add_distrib, ha, hb, hc]
      norm_num
    rw [← this _ _ _ h0 h1 h2]
    apply Finset.sum_congr rfl
    intro j _
    ring

/-- The moments of the Uhrig switching function below order `n` vanish. -/
theorem uhrig_moment {T : ℝ} (hT : 0 < T) {n k : ℕ} (hk : k < n) :
    ∫ t in 0..T, switching (uhrigTimes T n) t * t ^ k = 0 := by
  have hn1 : (0 : ℝ) < (n + 1 : ℕ) := by positivity
  set τ : ℕ → ℝ := fun j => T * Real.sin (j * Real.pi / (2 * ((n : ℝ) + 1))) ^ 2 with hτ
  have ho := uhrig_ordered hT n
  have hF : ∀ x : ℝ, HasDerivAt (fun x : ℝ => x ^ (k + 1) / ((k : ℝ) + 1)) (x ^ k) x := by
    intro x
    have h1 := (hasDerivAt_pow (k + 1) x).div_const ((k : ℝ) + 1)
    refine h1.congr_deriv ?_
    have : (k : ℝ) + 1 ≠ 0 := by positivity
    push_cast
    field_simp
  have h := (integral_switching hF (continuous_pow k) T (uhrigTimes T n) 0 hT.le
    (ho.1.imp le_of_lt) fun t ht => ⟨(ho.2 t ht).1.le, (ho.2 t ht).2.le⟩).2
  rw [h]
  have h0 : τ 0 = 0 := by simp [hτ]
  have hend : τ (0 + n + 1) = T := by
    simp only [hτ, zero_add]
    have : ((n + 1 : ℕ) : ℝ) * Real.pi / (2 * ((n : ℝ) + 1)) = Real.pi / 2 := by
      push_cast; field_simp
    rw [this, Real.sin_pi_div_two]; ring
  have hlist : uhrigTimes T n = (List.range' (0 + 1) n).map τ := rfl
  have := altSum_range (fun x : ℝ => x ^ (k + 1) / ((k : ℝ) + 1)) τ n 0
  rw [hend, h0, ← hlist] at this
  rw [this]
  have hval : ∀ j : ℕ, τ j ^ (k + 1) / ((k : ℝ) + 1) = (T / 2) ^ (k + 1) / ((k : ℝ) + 1) *
      (Real.cos ((0 : ℤ) * (j * Real.pi / (n + 1 : ℕ))) *
        (1 - Real.cos (j * Real.pi / (n + 1 : ℕ))) ^ (k + 1)) := by
    intro j
    have e : (j : ℝ) * Real.pi / (n + 1 : ℕ) = 2 * (j * Real.pi / (2 * ((n : ℝ) + 1))) := by
      push_cast; field_simp
    have e2 : τ j = T / 2 * (1 - Real.cos (j * Real.pi / (n + 1 : ℕ))) := by
      rw [e, Real.cos_two_mul, Real.cos_sq']
      simp only [hτ]; ring
    rw [e2, mul_pow]
    simp
    ring
  have hsum := alt_cos_pow (N := n + 1) (k + 1) 0 (by simp; omega)
  calc ∑ j ∈ Finset.range (n + 1), (-1 : ℝ) ^ j *
        (τ (0 + j + 1) ^ (k + 1) / ((k : ℝ) + 1) - τ (0 + j) ^ (k + 1) / ((k : ℝ) + 1))
      = (T / 2) ^ (k + 1) / ((k : ℝ) + 1) * ∑ j ∈ Finset.range (n + 1), (-1 : ℝ) ^ j *
      (Real.cos ((0 : ℤ) * ((j + 1 : ℕ) * Real.pi / (n + 1 : ℕ))) *
        (1 - Real.cos ((j + 1 : ℕ) * Real.pi / (n + 1 : ℕ))) ^ (k + 1) -
        Real.cos ((0 : ℤ) * ((j : ℕ) * Real.pi / (n + 1 : ℕ))) *
          (1 - Real.cos ((j : ℕ) * Real.pi / (n + 1 : ℕ))) ^ (k + 1)) := by
        rw [Finset.mul_sum]
        apply Finset.sum_congr rfl
        intro j _
        rw [zero_add, hval, hval]
        ring
    _ = 0 := by rw [hsum, mul_zero]

/-! ## Sequences on a grid -/

/-- the sign between grid points `j` and `j + 1` -/
noncomputable def gridSign (h : ℝ) (times : List ℝ) (j : ℕ) : ℝ :=
  switching times ((j + 1 / 2) * h)

theorem gridSign_eq {h : ℝ} (hh : 0 < h) {times : List ℝ} (hg : ∀ t ∈ times, ∃ k : ℕ, t = k * h)
    {j : ℕ} {t : ℝ} (h1 : j * h < t) (h2 : t ≤ (j + 1) * h) :
    switching times t = gridSign h times j := by
  unfold gridSign switching
  congr 1
  apply List.countP_congr
  intro s hs
  obtain ⟨k, rfl⟩ := hg s hs
  simp only [decide_eq_true_eq]
  have : ((k : ℝ) * h < t ↔ k ≤ j) := by
    constructor
    · intro hlt
      have : (k : ℝ) < j + 1 := by
        by_contra hge; push Not at hge; nlinarith
      have : k < j + 1 := by exact_mod_cast this
      omega
    · intro hle
      have : (k : ℝ) ≤ j := by exact_mod_cast hle
      nlinarith
  rw [this]
  constructor
  · intro hle
    have : (k : ℝ) ≤ j := by exact_mod_cast hle
    nlinarith
  · intro hlt
    have : (k : ℝ) < j + 1 := by
      by_contra hge; push Not at hge; nlinarith
    have : k < j + 1 := by exact_mod_cast this
    omega

theorem gridSign_succ {h : ℝ} (hh : 0 < h) {times : List ℝ} (hg : ∀ t ∈ times, ∃ k : ℕ, t = k * h)
    (j : ℕ) : gridSign h times (j + 1) =
      (-1) ^ times.count (((j + 1 : ℕ) : ℝ) * h) * gridSign h times j := by
  unfold gridSign switching
  rw [← pow_add]
  congr 1
  rw [add_comm (times.count _)]
  have e2 : (((j + 1 : ℕ) : ℝ) + 1 / 2) * h = (j + 1 + 1 / 2) * h := by push_cast; ring
  rw [e2]
  apply countP_across
  · push_cast; nlinarith
  · push_cast; nlinarith
  · intro s hs hne
    obtain ⟨k, rfl⟩ := hg s hs
    constructor
    · intro; nlinarith
    · intro hlt
      have h1 : (k : ℝ) < j + 2 := by
        by_contra hge; push Not at hge; nlinarith
      have h1' : k < j + 2 := by exact_mod_cast h1
      have h2 : k ≠ j + 1 := by rintro rfl; exact hne rfl
      have h3 : (k : ℝ) ≤ j := by exact_mod_cast (by omega : k ≤ j)
      nlinarith

theorem integral_grid {h : ℝ} (hh : 0 < h) {times : List ℝ} (hg : ∀ t ∈ times, ∃ k : ℕ, t = k * h)
    (N : ℕ) : ∫ t in 0..(N * h), switching times t = h * ∑ j ∈ Finset.range N, gridSign h times j := by
  have hcell : ∀ j : ℕ, Set.EqOn (fun _ => gridSign h times j) (switching times)
      (Set.uIoc ((j : ℝ) * h) (((j + 1 : ℕ) : ℝ) * h)) := by
    intro j t ht
    have hle : (j : ℝ) * h ≤ ((j + 1 : ℕ) : ℝ) * h := by push_cast; nlinarith
    rw [Set.uIoc_of_le hle] at ht
    exact (gridSign_eq hh hg ht.1 (by have := ht.2; push_cast at this; exact this)).symm
  have hint : ∀ k < N, IntervalIntegrable (switching times) volume ((k : ℝ) * h)
      (((k + 1 : ℕ) : ℝ) * h) := fun k _ =>
    (intervalIntegrable_const (c := gridSign h times k)).congr (hcell k)
  have hs := sum_integral_adjacent_intervals (a := fun k : ℕ => (k : ℝ) * h) hint
  simp only [Nat.cast_zero, zero_mul] at hs
  rw [← hs, Finset.mul_sum]
  apply Finset.sum_congr rfl
  intro j _
  rw [← integral_congr_ae (f := fun _ => gridSign h times j)
    (Filter.Eventually.of_forall fun t ht => hcell j ht), intervalIntegral.integral_const]
  push_cast
  simp only [smul_eq_mul]
  ring

/-- A pulse at every odd grid point refocuses. -/
theorem integral_grid_zero {h : ℝ} (hh : 0 < h) {times : List ℝ}
    (hg : ∀ t ∈ times, ∃ k : ℕ, t = k * h) (M : ℕ)
    (hodd : ∀ i < M, Odd (times.count (((2 * i + 1 : ℕ) : ℝ) * h))) :
    ∫ t in 0..((2 * M : ℕ) * h), switching times t = 0 := by
  rw [integral_grid hh hg]
  have : ∀ m ≤ M, ∑ j ∈ Finset.range (2 * m), gridSign h times j = 0 := by
    intro m hm
    induction m with
    | zero => simp
    | succ m ih =>
      rw [show 2 * (m + 1) = 2 * m + 1 + 1 by ring, Finset.sum_range_succ, Finset.sum_range_succ,
        ih (by omega), gridSign_succ hh hg, (hodd m (by omega)).neg_one_pow]
      ring
  rw [this M (le_refl _), mul_zero]

theorem odd_count_of_mem {l : List ℝ} (h : l.Nodup) {x : ℝ} (hx : x ∈ l) : Odd (l.count x) := by
  rw [List.count_eq_one_of_mem h hx]; exact odd_one

theorem cpmg_refocus {T : ℝ} (hT : 0 < T) {n : ℕ} (hn : n ≠ 0) :
    ∫ t in 0..T, switching (cpmgTimes T n) t = 0 := by
  have hn' : (0 : ℝ) < n := by exact_mod_cast Nat.pos_of_ne_zero hn
  have hh : 0 < T / (2 * n) := by positivity
  have hend : ((2 * n : ℕ) : ℝ) * (T / (2 * n)) = T := by push_cast; field_simp
  have ho := cpmg_ordered hT n
  have := integral_grid_zero hh (times := cpmgTimes T n) ?_ n ?_
  · rwa [hend] at this
  · intro t ht
    obtain ⟨i, hi, rfl⟩ := List.mem_map.mp ht
    rw [List.mem_range'_1] at hi
    refine ⟨2 * i - 1, ?_⟩
    rw [Nat.cast_sub (by omega)]
    push_cast
    field_simp
  · intro i hi
    apply odd_count_of_mem (ho.1.imp ne_of_lt)
    refine List.mem_map.mpr ⟨i + 1, List.mem_range'_1.mpr (by omega), ?_⟩
    push_cast
    field_simp
    ring

theorem periodic_grid {T : ℝ} (n : ℕ) :
    ∀ t ∈ periodicTimes T n, ∃ k : ℕ, t = k * (T / (n + 1)) := by
  intro t ht
  obtain ⟨i, -, rfl⟩ := List.mem_map.mp ht
  exact ⟨i, rfl⟩

theorem periodic_mem {T : ℝ} {n i : ℕ} (h0 : 0 < i) (h : i ≤ n) :
    (i : ℝ) * (T / (n + 1)) ∈ periodicTimes T n :=
  List.mem_map.mpr ⟨i, List.mem_range'_1.mpr (by omega), rfl⟩

theorem periodic_refocus {T : ℝ} (hT : 0 < T) {n : ℕ} (hn : Odd n) :
    ∫ t in 0..T, switching (periodicTimes T n) t = 0 := by
  obtain ⟨m, rfl⟩ := hn
  have hh : 0 < T / (((2 * m + 1 : ℕ) : ℝ) + 1) := by positivity
  have hend : ((2 * (m + 1) : ℕ) : ℝ) * (T / (((2 * m + 1 : ℕ) : ℝ) + 1)) = T := by
    push_cast; field_simp; ring
  have := integral_grid_zero hh (periodic_grid (T := T) (2 * m + 1)) (m + 1) ?_
  · rwa [hend] at this
  · intro i hi
    exact odd_count_of_mem ((periodic_ordered hT _).1.imp ne_of_lt)
      (periodic_mem (by omega) (by omega))

/-- An even number of equally spaced pulses leaves one sub-interval over. -/
theorem periodic_even {T : ℝ} (hT : 0 < T) {n : ℕ} (hn : Even n) :
    ∫ t in 0..T, switching (periodicTimes T n) t = T / (n + 1) := by
  have hh : 0 < T / ((n : ℝ) + 1) := by positivity
  have hend : ((n + 1 : ℕ) : ℝ) * (T / ((n : ℝ) + 1)) = T := by push_cast; field_simp
  have h := integral_grid hh (periodic_grid (T := T) n) (n + 1)
  rw [hend] at h
  rw [h]
  have h0 : gridSign (T / ((n : ℝ) + 1)) (periodicTimes T n) 0 = 1 := by
    unfold gridSign
    apply switching_eq_one
    intro s hs
    obtain ⟨i, hi, rfl⟩ := List.mem_map.mp hs
    rw [List.mem_range'_1] at hi
    have : (1 : ℝ) ≤ i := by exact_mod_cast hi.1
    simp only [Nat.cast_zero, zero_add]
    nlinarith
  have hs : ∀ j ≤ n, gridSign (T / ((n : ℝ) + 1)) (periodicTimes T n) j = (-1) ^ j := by
    intro j hj
    induction j with
    | zero => simpa using h0
    | succ j ih =>
      rw [gridSign_succ hh (periodic_grid (T := T) n), ih (by omega),
        (odd_count_of_mem ((periodic_ordered hT _).1.imp ne_of_lt)
          (periodic_mem (by omega) hj)).neg_one_pow, pow_succ]
      ring
  rw [Finset.sum_congr rfl fun j hj => hs j (by rw [Finset.mem_range] at hj; omega)]
  have hgeom : ∑ j ∈ Finset.range (n + 1), (-1 : ℝ) ^ j = 1 := by
    rw [Finset.sum_range_succ, neg_one_geom_sum, if_pos hn, hn.neg_one_pow, zero_add]
  rw [hgeom, mul_one]

theorem spinEcho_refocus {T : ℝ} (hT : 0 < T) : ∫ t in 0..T, switching [T / 2] t = 0 := by
  have := cpmg_refocus hT one_ne_zero
  have e : cpmgTimes T 1 = [T / 2] := by simp [cpmgTimes, List.range']; ring
  rwa [e] at this

theorem cellSign_flip {k : ℕ} (hk : k ≠ 0) (i : ℕ) :
    cellSign k (2 * i) ≠ cellSign k (2 * i + 1) := by
  have hflip : cellSign k (2 * i + 1) = -cellSign k (2 * i) := by
    unfold cellSign
    rw [Finset.prod_range_succ, Finset.prod_range_succ]
    have htop : k.testBit (Nat.log2 k) = true := by
      have := Nat.testBit_log2 hk
      exact this
    rw [if_pos htop, if_pos htop]
    simp only [Nat.sub_self, pow_zero, Nat.div_one, pow_succ]
    have : ∀ j ∈ Finset.range (Nat.log2 k),
        (if k.testBit j = true then (-1 : ℝ) ^ ((2 * i + 1) / 2 ^ (Nat.log2 k - j)) else 1) =
        if k.testBit j = true then (-1 : ℝ) ^ (2 * i / 2 ^ (Nat.log2 k - j)) else 1 := by
      intro j hj
      rw [Finset.mem_range] at hj
      obtain ⟨r, hr⟩ := Nat.exists_eq_succ_of_ne_zero (show Nat.log2 k - j ≠ 0 by omega)
      rw [hr, Nat.succ_eq_add_one, pow_succ, mul_comm (2 ^ r) 2, ← Nat.div_div_eq_div_mul,
        ← Nat.div_div_eq_div_mul]
      rw [show (2 * i + 1) / 2 = i by omega, show 2 * i / 2 = i by omega]
    rw [Finset.prod_congr rfl this]
    ring
  rw [hflip]
  intro h
  have : cellSign k (2 * i) = 0 := by linarith
  rcases cellSign_cases k (2 * i) with h | h <;> rw [h] at this <;> norm_num at this

theorem walsh_refocus {T : ℝ} (hT : 0 < T) {k : ℕ} (hk : k ≠ 0) :
    ∫ t in 0..T, switching (walshTimes T k) t = 0 := by
  have hh : 0 < T / 2 ^ (Nat.log2 k + 1) := by positivity
  have hend : ((2 * 2 ^ Nat.log2 k : ℕ) : ℝ) * (T / 2 ^ (Nat.log2 k + 1)) = T := by
    push_cast; rw [pow_succ]; field_simp
  have := integral_grid_zero hh (times := walshTimes T k) ?_ (2 ^ Nat.log2 k) ?_
  · rwa [hend] at this
  · intro t ht
    unfold walshTimes at ht
    obtain ⟨i, -, rfl⟩ := List.mem_map.mp ht
    refine ⟨i + 1, ?_⟩
    push_cast
    ring
  · intro i hi
    apply odd_count_of_mem ((walsh_ordered hT k).1.imp ne_of_lt)
    unfold walshTimes
    refine List.mem_map.mpr ⟨2 * i, ?_, ?_⟩
    · rw [List.mem_filter]
      refine ⟨?_, by simpa using cellSign_flip hk i⟩
      rw [List.mem_range'_1]
      rw [pow_succ]
      omega
    · push_cast
      ring

theorem xConcatenated_refocus {T : ℝ} (hT : 0 < T) {l : ℕ} (hl : l ≠ 0) :
    ∫ t in 0..T, switching (xConcatenatedOffsets T l) t = 0 := by
  obtain ⟨m, rfl⟩ := Nat.exists_eq_succ_of_ne_zero hl
  have hh : 0 < T / 2 ^ (m + 1) := by positivity
  have hend : ((2 * 2 ^ m : ℕ) : ℝ) * (T / 2 ^ (m + 1)) = T := by
    push_cast; rw [pow_succ]; field_simp
  have := integral_grid_zero hh (times := xConcatenatedOffsets T (m + 1)) ?_ (2 ^ m) ?_
  · rwa [hend] at this
  · intro t ht
    obtain ⟨k, -, -, -, rfl⟩ := (mem_xOffsets hT hl t).mp ht
    exact ⟨k, rfl⟩
  · intro i hi
    apply odd_count_of_mem ((xOffsets_ordered hT hl).1.imp ne_of_lt)
    refine (mem_xOffsets hT hl _).mpr ⟨2 * i + 1, by omega, ?_, ?_, rfl⟩
    · rw [Nat.succ_eq_add_one, pow_succ]; omega
    · rw [padicValNat.eq_zero_of_not_dvd (by omega)]; exact Even.zero

/-! ## Flip times of tables -/

theorem flipTimes_onAxis_x (times : List ℝ) : flipTimes (onAxis .x times) = times := by
  simp [flipTimes, onAxis, List.filter_map, Function.comp_def]

theorem flipTimes_onAxis_y (times : List ℝ) : flipTimes (onAxis .y times) = times := by
  simp [flipTimes, onAxis, List.filter_map, Function.comp_def]

theorem flipTimes_quadratic (n₁ : ℕ) (T a : ℝ) (r : List ℝ) :
    flipTimes (quadraticTable n₁ T a r) = r := by
  have hz : ∀ l : List ℝ, flipTimes (onAxis .z l) = [] := by
    intro l; simp [flipTimes, onAxis]
  have happ : ∀ a b : List (ℝ × Axis), flipTimes (a ++ b) = flipTimes a ++ flipTimes b := by
    intro a b; simp [flipTimes]
  induction r generalizing a with
  | nil => simp only [quadraticTable, hz]
  | cons b r ih =>
    simp only [quadraticTable, happ, hz, List.nil_append]
    rw [show flipTimes ((b, Axis.x) :: quadraticTable n₁ T b r) =
      b :: flipTimes (quadraticTable n₁ T b r) by simp [flipTimes], ih]

theorem sensitivity_finished (T : ℝ) (table : List (ℝ × Axis)) (prePost : Bool)
    (name : Option String) (t : ℝ) :
    sensitivity (finished T table prePost name) t = switching (flipTimes table) t := by
  have hne : Real.pi / 2 ≠ Real.pi := by
    have := Real.pi_pos
    intro h; linarith
  have h0 : (0 : ℝ) ≠ Real.pi := Real.pi_pos.ne
  have key : ((table.map fun p => p.1).zip (table.map fun p => p.2.rabi)).countP
      (fun p => p.2 = Real.pi ∧ p.1 < t) = (flipTimes table).countP fun s => s < t := by
    unfold flipTimes
    induction table with
    | nil => rfl
    | cons p table ih =>
      obtain ⟨s, a⟩ := p
      simp only [List.map_cons, List.zip_cons_cons, List.countP_cons]
      rw [ih]
      cases a <;> simp [Axis.rabi, h0, List.countP_cons]
  unfold sensitivity finished switching
  rw [← key]
  congr 1
  cases prePost with
  | false => rfl
  | true =>
    simp only [if_true, withPrePost, piSequence, List.zip_cons_cons, List.countP_cons]
    rw [List.zip_append (by simp), List.countP_append]
    simp [hne]

end OpenControls
