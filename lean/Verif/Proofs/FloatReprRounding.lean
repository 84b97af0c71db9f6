import Verif.Proofs.FloatRepr
import Verif.Proofs.LimitedInst
import Mathlib.Tactic.IntervalCases

/-!
# Texts of floats: what they are rounded to
-/

namespace OpenControls

open Spec

namespace FloatText

variable {rnd : ℝ → ℝ}

theorem zero_of_decimal (h : Decimal rnd) : rnd 0 = 0 := by
  have := h.neg 0
  rw [neg_zero] at this
  linarith

theorem pos_of_decimal (h : Decimal rnd) {y : ℝ} (hy : 0 < rnd y) : 0 < y := by
  by_contra hn
  have := h.mono (not_lt.mp hn)
  rw [zero_of_decimal h] at this
  linarith

theorem exists_length {D : ℕ} (hD : 0 < D) : ∃ n, 1 ≤ n ∧ 10 ^ (n - 1) ≤ D ∧ D < 10 ^ n :=
  ⟨Nat.log 10 D + 1, by omega, by simpa using Nat.pow_log_le_self 10 hD.ne', Nat.lt_pow_succ_log_self (by norm_num) D⟩

theorem denotes_pos {x : ℝ} {n D : ℕ} {k : ℤ} (h : Denotes rnd x n D k) : 0 < D :=
  lt_of_lt_of_le (by positivity) h.2.1

theorem denotes_finite (h : Decimal rnd) {x : ℝ} (hx : 0 < x) {n D : ℕ} {k : ℤ} (hd : Denotes rnd x n D k) :
    {q : ℕ × ℤ | Denotes rnd x n q.1 q.2 ∧ |(q.1 * 10 ^ q.2 : ℝ) - x| ≤ |(D * 10 ^ k : ℝ) - x|}.Finite := by
  have hDk : (0 : ℝ) < D * 10 ^ k := mul_pos (by exact_mod_cast denotes_pos hd) (by positivity)
  have hnear := h.near x _ hx hDk hd.2.2.2
  set δ := |(D * 10 ^ k : ℝ) - x| with hδ
  have h10 : (1 : ℝ) < 10 := by norm_num
  obtain ⟨a, ha⟩ := exists_nat_gt ((x + δ) : ℝ)
  obtain ⟨b, hb⟩ := exists_nat_gt ((x - δ)⁻¹ : ℝ)
  have hbpos : (0 : ℝ) < x - δ := by linarith
  have pa : (a : ℝ) < 10 ^ a := by exact_mod_cast Nat.lt_pow_self (by norm_num)
  have pb : (b : ℝ) < 10 ^ b := by exact_mod_cast Nat.lt_pow_self (by norm_num)
  apply Set.Finite.subset ((Finset.range (10 ^ n)) ×ˢ (Finset.Icc (-(b : ℤ) - n) a)).finite_toSet
  rintro ⟨D', k'⟩ ⟨h1, h2⟩
  rw [abs_le] at h2
  have hD' : 1 ≤ (D' : ℝ) := by exact_mod_cast denotes_pos h1
  have hk' : (0 : ℝ) < 10 ^ k' := by positivity
  simp only [Finset.coe_product, Set.mem_prod, Finset.mem_coe, Finset.mem_range, Finset.mem_Icc]
  refine ⟨h1.2.2.1, ?_, ?_⟩
  · have hlt : (D' : ℝ) < 10 ^ n := by exact_mod_cast h1.2.2.1
    have e1 : x - δ < 10 ^ ((n : ℤ) + k') := by
      rw [zpow_add₀ (by norm_num), zpow_natCast]
      have := mul_lt_mul_of_pos_right hlt hk'
      linarith [h2.1]
    have e2 : (10 : ℝ) ^ (-(b : ℤ)) < x - δ := by
      rw [zpow_neg, zpow_natCast]
      rw [inv_lt_comm₀ (by positivity) hbpos]
      linarith
    have := (zpow_lt_zpow_iff_right₀ h10).mp (e2.trans e1)
    omega
  · have e1 : (10 : ℝ) ^ k' ≤ x + δ := by nlinarith [h2.2]
    have e2 : (10 : ℝ) ^ k' < 10 ^ (a : ℤ) := by rw [zpow_natCast]; linarith
    have := (zpow_lt_zpow_iff_right₀ h10).mp e2
    exact this.le

/-- there is a decimal number with fewest digits that is rounded to a given number, and a nearest one of these -/
theorem chosen_exists (h : Decimal rnd) {x : ℝ} (hx : 0 < x) (hr : rnd x = x) : ∃ D k, Chosen rnd x D k := by
  classical
  have hex : ∃ n D k, Denotes rnd x n D k := by
    obtain ⟨D, k, e⟩ := h.decimal x hx hr
    have hD : 0 < D := by
      rcases Nat.eq_zero_or_pos D with h0 | h0
      · rw [h0] at e; simp at e; exact absurd e hx.ne'
      · exact h0
    obtain ⟨n, h1, h2, h3⟩ := exists_length hD
    exact ⟨n, D, k, h1, h2, h3, by rw [← e]; exact hr⟩
  obtain ⟨D, k, hd⟩ := Nat.find_spec hex
  obtain ⟨q, hq, hmin⟩ := Set.exists_min_image _ (fun q : ℕ × ℤ => |(q.1 * 10 ^ q.2 : ℝ) - x|)
    (denotes_finite h hx hd) ⟨(D, k), hd, le_rfl⟩
  refine ⟨q.1, q.2, Nat.find hex, hq.1, fun n' hn' D' k' hd' => Nat.find_min hex hn' ⟨D', k', hd'⟩, ?_⟩
  intro D' k' hd'
  rcases le_total |(D' * 10 ^ k' : ℝ) - x| |(D * 10 ^ k : ℝ) - x| with hle | hle
  · exact hmin (D', k') ⟨hd', hle⟩
  · exact hq.2.trans hle

/-! ## Binary floating point -/

open Bits

theorem decimal_of_binary (m : ℕ) (j : ℤ) : ∃ (D : ℕ) (k : ℤ), (m * 2 ^ j : ℝ) = D * 10 ^ k := by
  rcases le_total 0 j with hj | hj
  · obtain ⟨i, rfl⟩ := Int.eq_ofNat_of_zero_le hj
    exact ⟨m * 2 ^ i, 0, by push_cast; rw [zpow_natCast]; simp⟩
  · obtain ⟨i, hi⟩ := Int.eq_ofNat_of_zero_le (show 0 ≤ -j by omega)
    refine ⟨m * 5 ^ i, j, ?_⟩
    rw [show j = -(i : ℤ) by omega]
    push_cast
    rw [zpow_neg, zpow_neg, zpow_natCast, zpow_natCast, show (10 : ℝ) = 5 * 2 by norm_num, mul_pow]
    field_simp

theorem decimal_bits {p : ℕ} (hp : 2 ≤ p) : Decimal (Bits.rnd p) where
  neg := Bits.rnd_neg
  mono := Bits.rnd_mono (by omega)
  decimal := by
    intro x hx hr
    rw [rnd_of_nonneg hx.le] at hr
    obtain ⟨m, -, -, e⟩ := roundPos_form hx (show 1 ≤ p by omega)
    rw [hr] at e
    rw [e]
    exact decimal_of_binary m _
  near := by
    intro x y hx hy e
    have h1 := Bits.rnd_close (show 1 ≤ p by omega) y
    rw [e, abs_of_pos hy, abs_sub_comm] at h1
    have h2 : (1 : ℝ) / 2 ^ p ≤ 1 / 4 := by
      apply one_div_le_one_div_of_le (by norm_num)
      calc (4 : ℝ) = 2 ^ 2 := by norm_num
        _ ≤ 2 ^ p := pow_le_pow_right₀ (by norm_num) hp
    have h3 : |y - x| ≤ 1 / 4 * y := h1.trans (by gcongr)
    have h4 := abs_le.mp h3
    linarith

theorem decimal_double : Decimal limRnd where
  neg := limRnd_neg
  mono := limRnd_mono
  decimal := by
    intro x hx hr
    rw [limRnd_of_nonneg hx.le] at hr
    obtain ⟨m, -, j, -, e⟩ := limPos_form hx.le
    rw [hr] at e
    rw [e]
    exact decimal_of_binary m _
  near := by
    intro x y hx hy e
    by_cases hn : 2 ^ (-1022 : ℤ) ≤ y
    · rw [limRnd_normal (by rwa [abs_of_pos hy])] at e
      exact (decimal_bits (p := 53) (by norm_num)).near x y hx hy e
    · rw [limRnd_of_nonneg hy.le] at e
      unfold limPos at e
      rw [if_pos (not_le.mp hn)] at e
      have hc := nearest_close (y * 2 ^ (1074 : ℤ))
      have hpos : (0 : ℝ) < nearest (y * 2 ^ (1074 : ℤ)) := by
        by_contra hneg
        have : (nearest (y * 2 ^ (1074 : ℤ)) : ℝ) * 2 ^ (-1074 : ℤ) ≤ 0 :=
          mul_nonpos_of_nonpos_of_nonneg (not_lt.mp hneg) (by positivity)
        linarith
      have h1 : (1 : ℝ) ≤ nearest (y * 2 ^ (1074 : ℤ)) := by
        have : 0 < nearest (y * 2 ^ (1074 : ℤ)) := by exact_mod_cast hpos
        exact_mod_cast this
      have hT : (2 : ℝ) ^ (1074 : ℤ) * 2 ^ (-1074 : ℤ) = 1 := by rw [two_zpow_mul (k := 0) (by norm_num)]; simp
      have hy2 : y = y * 2 ^ (1074 : ℤ) * 2 ^ (-1074 : ℤ) := by rw [mul_assoc, hT, mul_one]
      have hpos2 : (0 : ℝ) < 2 ^ (-1074 : ℤ) := by positivity
      rw [← e]
      generalize (nearest (y * 2 ^ (1074 : ℤ)) : ℝ) = N at *
      rw [hy2]
      generalize y * 2 ^ (1074 : ℤ) = t at *
      rw [← sub_mul, abs_mul, abs_of_pos hpos2]
      apply mul_lt_mul_of_pos_right _ hpos2
      rw [abs_sub_comm]
      exact hc.trans_lt (one_half_lt_one.trans_le h1)

/-! ## Seventeen digits -/

/-- the nearest decimal number with `n` digits -/
theorem exists_digits {x : ℝ} (hx : 0 < x) {n : ℕ} (hn : 1 ≤ n) :
    ∃ (D : ℕ) (k : ℤ) (n' : ℕ), n' ≤ n ∧ 1 ≤ n' ∧ 10 ^ (n' - 1) ≤ D ∧ D < 10 ^ n' ∧
      |(D * 10 ^ k : ℝ) - x| ≤ x / (2 * 10 ^ (n - 1)) := by
  obtain ⟨i, hi1, hi2⟩ := exists_mem_Ico_zpow (y := (10 : ℝ)) hx (by norm_num)
  set k : ℤ := i - (n - 1 : ℕ) with hk
  have hkp : (0 : ℝ) < 10 ^ k := by positivity
  have e1 : (10 : ℝ) ^ i = 10 ^ (n - 1) * 10 ^ k := by
    rw [← zpow_natCast, ← zpow_add₀ (by norm_num)]; congr 1; omega
  have e2 : (10 : ℝ) ^ (i + 1) = 10 ^ n * 10 ^ k := by
    rw [← zpow_natCast, ← zpow_add₀ (by norm_num)]; congr 1; omega
  set t := x / 10 ^ k with ht
  have hxt : x = t * 10 ^ k := by rw [ht]; field_simp
  have ht1 : (10 : ℝ) ^ (n - 1) ≤ t := by rw [ht, le_div_iff₀ hkp, ← e1]; exact hi1
  have ht2 : t < 10 ^ n := by rw [ht, div_lt_iff₀ hkp, ← e2]; exact hi2
  have hc := nearest_close t
  have hN1 : (10 : ℤ) ^ (n - 1) ≤ nearest t := by
    have := nearest_mono (show (((10 : ℤ) ^ (n - 1) : ℤ) : ℝ) ≤ t by push_cast; exact ht1)
    rwa [nearest_int] at this
  have hN2 : nearest t ≤ (10 : ℤ) ^ n := by
    have := nearest_mono (show t ≤ (((10 : ℤ) ^ n : ℤ) : ℝ) by push_cast; exact ht2.le)
    rwa [nearest_int] at this
  obtain ⟨N, hN⟩ := Int.eq_ofNat_of_zero_le (le_trans (by positivity) hN1)
  rw [hN] at hN1 hN2 hc
  have hN1 : 10 ^ (n - 1) ≤ N := by exact_mod_cast hN1
  have hN2 : N ≤ 10 ^ n := by exact_mod_cast hN2
  have hclose : |(N * 10 ^ k : ℝ) - x| ≤ x / (2 * 10 ^ (n - 1)) := by
    rw [hxt, ← sub_mul, abs_mul, abs_of_pos hkp, le_div_iff₀ (by positivity)]
    have hc' : |(N : ℝ) - t| ≤ 1 / 2 := by simpa using hc
    calc |(N : ℝ) - t| * 10 ^ k * (2 * 10 ^ (n - 1)) ≤ 1 / 2 * 10 ^ k * (2 * 10 ^ (n - 1)) := by gcongr
      _ = 10 ^ (n - 1) * 10 ^ k := by ring
      _ ≤ t * 10 ^ k := by gcongr
  rcases hN2.lt_or_eq with hlt | heq
  · exact ⟨N, k, n, le_rfl, hn, hN1, hlt, hclose⟩
  · refine ⟨1, k + n, 1, hn, le_rfl, by norm_num, by norm_num, ?_⟩
    rw [heq] at hclose
    convert hclose using 3
    rw [zpow_add₀ (by norm_num), zpow_natCast]
    push_cast
    ring

/-- what is close to a number is rounded to it -/
theorem round_close {p : ℕ} (hp : 1 ≤ p) {x y : ℝ} (hx : 0 < x) (hr : roundPos p x = x)
    (h : |y - x| < x / (2 * 2 ^ p)) : roundPos p y = x := by
  obtain ⟨m, h1, h2, e⟩ := roundPos_form hx hp
  rw [hr] at e
  obtain ⟨s1, s2, -, -⟩ := scaled hx hp
  have hu := ulp_pos p x
  generalize hL : Int.log 2 x = L at *
  have hlo : (2 : ℝ) ^ L ≤ x := by
    rw [← hL]; have := Int.zpow_log_le_self (b := 2) (by norm_num) hx; exact_mod_cast this
  have hhi : x < (2 : ℝ) ^ (L + 1) := by
    rw [← hL]; have := Int.lt_zpow_succ_log_self (b := 2) (by norm_num) x; exact_mod_cast this
  have hU : ulp p x = 2 ^ (L - p + 1) := by unfold ulp; rw [hL]
  generalize hUe : ulp p x = U at *
  have hm : x / U = m := by rw [e]; field_simp
  rw [hm] at s1 s2
  have s2' : m < 2 ^ p := by exact_mod_cast s2
  set t := y / U with ht
  have hy : y = t * U := by rw [ht]; field_simp
  have hp0 : (0 : ℝ) < 2 ^ p := by positivity
  have hm1 : (1 : ℝ) ≤ m := by
    have : 1 ≤ m := le_trans (Nat.one_le_two_pow) h1
    exact_mod_cast this
  have hd : |t - m| < m / (2 * 2 ^ p) := by
    rw [hy, e, ← sub_mul, abs_mul, abs_of_pos hu, mul_div_right_comm] at h
    exact lt_of_mul_lt_mul_right h hu.le
  have hd2 : (m : ℝ) / (2 * 2 ^ p) ≤ 1 / 2 := by
    rw [div_le_iff₀ (by positivity)]
    push_cast at s2
    linarith
  have e1 : (2 : ℝ) ^ L = 2 ^ (p - 1) * U := by
    rw [hU, ← zpow_natCast, ← zpow_add₀ (by norm_num)]; congr 1; omega
  have e2 : (2 : ℝ) ^ (L + 1) = 2 ^ p * U := by
    rw [hU, ← zpow_natCast, ← zpow_add₀ (by norm_num)]; congr 1; omega
  have hab := abs_lt.mp hd
  have hmle : (m : ℝ) + 1 ≤ 2 ^ p := by exact_mod_cast s2'
  rcases le_or_gt ((2 : ℝ) ^ (p - 1)) t with hge | hlt
  · have hlog : Int.log 2 y = L := by
      apply log_eq
      · rw [e1, hy]; gcongr
      · rw [e2, hy]; exact mul_lt_mul_of_pos_right (by linarith) hu
    have hUy : ulp p y = U := by unfold ulp; rw [hlog, hU]
    unfold roundPos
    rw [hUy, ← ht, nearest_eq (n := m) (by push_cast; linarith), e]
    push_cast
    ring
  · have hmeq : m = 2 ^ (p - 1) := by
      have : (m : ℝ) < 2 ^ (p - 1) + 1 := by linarith
      have : m < 2 ^ (p - 1) + 1 := by exact_mod_cast this
      omega
    have hmr : (m : ℝ) = 2 ^ (p - 1) := by rw [hmeq]; push_cast; rfl
    have hq : (m : ℝ) / (2 * 2 ^ p) = 1 / 4 := by
      have : (2 : ℝ) ^ p = 2 * 2 ^ (p - 1) := by rw [← pow_succ']; congr 1; omega
      rw [hmr, this]
      have : (0 : ℝ) < 2 ^ (p - 1) := by positivity
      field_simp
      norm_num
    rw [hq] at hd hab
    have hlog : Int.log 2 y = L - 1 := by
      apply log_eq
      · rw [zpow_sub₀ (by norm_num), zpow_one, e1, hy, ← hmr, div_le_iff₀ (by norm_num)]
        have : (m : ℝ) ≤ t * 2 := by linarith
        calc (m : ℝ) * U ≤ t * 2 * U := by gcongr
          _ = _ := by ring
      · rw [sub_add_cancel, e1, hy]; exact mul_lt_mul_of_pos_right hlt hu
    have hUy : ulp p y = U / 2 := by
      unfold ulp
      rw [hlog, hU, show L - 1 - (p : ℤ) + 1 = (L - p + 1) - 1 by ring, zpow_sub₀ (by norm_num), zpow_one]
    unfold roundPos
    have ht2 : y / (U / 2) = 2 * t := by rw [ht]; field_simp
    rw [hUy, ht2, nearest_eq (n := 2 * m) (by
      push_cast
      rw [← mul_sub, abs_mul]
      norm_num
      linarith), e]
    push_cast
    ring

/-- the same for double precision with its limits -/
theorem lim_close {x y : ℝ} (hx : 0 < x) (hr : limPos x = x) (h : |y - x| ≤ x / (2 * 10 ^ 16)) : limPos y = x := by
  have hT : (2 : ℝ) ^ (1074 : ℤ) * 2 ^ (-1074 : ℤ) = 1 := by rw [two_zpow_mul (k := 0) (by norm_num)]; simp
  have hS : (2 : ℝ) ^ (-1022 : ℤ) = 2 ^ (52 : ℤ) * 2 ^ (-1074 : ℤ) := (two_zpow_mul (by norm_num)).symm
  have hq : (0 : ℝ) < 2 ^ (-1074 : ℤ) := by positivity
  obtain ⟨a, ha⟩ := limRnd_multiple (show limRnd x = x by rw [limRnd_of_nonneg hx.le, hr])
  have below : ∀ z : ℝ, z < 2 ^ (-1022 : ℤ) → limPos z = nearest (z * 2 ^ (1074 : ℤ)) * 2 ^ (-1074 : ℤ) :=
    fun z hz => if_pos hz
  have above : ∀ z : ℝ, ¬ z < 2 ^ (-1022 : ℤ) → limPos z = roundPos 53 z := fun z hz => if_neg hz
  have h52 : (2 : ℝ) ^ (52 : ℤ) = 4503599627370496 := by norm_num
  rw [h52] at hS
  generalize (2 : ℝ) ^ (1074 : ℤ) = T at *
  generalize (2 : ℝ) ^ (-1074 : ℤ) = q at *
  generalize (2 : ℝ) ^ (-1022 : ℤ) = S at *
  have hyt : y = y * T * q := by rw [mul_assoc, hT, mul_one]
  generalize y * T = t at hyt
  have hyT : y * T = t := by rw [hyt, mul_assoc, mul_comm q T, hT, mul_one]
  have hd : |t - a| ≤ a / (2 * 10 ^ 16) := by
    rw [hyt, ha, ← sub_mul, abs_mul, abs_of_pos hq, mul_div_right_comm] at h
    exact le_of_mul_le_mul_right h hq
  have hab := abs_le.mp hd
  by_cases hyn : y < S
  · have ht : t < 4503599627370496 := by
      rw [hyt, hS] at hyn
      exact lt_of_mul_lt_mul_right hyn hq.le
    have ha1 : (a : ℝ) < 4503599627370497 := by linarith
    have ha2 : (a : ℝ) ≤ 4503599627370496 := by
      have : a < 4503599627370497 := by exact_mod_cast ha1
      have : a ≤ 4503599627370496 := by omega
      exact_mod_cast this
    rw [below y hyn, hyT, nearest_eq (n := a) (by linarith), ha]
  · rw [above y hyn]
    have hxn : ¬ x < S := by
      intro hxn
      have ha1 : (a : ℝ) < 4503599627370496 := by
        rw [ha, hS] at hxn
        exact lt_of_mul_lt_mul_right hxn hq.le
      have ha2 : (a : ℝ) ≤ 4503599627370495 := by
        have : a < 4503599627370496 := by exact_mod_cast ha1
        have : a ≤ 4503599627370495 := by omega
        exact_mod_cast this
      have ht : 4503599627370496 ≤ t := by
        rw [not_lt, hyt, hS] at hyn
        exact le_of_mul_le_mul_right hyn hq
      linarith
    rw [above x hxn] at hr
    exact round_close (by norm_num) hx hr
      (h.trans_lt (div_lt_div_of_pos_left hx (by norm_num) (by norm_num)))

/-! ## The text of a number -/

variable {choose : ℝ → ℕ × ℤ}

/-- the decimal number chosen for a positive number, and the number of its digits -/
theorem chosen_text (hd : Decimal rnd) {x : ℝ} {q : ℕ × ℤ} (h : Chosen rnd x q.1 q.2) :
    isNumber (layout q.1 q.2) = true ∧ rnd (numberValue (layout q.1 q.2)) = x ∧
      isNumber ('-' :: layout q.1 q.2) = true ∧ rnd (numberValue ('-' :: layout q.1 q.2)) = -x := by
  obtain ⟨n, h1, -, -⟩ := h
  obtain ⟨l1, l2, -, l4⟩ := layout_spec (denotes_pos h1) q.2
  have hv : rnd ((unsignedValue (layout q.1 q.2) : ℚ) : ℝ) = x := by
    rw [l2]; push_cast; exact h1.2.2.2
  refine ⟨by rw [isNumber_of_digit l4]; exact l1, by rw [numberValue_of_digit l4]; exact hv, l1, ?_⟩
  show rnd ((-unsignedValue (layout q.1 q.2) : ℚ) : ℝ) = -x
  push_cast
  rw [hd.neg, hv]

theorem chosen_significant {x : ℝ} {q : ℕ × ℤ} {n : ℕ} (h : Denotes rnd x n q.1 q.2) :
    significantDigits (layout q.1 q.2) ≤ n ∧ significantDigits ('-' :: layout q.1 q.2) ≤ n := by
  have hp := denotes_pos h
  obtain ⟨-, -, -, l4⟩ := layout_spec hp q.2
  have h1 := layout_significant hp q.2
  rw [length_decimal h.1 h.2.1 h.2.2.1] at h1
  refine ⟨h1, ?_⟩
  have : significantDigits ('-' :: layout q.1 q.2) = significantDigits (layout q.1 q.2) := by
    unfold significantDigits
    rw [unsign_of_digit l4]
    rfl
  rwa [this]

/-- every decimal number that is read as `x` has at least as many significant digits as one that denotes its absolute
value has to have -/
theorem digits_needed (hd : Decimal rnd) {x : ℝ} (hx : x ≠ 0) {cs : List Char} (h : rnd (numberValue cs) = x) :
    ∃ D k, Denotes rnd |x| (significantDigits cs) D k := by
  have h0 : numberValue cs ≠ 0 := by
    intro e
    rw [e] at h
    push_cast at h
    rw [zero_of_decimal hd] at h
    exact hx h.symm
  obtain ⟨D, k, e, h1, h2, h3⟩ := significant_value h0
  refine ⟨D, k, h1, h2, h3, ?_⟩
  have e' : |((numberValue cs : ℚ) : ℝ)| = D * 10 ^ k := by
    have := congrArg (fun q : ℚ => (q : ℝ)) e
    push_cast at this
    exact this
  rw [← e']
  rcases le_total 0 ((numberValue cs : ℚ) : ℝ) with hs | hs
  · have := hd.mono hs
    rw [zero_of_decimal hd, h] at this
    rw [abs_of_nonneg hs, abs_of_nonneg this, h]
  · have := hd.mono hs
    rw [zero_of_decimal hd, h] at this
    rw [abs_of_nonpos hs, abs_of_nonpos this, hd.neg, h]

end FloatText

end OpenControls
