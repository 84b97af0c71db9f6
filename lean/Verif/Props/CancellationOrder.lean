import Verif.Proofs.XYMoment
import Verif.Props.Moments

/-!
# C72: the exact order of cancellation of dephasing
-/

namespace OpenControls

open Spec RealInst

/-- **C72.** Every predefined sequence cancels dephasing noise exactly to the claimed order: the sensitivity is
orthogonal to `1, t, …, t^(m-1)` and not to `t^m`, where `m` is 0 for Ramsey, 1 for spin echo, 1 or 2 for
Carr-Purcell and CPMG with an odd or even number of pulses, 0 or 1 for periodic sequences with an even or odd
number, the number of pulses for Uhrig and of outer pulses for quadratic sequences, the number of binary ones in
the order of a Walsh sequence, the level for X-concatenated ones, and for XY-concatenated ones 1, 2, and from
then on 0 for odd and 1 for even levels. -/
theorem C72_cancellation_order (family : Family) (T : ℝ) (prePost : Bool) (name : Option String)
    (s : Sequence ℝ) (hs : family.call T prePost name = .ok s) :
    CancelsExactly s family.cancellationOrder := by
  obtain ⟨⟨hT, hv⟩, hw⟩ := (C43_well_formed family T prePost name).ok hs
  unfold CancelsExactly
  rw [hw.1]
  rw [Family.call_eq hv hT] at hs
  injection hs with hs
  subst hs
  simp only [sensitivity_finished]
  have hcp : ∀ n : ℕ, n ≠ 0 → (∀ k < (if Even n then 2 else 1),
        ∫ t in 0..T, switching (cpmgTimes T n) t * t ^ k = 0) ∧
      ∫ t in 0..T, switching (cpmgTimes T n) t * t ^ (if Even n then 2 else 1) ≠ 0 := by
    intro n hn
    have h0 : ∫ t in 0..T, switching (cpmgTimes T n) t * t ^ 0 = 0 := by
      simpa using cpmg_refocus hT hn
    by_cases he : Even n
    · rw [if_pos he]
      refine ⟨fun k hk => ?_, (cpmg_moments_even hT he hn).2⟩
      rcases (show k = 0 ∨ k = 1 by omega) with rfl | rfl
      · exact h0
      · simpa using (cpmg_moments_even hT he hn).1
    · rw [if_neg he]
      refine ⟨fun k hk => ?_, by simpa using cpmg_moments_odd hT (Nat.not_even_iff_odd.mp he)⟩
      obtain rfl : k = 0 := by omega
      exact h0
  have huhrig : ∀ n : ℕ, (∀ k < n, ∫ t in 0..T, switching (uhrigTimes T n) t * t ^ k = 0) ∧
      ∫ t in 0..T, switching (uhrigTimes T n) t * t ^ n ≠ 0 :=
    fun n => ⟨fun k hk => uhrig_moment hT hk, uhrig_moment_ne hT n⟩
  have hwalsh : ∀ k m : ℕ, k ≠ 0 → (orderBits k).count true = m →
      (∀ j < m, ∫ t in 0..T, switching (walshTimes T k) t * t ^ j = 0) ∧
      ∫ t in 0..T, switching (walshTimes T k) t * t ^ m ≠ 0 := by
    rintro k m hk rfl
    refine ⟨fun j hj => by rw [walsh_moment hT hk, walshMoment_zero _ _ hj, mul_zero], ?_⟩
    rw [walsh_moment hT hk, walshMoment_first]
    exact mul_ne_zero (by positivity) (firstMoment_ne _)
  cases family with
  | ramsey =>
    have : switching (flipTimes (Family.table .ramsey T)) = fun _ => 1 := by
      funext t; simp [Family.table, flipTimes, switching]
    simp [Family.cancellationOrder, this, hT.ne']
  | spinEcho =>
    have : flipTimes (Family.table .spinEcho T) = cpmgTimes T 1 := by
      have : flipTimes (Family.table .spinEcho T) = [T / 2] := by simp [Family.table, flipTimes]
      rw [this]
      norm_num [cpmgTimes]
      ring
    rw [this]
    simpa [Family.cancellationOrder] using hcp 1 one_ne_zero
  | carrPurcell n =>
    simp only [Family.table, flipTimes_onAxis_x]
    exact hcp _ (Nat.floor_pos.mpr hv).ne'
  | cpmg n =>
    simp only [Family.table, flipTimes_onAxis_y]
    exact hcp _ (Nat.floor_pos.mpr hv).ne'
  | uhrig n =>
    simp only [Family.table, flipTimes_onAxis_y]
    exact huhrig _
  | periodic n =>
    simp only [Family.table, flipTimes_onAxis_x, Family.cancellationOrder]
    by_cases he : Even ⌊n⌋₊
    · rw [if_pos he]
      refine ⟨fun k hk => absurd hk (by omega), ?_⟩
      simp only [pow_zero, mul_one]
      rw [periodic_even hT he]
      positivity
    · rw [if_neg he]
      have ho := Nat.not_even_iff_odd.mp he
      refine ⟨fun k hk => ?_, by simpa using periodic_moment_odd hT ho⟩
      obtain rfl : k = 0 := by omega
      simpa using periodic_refocus hT ho
  | walsh k =>
    simp only [Family.table, flipTimes_onAxis_x]
    have hk := (Nat.floor_pos.mpr hv.1).ne'
    exact hwalsh _ _ hk (orderBits_count hk)
  | quadratic n m =>
    simp only [Family.table, flipTimes_quadratic]
    exact huhrig _
  | xConcatenated l =>
    simp only [Family.table, flipTimes_onAxis_x, Family.cancellationOrder]
    have hl := (Nat.floor_pos.mpr hv).ne'
    obtain ⟨j, hj⟩ : ∃ j, ⌊l⌋₊ = j + 1 := ⟨⌊l⌋₊ - 1, by omega⟩
    rw [hj, ← walsh_ones hT]
    exact hwalsh _ _ (by have := Nat.one_lt_two_pow (n := j + 1) (by omega); omega) (orderBits_ones j)
  | xyConcatenated l =>
    have hl : ⌊l⌋₊ ≠ 0 := (Nat.floor_pos.mpr (show (1 : ℝ) ≤ l from hv)).ne'
    simp only [Family.table, Family.cancellationOrder]
    generalize ⌊l⌋₊ = m at hl
    rcases Nat.even_or_odd m with he | ho
    · obtain ⟨k, rfl⟩ : ∃ k, m = 2 * k + 2 := ⟨m / 2 - 1, by obtain ⟨r, rfl⟩ := he; omega⟩
      have h0 := xy_integral_even hT k
      have h1 := xy_first_even hT k
      rw [if_neg (by omega)]
      by_cases hk : k = 0
      · subst hk
        rw [if_pos rfl]
        refine ⟨fun j hj => ?_, ?_⟩
        · rcases (show j = 0 ∨ j = 1 by omega) with rfl | rfl
          · simpa using h0
          · rw [h1]; norm_num
        · rw [xy_second_two hT]; positivity
      · rw [if_neg (by omega), if_pos he]
        refine ⟨fun j hj => ?_, ?_⟩
        · obtain rfl : j = 0 := by omega
          simpa using h0
        · rw [h1]
          have h16 : (1 : ℝ) < 16 ^ k := one_lt_pow₀ (by norm_num) hk
          have : (1 : ℝ) / 16 ^ k < 1 := by rw [div_lt_one (by positivity)]; exact h16
          have : 0 < 1 - (1 : ℝ) / 16 ^ k := by linarith
          positivity
    · obtain ⟨k, rfl⟩ := ho
      have h0 := xy_integral_odd hT k
      by_cases hk : k = 0
      · subst hk
        rw [if_pos (by norm_num)]
        refine ⟨fun j hj => ?_, ?_⟩
        · obtain rfl : j = 0 := by omega
          simpa using h0
        · simp only [mul_zero, zero_add]
          rw [xy_first_one hT]
          have : 0 < T ^ 2 / 8 := by positivity
          linarith
      · rw [if_neg (by omega), if_neg (by omega), if_neg (by
          rw [Nat.not_even_iff_odd]; exact ⟨k, rfl⟩)]
        refine ⟨fun j hj => absurd hj (by omega), ?_⟩
        simp only [pow_zero, mul_one]
        rw [h0]
        have h16 : (1 : ℝ) < 16 ^ k := one_lt_pow₀ (by norm_num) hk
        have : (1 : ℝ) / 16 ^ k < 1 := by rw [div_lt_one (by positivity)]; exact h16
        have : 0 < 1 - (1 : ℝ) / 16 ^ k := by linarith
        have : 0 < T * (1 - 1 / 16 ^ k) / 10 := by positivity
        linarith

/-- **C72**, the size of what an XY-concatenated sequence of even level `2k+2` leaves in first order. -/
theorem C72_xy_even (T level : ℝ) (k : ℕ) (hk : ⌊level⌋₊ = 2 * k + 2) (prePost : Bool)
    (name : Option String) (s : Sequence ℝ) (hs : newXYConcatenatedSequence T level prePost name = .ok s) :
    ∫ t in 0..T, sensitivity s t * t = T ^ 2 * (1 - 1 / 16 ^ k) / 40 := by
  have hs' : Family.call (.xyConcatenated level) T prePost name = .ok s := hs
  obtain ⟨⟨hT, hv⟩, -⟩ := (C43_well_formed (.xyConcatenated level) T prePost name).ok hs'
  rw [Family.call_eq hv hT] at hs'
  injection hs' with hs'
  subst hs'
  simp only [sensitivity_finished, Family.table, hk]
  simpa using xy_first_even hT k

/-- the hypotheses are met: a Walsh sequence of order 2000 exists and cancels exactly to order six, and
an XY-concatenated one of level four to order one -/
example : (∃ s, newWalshSequence (1 : ℝ) 2000 false none = .ok s ∧ CancelsExactly s 6) ∧
    ∃ s, newXYConcatenatedSequence (1 : ℝ) 4 true none = .ok s ∧ CancelsExactly s 1 := by
  obtain ⟨s, hs, -⟩ := (C43_well_formed (.walsh 2000) 1 false none).1
    ⟨by norm_num, show (1 : ℝ) ≤ 2000 ∧ (2000 : ℝ) ≤ 2000 by norm_num⟩
  obtain ⟨s', hs', -⟩ := (C43_well_formed (.xyConcatenated 4) 1 true none).1
    ⟨by norm_num, show (1 : ℝ) ≤ 4 by norm_num⟩
  have h4 : ⌊(4 : ℝ)⌋₊ = 4 := by norm_num
  have hw := C72_cancellation_order (.walsh 2000) 1 false none s hs
  have hxy := C72_cancellation_order (.xyConcatenated 4) 1 true none s' hs'
  have e1 : Family.cancellationOrder (.walsh 2000) = 6 := by
    simp [Family.cancellationOrder]
  have e2 : Family.cancellationOrder (.xyConcatenated 4) = 1 := by
    simp only [Family.cancellationOrder, h4]; decide
  rw [e1] at hw
  rw [e2] at hxy
  exact ⟨⟨s, hs, hw⟩, s', hs', hxy⟩

end OpenControls
