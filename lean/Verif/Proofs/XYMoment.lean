import Verif.Proofs.XYIntegral
import Verif.Proofs.MomentOrder

/-!
# Moments of XY-concatenated sequences
-/

namespace OpenControls

open Spec RealInst

/-- signed sum of the middles of the units -/
noncomputable def unitMoment : List Int → ℝ
  | [] => 0
  | x :: c =>
    if x = -1 ∨ x = -2 then -unitMoment c
    else if x = -3 then unitMoment c
    else 1 / 2 + (unitMoment c + signedUnits c)

theorem unitMoment_append (a b : List Int) : unitMoment (a ++ b) =
    unitMoment a + endSign a * (unitMoment b + freeUnits a * signedUnits b) := by
  induction a with
  | nil => simp [endSign, unitMoment, freeUnits]
  | cons x a ih =>
    rw [freeUnits_cons]
    by_cases h1 : x = -1
    · subst h1; simp [unitMoment, endSign, ih]; ring
    · by_cases h2 : x = -2
      · subst h2; simp [unitMoment, endSign, ih]; ring
      · by_cases h3 : x = -3
        · subst h3; simp [unitMoment, endSign, ih]
        · simp [unitMoment, endSign, h1, h2, h3, ih, signedUnits_append]; ring

theorem sum_walkSign_moment (c : List Int) (N : ℕ) (h : freeUnits c ≤ N) :
    ∑ j ∈ Finset.range N, walkSign c j * ((2 * j + 1) / 2) =
      unitMoment c + ((N : ℝ) ^ 2 - (freeUnits c : ℝ) ^ 2) / 2 * endSign c := by
  induction c generalizing N with
  | nil =>
    simp only [walkSign, unitMoment, endSign, freeUnits, one_mul]
    clear h
    induction N with
    | zero => simp
    | succ N ih => rw [Finset.sum_range_succ, ih]; simp; ring
  | cons x c ih =>
    rw [freeUnits_cons] at h ⊢
    by_cases h1 : x = -1
    · subst h1
      have := ih N (by simpa using h)
      simp [walkSign, unitMoment, endSign, this]; ring
    · by_cases h2 : x = -2
      · subst h2
        have := ih N (by simpa using h)
        simp [walkSign, unitMoment, endSign, this]; ring
      · by_cases h3 : x = -3
        · subst h3
          have := ih N (by simpa using h)
          simp [walkSign, unitMoment, endSign, this]
        · simp only [h1, h2, h3, or_self, if_false] at h ⊢
          obtain ⟨M, rfl⟩ : ∃ M, N = M + 1 := ⟨N - 1, by omega⟩
          rw [Finset.sum_range_succ']
          simp only [walkSign, unitMoment, endSign, h1, h2, h3, or_self, if_false]
          have hs := sum_walkSign c M (by omega)
          have hm := ih M (by omega)
          have e : ∑ j ∈ Finset.range M, walkSign c j * ((2 * ((j + 1 : ℕ) : ℝ) + 1) / 2) =
              ∑ j ∈ Finset.range M, walkSign c j * ((2 * j + 1) / 2) +
                ∑ j ∈ Finset.range M, walkSign c j := by
            rw [← Finset.sum_add_distrib]
            apply Finset.sum_congr rfl
            intro j _
            push_cast; ring
          rw [e, hm, hs]
          push_cast; ring

theorem unitMoment_even_step {n : ℕ} (hn : n % 2 = 0) {u s : ℝ}
    (h : Totals (concatenationXY (n + 1)) u s (-1))
    (hm : unitMoment (concatenationXY (n + 1)) = u * s / 2) :
    unitMoment (concatenationXY (n + 2)) = (4 * u) * (4 * s) / 2 := by
  have he := concatenationXY_ends n
  rw [if_pos hn] at he
  obtain ⟨q, hq⟩ := he
  obtain ⟨b, hb⟩ : ∃ b, concatenationXY (n + 1) = b ++ [-2] := ⟨q ++ [1, -1, 1], by rw [hq]; simp⟩
  rw [concatenationXY_after_y hb]
  rw [hb] at h hm
  obtain ⟨h1, h2, h3⟩ := h
  have hz : freeUnits [-2] = 0 := by decide
  have hz3 : freeUnits [-3] = 0 := by decide
  have e2 : endSign [-2] = -1 := by simp [endSign]
  have e3 : endSign [-3] = 1 := by simp [endSign]
  have s2 : signedUnits [-2] = 0 := by simp [signedUnits]
  have s3 : signedUnits [-3] = 0 := by simp [signedUnits]
  have m2 : unitMoment [-2] = 0 := by simp [unitMoment]
  have m3 : unitMoment [-3] = 0 := by simp [unitMoment]
  rw [freeUnits_append, hz, add_zero] at h1
  rw [signedUnits_append, s2, mul_zero, add_zero] at h2
  rw [endSign_append, e2] at h3
  have h3' : endSign b = 1 := by linarith
  rw [unitMoment_append, m2, s2, mul_zero, add_zero, mul_zero, add_zero] at hm
  simp only [unitMoment_append, endSign_append, freeUnits_append, hz3, e3, s3, m3,
    h3', hm, h2]
  push_cast
  rw [h1]
  ring

theorem unitMoment_odd_step {n : ℕ} (hn : n % 2 = 1) {u s : ℝ}
    (h : Totals (concatenationXY (n + 1)) u s 1)
    (hm : unitMoment (concatenationXY (n + 1)) = u * s / 2) :
    unitMoment (concatenationXY (n + 2)) = (4 * u - 3) * (4 * s - 3) / 2 := by
  have he := concatenationXY_ends n
  rw [if_neg (by omega)] at he
  obtain ⟨q, hq⟩ := he
  obtain ⟨b, hb⟩ : ∃ b, concatenationXY (n + 1) = b ++ [1] := ⟨q ++ [1, -1], by rw [hq]; simp⟩
  rw [concatenationXY_after_free hb]
  rw [hb] at h hm
  obtain ⟨h1, h2, h3⟩ := h
  have hz : freeUnits [-2] = 0 := by decide
  have hz3 : freeUnits [-3] = 0 := by decide
  have hz1 : freeUnits [1] = 1 := by decide
  have e1 : endSign [1] = 1 := by simp [endSign]
  have e3 : endSign [-3] = 1 := by simp [endSign]
  have s1 : signedUnits [1] = 1 := by simp [signedUnits]
  have s2 : signedUnits [-2] = 0 := by simp [signedUnits]
  have s3 : signedUnits [-3] = 0 := by simp [signedUnits]
  have m1 : unitMoment [1] = 1 / 2 := by simp [unitMoment, signedUnits]
  have m2 : unitMoment [-2] = 0 := by simp [unitMoment]
  have m3 : unitMoment [-3] = 0 := by simp [unitMoment]
  rw [freeUnits_append, hz1] at h1
  rw [endSign_append, e1, mul_one] at h3
  rw [signedUnits_append, s1, h3] at h2
  rw [unitMoment_append, m1, s1, h3] at hm
  push_cast at h1
  have h1' : (freeUnits b : ℝ) = u - 1 := by linarith
  have h2' : signedUnits b = s - 1 := by linarith
  have hm' : unitMoment b = u * s / 2 - (1 / 2 + (u - 1)) := by rw [h1'] at hm; linarith
  simp only [unitMoment_append, endSign_append, freeUnits_append, hz3, hz1, e3, s3,
    m3, e1, s1, m1, m2, s2, h3]
  push_cast
  rw [h1', h2', hm']
  ring

theorem concatenationXY_moment (k : ℕ) :
    unitMoment (concatenationXY (2 * k + 2)) =
      (4 ^ (2 * k + 2) - 4 * ((16 ^ k - 1) / 5)) * (-(4 * ((16 ^ k - 1) / 5))) / 2 := by
  induction k with
  | zero => simp [concatenationXY, setLast, unitMoment, signedUnits]; norm_num
  | succ k ih =>
    have ho := concatenationXY_totals_odd (k + 1)
    rw [if_neg (by omega)] at ho
    have hm := unitMoment_odd_step (n := 2 * k + 1) (by omega) (concatenationXY_totals_even k) ih
    have e : 2 * (k + 1) + 1 = 2 * k + 1 + 2 := by ring
    have hm' : unitMoment (concatenationXY (2 * (k + 1) + 1)) =
        (4 ^ (2 * (k + 1) + 1) - (16 ^ (k + 1) - 1) / 5) * (-((16 ^ (k + 1) - 1) / 5)) / 2 := by
      rw [e, hm]
      ring
    rw [unitMoment_even_step (n := 2 * (k + 1)) (by omega) ho hm']
    ring

/-- The moments over the grid of an XY-concatenated sequence. -/
theorem xy_moment {T : ℝ} (hT : 0 < T) (n k : ℕ) :
    ∫ t in 0..T, switching (flipTimes (xyTable T (n + 1))) t * t ^ k =
      (T / 4 ^ (n + 1)) ^ (k + 1) * ∑ j ∈ Finset.range (4 ^ (n + 1)),
        walkSign (concatenationXY (n + 1)) j * ((((j : ℝ) + 1) ^ (k + 1) - (j : ℝ) ^ (k + 1)) / (k + 1)) := by
  have hu : 0 < T / 4 ^ (n + 1) := by positivity
  have hend : ((4 ^ (n + 1) : ℕ) : ℝ) * (T / 4 ^ (n + 1)) = T := by push_cast; field_simp
  have := integral_grid_mul hu (fun t ht => (xyTable_on_grid hT n ht).imp fun _ h => h.2)
    (hasDerivAt_power k) (continuous_pow k) (4 ^ (n + 1))
  rw [hend] at this
  rw [this, Finset.mul_sum]
  apply Finset.sum_congr rfl
  intro j _
  rw [gridSign_walk hT, mul_pow, mul_pow]
  push_cast
  ring

theorem xy_first {T : ℝ} (hT : 0 < T) (n : ℕ) {u s p : ℝ}
    (h : Totals (concatenationXY (n + 1)) u s p) :
    ∫ t in 0..T, switching (flipTimes (xyTable T (n + 1))) t * t ^ 1 =
      (T / 4 ^ (n + 1)) ^ 2 * (unitMoment (concatenationXY (n + 1)) +
        ((4 ^ (n + 1)) ^ 2 - u ^ 2) / 2 * p) := by
  rw [xy_moment hT n 1]
  have e : ∀ j : ℕ, (((j : ℝ) + 1) ^ (1 + 1) - (j : ℝ) ^ (1 + 1)) / ((1 : ℕ) + 1) = (2 * j + 1) / 2 := by
    intro j; push_cast; ring
  simp only [e]
  rw [sum_walkSign_moment _ _ (freeUnits_le n), h.1, h.2.2]
  push_cast
  rfl

/-- First moment of the even orders. -/
theorem xy_first_even {T : ℝ} (hT : 0 < T) (k : ℕ) :
    ∫ t in 0..T, switching (flipTimes (xyTable T (2 * k + 2))) t * t ^ 1 =
      T ^ 2 * (1 - 1 / 16 ^ k) / 40 := by
  rw [xy_first hT (2 * k + 1) (concatenationXY_totals_even k), concatenationXY_moment]
  have e : (4 : ℝ) ^ (2 * k + 1 + 1) = 16 * 16 ^ k := by
    rw [show 2 * k + 1 + 1 = 2 * (k + 1) by ring, pow_mul]; norm_num; ring
  rw [e]
  field_simp
  ring

/-- First moment of order one. -/
theorem xy_first_one {T : ℝ} (hT : 0 < T) :
    ∫ t in 0..T, switching (flipTimes (xyTable T 1)) t * t ^ 1 = -(T ^ 2 / 8) := by
  rw [xy_first hT 0 (concatenationXY_totals_odd 0)]
  have : unitMoment (concatenationXY (0 + 1)) = -2 := by
    simp [concatenationXY, unitMoment, signedUnits]; norm_num
  rw [this]
  norm_num
  ring

/-- Second moment of order two. -/
theorem xy_second_two {T : ℝ} (hT : 0 < T) :
    ∫ t in 0..T, switching (flipTimes (xyTable T 2)) t * t ^ 2 = T ^ 3 / 128 := by
  rw [xy_moment hT 1 2]
  have hl : concatenationXY (1 + 1) =
      [1, -1, 1, -2, 1, -1, 1, -3, 1, -1, 1, -2, 1, -1, 1, 1, -1, 1, -2, 1, -1, 1, -3, 1, -1, 1, -2, 1,
        -1, 1] := by decide
  rw [hl]
  norm_num [Finset.sum_range_succ, walkSign]
  ring

end OpenControls
