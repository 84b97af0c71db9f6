import Verif.Proofs.NoiseFamilies

/-!
# XY-concatenated sequences and noise along X and Y

As in `XYIntegral.lean`, for the operations that flip noise along any axis.
-/

namespace OpenControls

open Spec RealInst

/-- the operation that is a pulse about an axis -/
def axisOp : Axis → Int
  | .x => -1
  | .y => -2
  | .z => -3

/-- pulses flipping noise along `c` after exactly `k` units of free evolution -/
def axisFlipsAt (c : Axis) (l : List Int) (k : ℕ) : ℕ :=
  match c with
  | .x => opsAt (-2) l k + opsAt (-3) l k
  | .y => opsAt (-1) l k + opsAt (-3) l k
  | .z => opsAt (-1) l k + opsAt (-2) l k

/-- sign of an operation -/
def opSign (c : Axis) (x : Int) : ℝ :=
  if (x = -1 ∨ x = -2 ∨ x = -3) ∧ x ≠ axisOp c then -1 else 1

/-- sign during unit `j` -/
def axisWalk (c : Axis) : List Int → ℕ → ℝ
  | [], _ => 1
  | x :: l, j =>
    if x = -1 ∨ x = -2 ∨ x = -3 then opSign c x * axisWalk c l j
    else match j with
      | 0 => 1
      | j + 1 => axisWalk c l j

/-- signed number of units -/
def axisUnits (c : Axis) : List Int → ℝ
  | [] => 0
  | x :: l =>
    if x = -1 ∨ x = -2 ∨ x = -3 then opSign c x * axisUnits c l else 1 + axisUnits c l

/-- sign at the end -/
def axisEnd (c : Axis) : List Int → ℝ
  | [] => 1
  | x :: l => opSign c x * axisEnd c l

theorem axisWalk_zero (c : Axis) (l : List Int) : axisWalk c l 0 = (-1) ^ axisFlipsAt c l 0 := by
  induction l with
  | nil => cases c <;> simp [axisWalk, axisFlipsAt, opsAt]
  | cons x l ih =>
    by_cases h1 : x = -1
    · subst h1
      cases c <;> simp [axisWalk, axisFlipsAt, opsAt, opSign, axisOp, ih] <;> ring
    · by_cases h2 : x = -2
      · subst h2
        cases c <;> simp [axisWalk, axisFlipsAt, opsAt, opSign, axisOp, ih] <;> ring
      · by_cases h3 : x = -3
        · subst h3
          cases c <;> simp [axisWalk, axisFlipsAt, opsAt, opSign, axisOp, ih] <;> ring
        · cases c <;> simp [axisWalk, axisFlipsAt, opsAt, h1, h2, h3]

theorem axisWalk_succ (c : Axis) (l : List Int) (j : ℕ) :
    axisWalk c l (j + 1) = (-1) ^ axisFlipsAt c l (j + 1) * axisWalk c l j := by
  induction l generalizing j with
  | nil => cases c <;> simp [axisWalk, axisFlipsAt, opsAt]
  | cons x l ih =>
    have h0 := axisWalk_zero c l
    by_cases hx : x = -1 ∨ x = -2 ∨ x = -3
    · have e : axisFlipsAt c (x :: l) (j + 1) = axisFlipsAt c l (j + 1) := by
        cases c <;> simp [axisFlipsAt, opsAt, hx]
      rw [e]
      simp only [axisWalk, if_pos hx, ih]
      ring
    · have e : axisFlipsAt c (x :: l) (j + 1) = axisFlipsAt c l j := by
        cases c <;> simp [axisFlipsAt, opsAt, hx]
      rw [e]
      cases j with
      | zero => simp [axisWalk, hx, h0]
      | succ j => simp only [axisWalk, if_neg hx, ih]

theorem sum_axisWalk (c : Axis) (l : List Int) (N : ℕ) (h : freeUnits l ≤ N) :
    ∑ j ∈ Finset.range N, axisWalk c l j =
      axisUnits c l + ((N : ℝ) - freeUnits l) * axisEnd c l := by
  induction l generalizing N with
  | nil => simp [axisWalk, axisUnits, axisEnd, freeUnits]
  | cons x l ih =>
    rw [freeUnits_cons] at h ⊢
    by_cases hx : x = -1 ∨ x = -2 ∨ x = -3
    · simp only [if_pos hx, zero_add] at h ⊢
      simp only [axisWalk, axisUnits, axisEnd, if_pos hx]
      rw [← Finset.mul_sum, ih N h]
      ring
    · simp only [if_neg hx] at h ⊢
      obtain ⟨M, rfl⟩ : ∃ M, N = M + 1 := ⟨N - 1, by omega⟩
      rw [Finset.sum_range_succ']
      have ho : opSign c x = 1 := by simp [opSign, hx]
      simp only [axisWalk, axisUnits, axisEnd, if_neg hx, ho, one_mul]
      rw [ih M (by omega)]
      push_cast; ring

theorem axisEnd_append (c : Axis) (a b : List Int) :
    axisEnd c (a ++ b) = axisEnd c a * axisEnd c b := by
  induction a with
  | nil => simp [axisEnd]
  | cons x a ih => simp only [List.cons_append, axisEnd, ih]; ring

theorem axisUnits_append (c : Axis) (a b : List Int) :
    axisUnits c (a ++ b) = axisUnits c a + axisEnd c a * axisUnits c b := by
  induction a with
  | nil => simp [axisEnd, axisUnits]
  | cons x a ih =>
    simp only [List.cons_append, axisEnd, axisUnits, ih]
    by_cases hx : x = -1 ∨ x = -2 ∨ x = -3
    · simp only [if_pos hx]; ring
    · have ho : opSign c x = 1 := by simp [opSign, hx]
      simp only [if_neg hx, ho]; ring

theorem axisEnd_sq (c : Axis) (a : List Int) : axisEnd c a * axisEnd c a = 1 := by
  induction a with
  | nil => simp [axisEnd]
  | cons x a ih =>
    have ho : opSign c x * opSign c x = 1 := by unfold opSign; split <;> norm_num
    simp only [axisEnd]
    linear_combination axisEnd c a * axisEnd c a * ho + ih

/-! ## The table -/

theorem axisFlips_count (c : Axis) (l : List (ℝ × Axis)) (t : ℝ) :
    (axisFlips c l).count t = match c with
      | .x => l.count (t, .y) + l.count (t, .z)
      | .y => l.count (t, .x) + l.count (t, .z)
      | .z => l.count (t, .x) + l.count (t, .y) := by
  unfold axisFlips
  induction l with
  | nil => cases c <;> simp
  | cons p l ih =>
    obtain ⟨s, a⟩ := p
    cases c <;> cases a <;> simp_all [List.count_cons] <;> ring

theorem xyTable_axisFlips (c : Axis) {T : ℝ} (hT : 0 < T) (n : ℕ) {k : ℕ} (hk : 1 ≤ k) :
    (-1 : ℝ) ^ (axisFlips c (xyTable T (n + 1))).count ((k : ℝ) * (T / 4 ^ (n + 1))) =
      (-1) ^ axisFlipsAt c (concatenationXY (n + 1)) k := by
  have hu : 0 < T / 4 ^ (n + 1) := by positivity
  have hnd := xyTable_nodup hT n
  have parity : ∀ (a : Axis) (m : ℕ),
      (((k : ℝ) * (T / 4 ^ (n + 1)), a) ∈ xyTable T (n + 1) ↔ Odd m) →
      (-1 : ℝ) ^ (xyTable T (n + 1)).count ((k : ℝ) * (T / 4 ^ (n + 1)), a) = (-1) ^ m := by
    intro a m h
    by_cases hm : ((k : ℝ) * (T / 4 ^ (n + 1)), a) ∈ xyTable T (n + 1)
    · rw [List.count_eq_one_of_mem hnd hm, (h.mp hm).neg_one_pow, pow_one]
    · rw [List.count_eq_zero.mpr hm, (Nat.not_odd_iff_even.mp (mt h.mpr hm)).neg_one_pow, pow_zero]
  have px := parity .x (opsAt (-1) (concatenationXY (n + 1)) k) (by
    rw [mem_xyTable hT, pow_two_mul, kind_at (by simp [IsKind]) hu _ hk]
    simp)
  have py := parity .y (opsAt (-2) (concatenationXY (n + 1)) k) (by
    rw [mem_xyTable hT, pow_two_mul]
    simp only [reduceCtorEq, false_and, true_and, false_or, or_false]
    exact kind_at (by simp [IsKind]) hu _ hk)
  have pz := parity .z (opsAt (-3) (concatenationXY (n + 1)) k) (by
    rw [mem_xyTable hT, pow_two_mul]
    simp only [reduceCtorEq, false_and, true_and, false_or]
    exact kind_at (by simp [IsKind]) hu _ hk)
  rw [axisFlips_count]
  cases c <;> simp only [axisFlipsAt, pow_add (-1 : ℝ), px, py, pz]

theorem xyTable_axis_grid (c : Axis) {T : ℝ} (hT : 0 < T) (n : ℕ) {t : ℝ}
    (ht : t ∈ axisFlips c (xyTable T (n + 1))) : ∃ k : ℕ, 0 < k ∧ t = k * (T / 4 ^ (n + 1)) := by
  unfold axisFlips at ht
  obtain ⟨p, hp, rfl⟩ := List.mem_map.mp ht
  obtain ⟨k, h0, -, e⟩ := xyTable_units hT n (List.mem_of_mem_filter hp)
  rw [pow_two_mul] at e
  exact ⟨k, h0, e⟩

theorem gridSign_axisWalk (c : Axis) {T : ℝ} (hT : 0 < T) (n : ℕ) (j : ℕ) :
    gridSign (T / 4 ^ (n + 1)) (axisFlips c (xyTable T (n + 1))) j =
      axisWalk c (concatenationXY (n + 1)) j := by
  have hu : 0 < T / 4 ^ (n + 1) := by positivity
  induction j with
  | zero =>
    have h1 : axisWalk c (concatenationXY (n + 1)) 0 = 1 := by
      have hh := (concatenationXY_head n).1
      cases hc : concatenationXY (n + 1) with
      | nil => rfl
      | cons x l =>
        rw [hc] at hh
        simp only [List.head?_cons, Option.some.injEq] at hh
        subst hh
        simp [axisWalk]
    rw [h1]
    unfold gridSign switching
    rw [List.countP_eq_zero.mpr, pow_zero]
    intro t ht
    obtain ⟨k, h0, rfl⟩ := xyTable_axis_grid c hT n ht
    have : (1 : ℝ) ≤ k := by exact_mod_cast h0
    simp only [decide_eq_true_eq, not_lt, Nat.cast_zero, zero_add]
    nlinarith
  | succ j ih =>
    rw [gridSign_succ hu (fun t ht => (xyTable_axis_grid c hT n ht).imp fun _ h => h.2) j,
      xyTable_axisFlips c hT n (by omega), ih, axisWalk_succ]

theorem xy_axis_integral (c : Axis) {T : ℝ} (hT : 0 < T) (n : ℕ) :
    ∫ t in 0..T, switching (axisFlips c (xyTable T (n + 1))) t =
      T / 4 ^ (n + 1) * (axisUnits c (concatenationXY (n + 1)) +
        (4 ^ (n + 1) - freeUnits (concatenationXY (n + 1))) *
          axisEnd c (concatenationXY (n + 1))) := by
  have hu : 0 < T / 4 ^ (n + 1) := by positivity
  have hend : ((4 ^ (n + 1) : ℕ) : ℝ) * (T / 4 ^ (n + 1)) = T := by push_cast; field_simp
  have := integral_grid hu (fun t ht => (xyTable_axis_grid c hT n ht).imp fun _ h => h.2)
    (4 ^ (n + 1))
  rw [hend] at this
  rw [this]
  simp only [gridSign_axisWalk c hT]
  rw [sum_axisWalk _ _ _ (freeUnits_le n)]
  push_cast
  rfl

/-- Even orders: what noise along X or Y leaves. -/
theorem xy_axis_even {c : Axis} (hc : c ≠ .z) {T : ℝ} (hT : 0 < T) (k : ℕ) :
    ∫ t in 0..T, switching (axisFlips c (xyTable T (2 * k + 2))) t = T * (1 - 1 / 16 ^ k) / 20 := by
  have hz : opSign c (-3) = -1 := by cases c <;> simp_all [opSign, axisOp]
  have he := concatenationXY_ends (2 * k)
  rw [if_pos (by omega)] at he
  obtain ⟨q, hq⟩ := he
  obtain ⟨b, hb⟩ : ∃ b, concatenationXY (2 * k + 1) = b ++ [-2] :=
    ⟨q ++ [1, -1, 1], by rw [hq]; simp⟩
  have hsh := concatenationXY_after_y hb
  have e3 : axisEnd c [-3] = -1 := by simp [axisEnd, hz]
  have u3 : axisUnits c [-3] = 0 := by simp [axisUnits]
  have hsq := axisEnd_sq c b
  have hU : axisUnits c (concatenationXY (2 * k + 2)) = 0 := by
    rw [hsh]
    simp only [axisUnits_append, axisEnd_append, e3, u3]
    linear_combination (axisEnd c b - 1) * axisUnits c b * hsq
  have hE : axisEnd c (concatenationXY (2 * k + 2)) = 1 := by
    rw [hsh]
    simp only [axisEnd_append, e3]
    linear_combination (axisEnd c b * axisEnd c b + 1) * hsq
  rw [xy_axis_integral c hT (2 * k + 1), hU, hE, (concatenationXY_totals_even k).1]
  have e : (4 : ℝ) ^ (2 * k + 1 + 1) = 16 * 16 ^ k := by
    rw [show 2 * k + 1 + 1 = 2 * (k + 1) by ring, pow_mul, pow_succ]; norm_num; ring
  rw [e]
  field_simp
  ring

/-- Order one cancels noise along every axis. -/
theorem xy_axis_one (c : Axis) {T : ℝ} (hT : 0 < T) :
    ∫ t in 0..T, switching (axisFlips c (xyTable T 1)) t = 0 := by
  have hu : freeUnits (concatenationXY 1) = 4 := by decide
  rw [xy_axis_integral c hT 0, hu]
  cases c <;> norm_num [concatenationXY, axisUnits, opSign, axisOp]

end OpenControls
