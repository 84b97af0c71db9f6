import Verif.Proofs.FiniteWidthCount
import Verif.Proofs.EndToEnd

/-!
# Signed counts of the pulses of the predefined sequences
-/

namespace OpenControls

open Spec RealInst

variable {T R D m : ℝ}

theorem centreOf_inside {p : ℝ × Axis} (h0 : 0 < p.1) (hT : p.1 < T) : centreOf T R D m p = p := by
  unfold centreOf
  have h1 : (tablePulse p).offset ≠ 0 := h0.ne'
  have h2 : (tablePulse p).offset ≠ T := hT.ne
  unfold window
  rw [if_neg h1, if_neg h2]
  ext
  · show (p.1 - _ + (p.1 + _)) / 2 = p.1
    ring
  · rfl

theorem centres_inside {l : List (ℝ × Axis)} (h : ∀ p ∈ l, 0 < p.1 ∧ p.1 < T) :
    l.map (centreOf T R D m) = l := by
  conv_rhs => rw [← List.map_id l]
  apply List.map_congr_left
  intro p hp
  exact centreOf_inside (h p hp).1 (h p hp).2

/-! ### Pulses about one axis -/

theorem crossSum_same {a b : Axis} (hab : b ≠ a) (ts : List ℝ) :
    crossSum a b (onAxis a ts) = if Even ts.length then 0 else 1 := by
  induction ts with
  | nil => simp [onAxis, crossSum]
  | cons t r ih =>
    have e : onAxis a (t :: r) = (t, a) :: onAxis a r := rfl
    rw [e, crossSum, ih]
    simp only [if_true, axisSign, hab, if_false, List.length_cons, Nat.even_add_one]
    by_cases h : Even r.length <;> simp [h]

theorem crossSum_other {a b : Axis} (hab : b ≠ a) (c : Axis) (ts : List ℝ) :
    crossSum a c (onAxis b ts) = 0 := by
  induction ts with
  | nil => rfl
  | cons t r ih =>
    have e : onAxis b (t :: r) = (t, b) :: onAxis b r := rfl
    rw [e, crossSum, ih]
    simp [hab]

theorem crossSum_append (a c : Axis) (l r : List (ℝ × Axis)) (h : ∀ p ∈ l, p.2 ≠ a) :
    crossSum a c (l ++ r) = (l.map fun p => axisSign c p.2).prod * crossSum a c r := by
  induction l with
  | nil => simp
  | cons p l ih =>
    rw [List.cons_append, crossSum, ih fun q hq => h q (List.mem_cons_of_mem _ hq),
      if_neg (h p List.mem_cons_self), List.map_cons, List.prod_cons]
    ring

theorem crossSum_zero {a c : Axis} {l : List (ℝ × Axis)} (h : ∀ p ∈ l, p.2 ≠ a) :
    crossSum a c l = 0 := by
  have := crossSum_append a c l [] h
  rw [List.append_nil] at this
  rw [this, crossSum, mul_zero]

/-! ### Quadratic sequences -/

theorem crossSum_quadratic (n : ℕ) (T a : ℝ) (l : List ℝ) :
    crossSum .x .y (quadraticTable n T a l) =
      if Even n then (if Even l.length then 0 else 1) else -(l.length : ℝ) := by
  have hz : ∀ ts : List ℝ, ∀ p ∈ onAxis .z ts, p.2 ≠ .x := by
    intro ts p hp
    obtain ⟨t, -, rfl⟩ := List.mem_map.mp hp
    simp
  induction l generalizing a with
  | nil =>
    rw [quadraticTable, crossSum_zero (hz _)]
    simp
  | cons b r ih =>
    rw [quadraticTable, crossSum_append _ _ _ _ (hz _), crossSum, ih]
    have hp : ∀ ts : List ℝ, ((onAxis .z ts).map fun p => axisSign .y p.2).prod =
        (-1) ^ ts.length := by
      intro ts
      simp [onAxis, axisSign, Function.comp_def]
    rw [hp]
    have hl : ((uhrigTimes (b - a) n).map (a + ·)).length = n := by simp [uhrigTimes]
    rw [hl]
    simp only [if_true, axisSign, List.length_cons, Nat.even_add_one]
    by_cases hn : Even n
    · rw [hn.neg_one_pow]
      by_cases h : Even r.length <;> simp [hn, h]
    · rw [(Nat.not_even_iff_odd.mp hn).neg_one_pow]
      simp [hn]
      ring

/-! ### Walsh sequences -/

theorem cellSign_last {k : ℕ} (hk : k ≠ 0) :
    cellSign k (2 ^ (Nat.log2 k + 1) - 1) = (-1) ^ (Nat.digits 2 k).sum := by
  rw [← orderBits_count hk]
  unfold cellSign orderBits
  have e : ∀ j ∈ Finset.range (Nat.log2 k + 1),
      (if k.testBit j then (-1 : ℝ) ^ ((2 ^ (Nat.log2 k + 1) - 1) / 2 ^ (Nat.log2 k - j)) else 1) =
        if k.testBit j then -1 else 1 := by
    intro j hj
    have hj' := Finset.mem_range.mp hj
    have hp : (2 ^ (Nat.log2 k + 1) - 1) / 2 ^ (Nat.log2 k - j) = 2 ^ (j + 1) - 1 := by
      have e : 2 ^ (Nat.log2 k + 1) = 2 ^ (Nat.log2 k - j) * 2 ^ (j + 1) := by
        rw [← pow_add]; congr 1; omega
      have h1 : 0 < 2 ^ (Nat.log2 k - j) := by positivity
      have h2 : 0 < 2 ^ (j + 1) := by positivity
      rw [e]
      apply Nat.div_eq_of_lt_le
      · rw [Nat.sub_mul, mul_comm, one_mul]; omega
      · rw [Nat.sub_add_cancel h2, mul_comm]
        have : 0 < 2 ^ (j + 1) * 2 ^ (Nat.log2 k - j) := by positivity
        omega
    have ho : Odd (2 ^ (j + 1) - 1) := by
      have h2 : 0 < 2 ^ j := by positivity
      exact ⟨2 ^ j - 1, by rw [pow_succ]; omega⟩
    rw [hp, ho.neg_one_pow]
  rw [Finset.prod_congr rfl e]
  generalize Nat.log2 k + 1 = n
  induction n with
  | zero => simp
  | succ n ih =>
    rw [Finset.prod_range_succ, ih, List.range_succ, List.map_append, List.count_append, pow_add]
    congr 1
    rw [List.map_singleton]
    cases k.testBit n <;> simp

theorem walsh_parity (T : ℝ) {k : ℕ} (hk : k ≠ 0) :
    Even (walshTimes T k).length ↔ Even (Nat.digits 2 k).sum := by
  have h := walsh_count_sign k (2 ^ (Nat.log2 k + 1) - 1)
  rw [cellSign_last hk, List.countP_eq_length_filter] at h
  have hl : (walshTimes T k).length = ((List.range' 0 (2 ^ (Nat.log2 k + 1) - 1)).filter
      fun i => decide (cellSign k i ≠ cellSign k (i + 1))).length := by
    simp [walshTimes]
  rw [hl]
  generalize ((List.range' 0 (2 ^ (Nat.log2 k + 1) - 1)).filter
      fun i => decide (cellSign k i ≠ cellSign k (i + 1))).length = u at h
  rw [← neg_one_pow_eq_one_iff_even (R := ℝ) (by norm_num), h,
    neg_one_pow_eq_one_iff_even (R := ℝ) (by norm_num)]

theorem ones_digits (l : ℕ) : (Nat.digits 2 (2 ^ (l + 1) - 1)).sum = l + 1 := by
  have h : 2 ^ (l + 1) - 1 ≠ 0 := by
    have := Nat.one_lt_two_pow (n := l + 1) (by omega); omega
  rw [← orderBits_count h, orderBits_ones]

/-! ### XY-concatenated sequences -/

theorem xyTable_of_units (hT : 0 < T) {n : ℕ}
    (hS : Simplifies (xyTable T n) (xyRecursion n T)) (units : List (ℕ × Axis))
    (hs : units.Pairwise fun p q => p.1 < q.1) (hb : ∀ p ∈ units, p.1 ≤ 4 ^ n)
    (hm : ∀ k ≤ 4 ^ n, (((k, .x) ∈ units ↔ netUnits (xyUnits n) k .x = true) ∧
      ((k, .y) ∈ units ↔ netUnits (xyUnits n) k .y = true)) ∧
      ((k, .z) ∈ units ↔ netUnits (xyUnits n) k .z = true)) :
    xyTable T n = units.map fun p => ((p.1 : ℝ) * (T / 4 ^ n), p.2) := by
  have hu : 0 < T / 4 ^ n := by positivity
  have h1 : (xyTable T n).Pairwise fun p q => p.1 < q.1 := by
    have := hS.1
    rwa [List.pairwise_map] at this
  have h2 : (units.map fun p => ((p.1 : ℝ) * (T / 4 ^ n), p.2)).Pairwise
      fun p q : ℝ × Axis => p.1 < q.1 := by
    rw [List.pairwise_map]
    refine hs.imp ?_
    intro p q h
    have : (p.1 : ℝ) < q.1 := by exact_mod_cast h
    exact mul_lt_mul_of_pos_right this hu
  refine List.Perm.eq_of_pairwise ?_ h1 h2 ?_
  · intro p q _ _ ha hb; exact absurd ha (not_lt.mpr hb.le)
  · rw [List.perm_ext_iff_of_nodup (h1.imp fun h e => by rw [e] at h; exact lt_irrefl _ h)
      (h2.imp fun h e => by rw [e] at h; exact lt_irrefl _ h)]
    rintro ⟨t, a⟩
    rw [hS.2, List.mem_map]
    constructor
    · intro h
      obtain ⟨k, hk, rfl⟩ := netPulse_is_unit h
      refine ⟨(k, a), ?_, rfl⟩
      have := (netPulse_units hT _ _ _).mp h
      have hk' := hm k hk
      cases a with
      | x => exact hk'.1.1.mpr this
      | y => exact hk'.1.2.mpr this
      | z => exact hk'.2.mpr this
    · rintro ⟨⟨k, b⟩, hp, he⟩
      simp only [Prod.mk.injEq] at he
      obtain ⟨rfl, rfl⟩ := he
      have hk' := hm k (hb _ hp)
      refine (netPulse_units hT _ _ _).mpr ?_
      cases b with
      | x => exact hk'.1.1.mp hp
      | y => exact hk'.1.2.mp hp
      | z => exact hk'.2.mp hp

theorem xyTable_one (hT : 0 < T) : xyTable T 1 =
    [(1, .x), (2, .y), (3, .x), (4, .y)].map fun p : ℕ × Axis => ((p.1 : ℝ) * (T / 4 ^ 1), p.2) := by
  apply xyTable_of_units hT (xy_order_one hT) <;> decide

set_option maxRecDepth 4000 in
theorem xyTable_two (hT : 0 < T) : xyTable T 2 =
    [(1, .x), (2, .y), (3, .x), (4, .z), (5, .x), (6, .y), (7, .x), (9, .x), (10, .y), (11, .x),
      (12, .z), (13, .x), (14, .y), (15, .x)].map
      fun p : ℕ × Axis => ((p.1 : ℝ) * (T / 4 ^ 2), p.2) := by
  apply xyTable_of_units hT (xy_order_two hT) <;> decide

end OpenControls
