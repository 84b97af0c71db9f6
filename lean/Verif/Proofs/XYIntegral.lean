import Verif.Proofs.Moments

/-!
# The net dephasing of XY-concatenated sequences

The raw list of operations is followed unit by unit; its signed sum satisfies a recursion over the order.
-/

namespace OpenControls

open Spec RealInst

/-! ## Following the operations -/

/-- pulses of kind `op` after exactly `k` units of free evolution -/
def opsAt (op : Int) : List Int → ℕ → ℕ
  | [], _ => 0
  | x :: c, k =>
    if x = -1 ∨ x = -2 ∨ x = -3 then (if x = op ∧ k = 0 then 1 else 0) + opsAt op c k
    else match k with
      | 0 => 0
      | k + 1 => opsAt op c k

/-- X and Y pulses after exactly `k` units of free evolution -/
def flipsAt (c : List Int) (k : ℕ) : ℕ := opsAt (-1) c k + opsAt (-2) c k

/-- sign during unit `j` -/
def walkSign : List Int → ℕ → ℝ
  | [], _ => 1
  | x :: c, j =>
    if x = -1 ∨ x = -2 then -walkSign c j
    else if x = -3 then walkSign c j
    else match j with
      | 0 => 1
      | j + 1 => walkSign c j

/-- signed number of units -/
def signedUnits : List Int → ℝ
  | [] => 0
  | x :: c =>
    if x = -1 ∨ x = -2 then -signedUnits c
    else if x = -3 then signedUnits c
    else 1 + signedUnits c

/-- sign at the end -/
def endSign : List Int → ℝ
  | [] => 1
  | x :: c => if x = -1 ∨ x = -2 then -endSign c else endSign c

theorem walkSign_zero (c : List Int) : walkSign c 0 = (-1) ^ flipsAt c 0 := by
  induction c with
  | nil => simp [walkSign, flipsAt, opsAt]
  | cons x c ih =>
    simp only [flipsAt] at ih
    by_cases h1 : x = -1
    · subst h1; simp [walkSign, flipsAt, opsAt, ih]; ring
    · by_cases h2 : x = -2
      · subst h2; simp [walkSign, flipsAt, opsAt, ih]; ring
      · by_cases h3 : x = -3
        · subst h3; simp [walkSign, flipsAt, opsAt, ih]
        · simp [walkSign, flipsAt, opsAt, h1, h2, h3]

theorem walkSign_succ (c : List Int) (j : ℕ) :
    walkSign c (j + 1) = (-1) ^ flipsAt c (j + 1) * walkSign c j := by
  induction c generalizing j with
  | nil => simp [walkSign, flipsAt, opsAt]
  | cons x c ih =>
    have h0 := walkSign_zero c
    simp only [flipsAt] at ih h0
    by_cases h1 : x = -1
    · subst h1; simp [walkSign, flipsAt, opsAt, ih]
    · by_cases h2 : x = -2
      · subst h2; simp [walkSign, flipsAt, opsAt, ih]
      · by_cases h3 : x = -3
        · subst h3; simp [walkSign, flipsAt, opsAt, ih]
        · cases j with
          | zero => simp [walkSign, flipsAt, opsAt, h1, h2, h3, h0]
          | succ j => simp [walkSign, flipsAt, opsAt, h1, h2, h3, ih]

theorem freeUnits_cons (x : Int) (c : List Int) : freeUnits (x :: c) =
    (if x = -1 ∨ x = -2 ∨ x = -3 then 0 else 1) + freeUnits c := by
  unfold freeUnits
  rw [List.countP_cons, add_comm]
  congr 1
  by_cases h1 : x = -1
  · simp [h1]
  · by_cases h2 : x = -2
    · simp [h2]
    · by_cases h3 : x = -3
      · simp [h3]
      · simp [h1, h2, h3]

theorem sum_walkSign (c : List Int) (N : ℕ) (h : freeUnits c ≤ N) :
    ∑ j ∈ Finset.range N, walkSign c j =
      signedUnits c + ((N : ℝ) - freeUnits c) * endSign c := by
  induction c generalizing N with
  | nil => simp [walkSign, signedUnits, endSign, freeUnits]
  | cons x c ih =>
    rw [freeUnits_cons] at h ⊢
    by_cases h1 : x = -1
    · subst h1; simp [walkSign, signedUnits, endSign, ih N (by simpa using h)]; ring
    · by_cases h2 : x = -2
      · subst h2; simp [walkSign, signedUnits, endSign, ih N (by simpa using h)]; ring
      · by_cases h3 : x = -3
        · subst h3; simp [walkSign, signedUnits, endSign, ih N (by simpa using h)]
        · simp only [h1, h2, h3, or_self, if_false] at h ⊢
          obtain ⟨M, rfl⟩ : ∃ M, N = M + 1 := ⟨N - 1, by omega⟩
          rw [Finset.sum_range_succ']
          simp only [walkSign, signedUnits, endSign, h1, h2, h3, or_self, if_false]
          rw [ih M (by omega)]
          push_cast; ring

theorem endSign_append (a b : List Int) : endSign (a ++ b) = endSign a * endSign b := by
  induction a with
  | nil => simp [endSign]
  | cons x a ih =>
    simp only [List.cons_append, endSign, ih]
    split <;> ring

theorem signedUnits_append (a b : List Int) :
    signedUnits (a ++ b) = signedUnits a + endSign a * signedUnits b := by
  induction a with
  | nil => simp [endSign, signedUnits]
  | cons x a ih =>
    simp only [List.cons_append, endSign, signedUnits, ih]
    split
    · ring
    · split <;> ring

theorem endSign_sq (a : List Int) : endSign a * endSign a = 1 := by
  induction a with
  | nil => simp [endSign]
  | cons x a ih =>
    simp only [endSign]
    split <;> linarith

/-! ## The recursion over the order -/

theorem setLast_concat (a : List Int) (x v : Int) : setLast (a ++ [x]) v = a ++ [v] := by
  cases a with
  | nil => rfl
  | cons y a =>
    change ((y :: a) ++ [x]).dropLast ++ [v] = _
    rw [List.dropLast_concat]

/-- Shape of the next order after a list that ends with a Y-pulse. -/
theorem concatenationXY_after_y {n : ℕ} {b : List Int} (h : concatenationXY (n + 1) = b ++ [-2]) :
    concatenationXY (n + 2) = b ++ [-3] ++ b ++ b ++ [-3] ++ b := by
  have e1 : b ++ [-3] ++ (b ++ [-2]) = b ++ [-3] ++ b ++ [-2] := by simp
  have e2 : b ++ [-3] ++ b ++ (b ++ [-2]) = b ++ [-3] ++ b ++ b ++ [-2] := by simp
  have e3 : b ++ [-3] ++ b ++ b ++ [-3] ++ (b ++ [-2]) =
    b ++ [-3] ++ b ++ b ++ [-3] ++ b ++ [-2] := by simp
  simp only [concatenationXY, h, List.dropLast_concat, setLast_concat, e1, e2, e3]
  rw [if_pos ⟨List.getLast?_concat, List.getLast?_concat⟩]

/-- Shape of the next order after a list that ends with free evolution. -/
theorem concatenationXY_after_free {n : ℕ} {d : List Int} (h : concatenationXY (n + 1) = d ++ [1]) :
    concatenationXY (n + 2) = d ++ [-3] ++ d ++ d ++ [-3] ++ d ++ [1] ++ [-2] := by
  have e1 : d ++ [-3] ++ (d ++ [1]) = d ++ [-3] ++ d ++ [1] := by simp
  have e2 : d ++ [-3] ++ d ++ (d ++ [1]) = d ++ [-3] ++ d ++ d ++ [1] := by simp
  have e3 : d ++ [-3] ++ d ++ d ++ [-3] ++ (d ++ [1]) =
    d ++ [-3] ++ d ++ d ++ [-3] ++ d ++ [1] := by simp
  simp only [concatenationXY, h, List.dropLast_concat, setLast_concat, e1, e2, e3]
  rw [if_neg (fun h => by rw [List.getLast?_concat, List.getLast?_concat] at h; simp at h)]

/-- units, signed units and end sign of a list -/
def Totals (c : List Int) (u s p : ℝ) : Prop :=
  (freeUnits c : ℝ) = u ∧ signedUnits c = s ∧ endSign c = p

theorem concatenationXY_even_totals {n : ℕ} (hn : n % 2 = 0) {u s p : ℝ}
    (h : Totals (concatenationXY (n + 1)) u s p) :
    Totals (concatenationXY (n + 2)) (4 * u) (s * (2 - 2 * p)) 1 := by
  have he := concatenationXY_ends n
  rw [if_pos hn] at he
  obtain ⟨q, hq⟩ := he
  obtain ⟨b, hb⟩ : ∃ b, concatenationXY (n + 1) = b ++ [-2] := ⟨q ++ [1, -1, 1], by rw [hq]; simp⟩
  rw [concatenationXY_after_y hb]
  rw [hb] at h
  obtain ⟨h1, h2, h3⟩ := h
  have hz : freeUnits [-2] = 0 := by decide
  have hz3 : freeUnits [-3] = 0 := by decide
  have e2 : endSign [-2] = -1 := by simp [endSign]
  have e3 : endSign [-3] = 1 := by simp [endSign]
  have s2 : signedUnits [-2] = 0 := by simp [signedUnits]
  have s3 : signedUnits [-3] = 0 := by simp [signedUnits]
  rw [freeUnits_append, hz] at h1
  rw [signedUnits_append, s2] at h2
  rw [endSign_append, e2] at h3
  have hsq := endSign_sq b
  refine ⟨?_, ?_, ?_⟩
  · simp only [freeUnits_append, hz3]; rw [← h1]; push_cast; ring
  · simp only [signedUnits_append, endSign_append, e3, s3]
    rw [← h2, ← h3]
    linear_combination (signedUnits b + endSign b * signedUnits b) * hsq
  · simp only [endSign_append, e3]
    linear_combination (endSign b * endSign b + 1) * hsq

theorem concatenationXY_odd_totals {n : ℕ} (hn : n % 2 = 1) {u s : ℝ}
    (h : Totals (concatenationXY (n + 1)) u s 1) :
    Totals (concatenationXY (n + 2)) (4 * u - 3) (4 * s - 3) (-1) := by
  have he := concatenationXY_ends n
  rw [if_neg (by omega)] at he
  obtain ⟨q, hq⟩ := he
  obtain ⟨b, hb⟩ : ∃ b, concatenationXY (n + 1) = b ++ [1] := ⟨q ++ [1, -1], by rw [hq]; simp⟩
  rw [concatenationXY_after_free hb]
  rw [hb] at h
  obtain ⟨h1, h2, h3⟩ := h
  have hz : freeUnits [-2] = 0 := by decide
  have hz3 : freeUnits [-3] = 0 := by decide
  have hz1 : freeUnits [1] = 1 := by decide
  have e1 : endSign [1] = 1 := by simp [endSign]
  have e2 : endSign [-2] = -1 := by simp [endSign]
  have e3 : endSign [-3] = 1 := by simp [endSign]
  have s1 : signedUnits [1] = 1 := by simp [signedUnits]
  have s2 : signedUnits [-2] = 0 := by simp [signedUnits]
  have s3 : signedUnits [-3] = 0 := by simp [signedUnits]
  rw [freeUnits_append, hz1] at h1
  rw [endSign_append, e1, mul_one] at h3
  rw [signedUnits_append, s1, h3] at h2
  refine ⟨?_, ?_, ?_⟩
  · simp only [freeUnits_append, hz3, hz1, hz]; rw [← h1]; push_cast; ring
  · simp only [signedUnits_append, endSign_append, e3, s3, e1, s1, s2, h3]
    rw [← h2]; ring
  · simp only [endSign_append, e1, e2, e3, h3]; ring

theorem concatenationXY_totals_odd (k : ℕ) :
    Totals (concatenationXY (2 * k + 1)) (4 ^ (2 * k + 1) - (16 ^ k - 1) / 5) (-((16 ^ k - 1) / 5))
      (if k = 0 then 1 else -1) := by
  induction k with
  | zero =>
    have hu : freeUnits (concatenationXY 1) = 4 := by decide
    refine ⟨by simp [hu], ?_, ?_⟩
    · simp [concatenationXY, signedUnits]
    · simp [concatenationXY, endSign]
  | succ k ih =>
    have h2 := concatenationXY_odd_totals (n := 2 * k + 1) (by omega)
      (concatenationXY_even_totals (n := 2 * k) (by omega) ih)
    have e : 2 * (k + 1) + 1 = 2 * k + 1 + 2 := by ring
    rw [e]
    convert h2 using 1
    · ring
    · split
      · rename_i h; subst h; norm_num
      · ring
    · simp

theorem concatenationXY_totals_even (k : ℕ) :
    Totals (concatenationXY (2 * k + 2)) (4 ^ (2 * k + 2) - 4 * ((16 ^ k - 1) / 5))
      (-(4 * ((16 ^ k - 1) / 5))) 1 := by
  have h := concatenationXY_even_totals (n := 2 * k) (by omega) (concatenationXY_totals_odd k)
  convert h using 1
  · ring
  · split
    · rename_i h; subst h; norm_num
    · ring

/-! ## The table and the operations -/

/-- times of a kind, counted after `a` units -/
theorem count_cumsum {op other other' : Int} (hk : IsKind op other other') (c : List Int) (a k : ℕ) :
    (Py.cumsumFrom a (((c.filter fun c => c != other).filter fun c => c != other').map
      fun c => if c != op then 1 else 0)).count (a + k) =
      opsAt op c k + if 1 ≤ k ∧ k ≤ freeUnits c then 1 else 0 := by
  unfold IsKind at hk
  simp only [List.mem_cons, Prod.mk.injEq, List.not_mem_nil, or_false] at hk
  induction c generalizing a k with
  | nil => simp [Py.cumsumFrom, opsAt, freeUnits]; omega
  | cons x c ih =>
    have hlow : ∀ v ∈ Py.cumsumFrom (a + 1) (((c.filter fun c => c != other).filter
      fun c => c != other').map fun c => if c != op then 1 else 0), a + 1 ≤ v :=
      fun v hv => (cumsumFrom_bounds _ _ v hv).1
    by_cases hp : x = -1 ∨ x = -2 ∨ x = -3
    · have hfree : freeUnits (x :: c) = freeUnits c := by rw [freeUnits_cons, if_pos hp, zero_add]
      rw [hfree]
      simp only [opsAt, if_pos hp]
      by_cases hx : x = op
      · have hkeep : ((x :: c).filter fun c => c != other).filter (fun c => c != other') =
            x :: (c.filter fun c => c != other).filter fun c => c != other' := by
          rcases hk with ⟨rfl, rfl, rfl⟩ | ⟨rfl, rfl, rfl⟩ | ⟨rfl, rfl, rfl⟩ <;> subst hx <;> rfl
        rw [hkeep]
        simp only [List.map_cons, hx, bne_self_eq_false, Bool.false_eq_true, if_false,
          Py.cumsumFrom, add_zero, List.count_cons, ih, true_and]
        by_cases h0 : k = 0
        · subst h0; simp; ring
        · simp [h0]
      · have hdrop : ((x :: c).filter fun c => c != other).filter (fun c => c != other') =
            (c.filter fun c => c != other).filter fun c => c != other' := by
          rcases hk with ⟨rfl, rfl, rfl⟩ | ⟨rfl, rfl, rfl⟩ | ⟨rfl, rfl, rfl⟩ <;>
            rcases hp with rfl | rfl | rfl <;> first | rfl | exact absurd rfl hx
        rw [hdrop, ih]
        simp [hx]
    · have hfree : freeUnits (x :: c) = 1 + freeUnits c := by rw [freeUnits_cons, if_neg hp]
      rw [hfree]
      push Not at hp
      have hkeep : ((x :: c).filter fun c => c != other).filter (fun c => c != other') =
            x :: (c.filter fun c => c != other).filter fun c => c != other' := by
        rcases hk with ⟨rfl, rfl, rfl⟩ | ⟨rfl, rfl, rfl⟩ | ⟨rfl, rfl, rfl⟩ <;> simp [hp]
      have hne : x ≠ op := by
        rcases hk with ⟨rfl, rfl, rfl⟩ | ⟨rfl, rfl, rfl⟩ | ⟨rfl, rfl, rfl⟩ <;> simp [hp]
      rw [hkeep]
      simp only [List.map_cons, bne_iff_ne, ne_eq, hne, not_false_eq_true, if_true, Py.cumsumFrom,
        List.count_cons, opsAt, hp, or_self, if_false]
      cases k with
      | zero =>
        rw [List.count_eq_zero.mpr]
        · simp
        · intro hm
          have := hlow _ (by simpa using hm)
          omega
      | succ k =>
        have e : a + (k + 1) = a + 1 + k := by ring
        rw [e]
        have := ih (a + 1) k
        simp only [bne_iff_ne, ne_eq] at this
        rw [this]
        simp only
        by_cases h0 : k = 0
        · subst h0; simp
        · have e1 : (a + 1 == a + 1 + k) = false := by simp [h0]
          have e2 : (1 ≤ k ∧ k ≤ freeUnits c) ↔ (1 ≤ k + 1 ∧ k + 1 ≤ 1 + freeUnits c) := by omega
          rw [e1]; simp only [e2]; simp

theorem opsAt_beyond {op : Int} (c : List Int) {k : ℕ} (h : freeUnits c < k) : opsAt op c k = 0 := by
  induction c generalizing k with
  | nil => rfl
  | cons x c ih =>
    rw [freeUnits_cons] at h
    simp only [opsAt]
    split
    · rename_i hp
      rw [if_pos hp] at h
      rw [ih (by omega), if_neg (by omega)]
    · rename_i hp
      rw [if_neg hp] at h
      cases k with
      | zero => rfl
      | succ k => exact ih (by omega)

/-- A pulse of a kind sits at unit `k ≥ 1` of the table exactly if an odd number of such operations is there. -/
theorem kind_at {op other other' : Int} (hk : IsKind op other other') {u : ℝ} (hu : 0 < u)
    (c : List Int) {k : ℕ} (h1 : 1 ≤ k) :
    ((k : ℝ) * u ∈ xyOffsetsOf u op other other' c) ↔ Odd (opsAt op c k) := by
  have hcount : (unitTimes op other other' c).count k =
      opsAt op c k + if 1 ≤ k ∧ k ≤ freeUnits c then 1 else 0 := by
    have := count_cumsum hk c 0 k
    rw [zero_add] at this
    exact this
  rw [mem_xyOffsetsOf hu]
  constructor
  · rintro ⟨k', hk', hev, e⟩
    obtain rfl : k = k' := scaled_injective hu e
    have hle := unitTimes_le hk c k hk'
    rw [hcount, if_pos ⟨h1, hle⟩] at hev
    rwa [Nat.even_add_one, Nat.not_even_iff_odd] at hev
  · intro hodd
    have hle : k ≤ freeUnits c := by
      by_contra hgt
      rw [opsAt_beyond c (not_le.mp hgt)] at hodd
      simp at hodd
    rw [if_pos ⟨h1, hle⟩] at hcount
    refine ⟨k, ?_, ?_, rfl⟩
    · rw [← List.count_pos_iff, hcount]; omega
    · rw [hcount]; exact hodd.add_one

theorem flipTimes_count (l : List (ℝ × Axis)) (t : ℝ) :
    (flipTimes l).count t = l.count (t, .x) + l.count (t, .y) := by
  unfold flipTimes
  induction l with
  | nil => simp
  | cons p l ih =>
    obtain ⟨s, a⟩ := p
    cases a <;> simp_all [List.count_cons] <;> ring

theorem xyTable_flips {T : ℝ} (hT : 0 < T) (n : ℕ) {k : ℕ} (hk : 1 ≤ k) :
    (-1 : ℝ) ^ (flipTimes (xyTable T (n + 1))).count ((k : ℝ) * (T / 4 ^ (n + 1))) =
      (-1) ^ flipsAt (concatenationXY (n + 1)) k := by
  have hu : 0 < T / 4 ^ (n + 1) := by positivity
  have hnd := xyTable_nodup hT n
  have parity : ∀ (a : Axis) (m : ℕ),
      (((k : ℝ) * (T / 4 ^ (n + 1)), a) ∈ xyTable T (n + 1) ↔ Odd m) →
      (-1 : ℝ) ^ (xyTable T (n + 1)).count ((k : ℝ) * (T / 4 ^ (n + 1)), a) = (-1) ^ m := by
    intro a m h
    by_cases hm : ((k : ℝ) * (T / 4 ^ (n + 1)), a) ∈ xyTable T (n + 1)
    · rw [List.count_eq_one_of_mem hnd hm, (h.mp hm).neg_one_pow, pow_one]
    · rw [List.count_eq_zero.mpr hm, (Nat.not_odd_iff_even.mp (mt h.mpr hm)).neg_one_pow, pow_zero]
  rw [flipTimes_count, flipsAt, pow_add (-1 : ℝ), pow_add (-1 : ℝ)]
  congr 1
  · apply parity
    rw [mem_xyTable hT, pow_two_mul, kind_at (by simp [IsKind]) hu _ hk]
    simp
  · apply parity
    rw [mem_xyTable hT, pow_two_mul]
    simp only [reduceCtorEq, false_and, true_and, false_or, or_false]
    exact kind_at (by simp [IsKind]) hu _ hk

theorem xyTable_on_grid {T : ℝ} (hT : 0 < T) (n : ℕ) {t : ℝ}
    (ht : t ∈ flipTimes (xyTable T (n + 1))) : ∃ k : ℕ, 0 < k ∧ t = k * (T / 4 ^ (n + 1)) := by
  unfold flipTimes at ht
  obtain ⟨p, hp, rfl⟩ := List.mem_map.mp ht
  obtain ⟨k, h0, -, e⟩ := xyTable_units hT n (List.mem_of_mem_filter hp)
  rw [pow_two_mul] at e
  exact ⟨k, h0, e⟩

theorem gridSign_walk {T : ℝ} (hT : 0 < T) (n : ℕ) (j : ℕ) :
    gridSign (T / 4 ^ (n + 1)) (flipTimes (xyTable T (n + 1))) j =
      walkSign (concatenationXY (n + 1)) j := by
  have hu : 0 < T / 4 ^ (n + 1) := by positivity
  induction j with
  | zero =>
    have h1 : walkSign (concatenationXY (n + 1)) 0 = 1 := by
      have hh := (concatenationXY_head n).1
      cases hc : concatenationXY (n + 1) with
      | nil => rfl
      | cons x c =>
        rw [hc] at hh
        simp only [List.head?_cons, Option.some.injEq] at hh
        subst hh
        simp [walkSign]
    rw [h1]
    unfold gridSign switching
    rw [List.countP_eq_zero.mpr, pow_zero]
    intro t ht
    obtain ⟨k, h0, rfl⟩ := xyTable_on_grid hT n ht
    have : (1 : ℝ) ≤ k := by exact_mod_cast h0
    simp only [decide_eq_true_eq, not_lt, Nat.cast_zero, zero_add]
    nlinarith
  | succ j ih =>
    rw [gridSign_succ hu (fun t ht => (xyTable_on_grid hT n ht).imp fun _ h => h.2) j,
      xyTable_flips hT n (by omega), ih, walkSign_succ]

theorem xy_integral {T : ℝ} (hT : 0 < T) (n : ℕ) {u s p : ℝ}
    (h : Totals (concatenationXY (n + 1)) u s p) :
    ∫ t in 0..T, switching (flipTimes (xyTable T (n + 1))) t =
      T / 4 ^ (n + 1) * (s + (4 ^ (n + 1) - u) * p) := by
  have hu : 0 < T / 4 ^ (n + 1) := by positivity
  have hend : ((4 ^ (n + 1) : ℕ) : ℝ) * (T / 4 ^ (n + 1)) = T := by push_cast; field_simp
  have := integral_grid hu (fun t ht => (xyTable_on_grid hT n ht).imp fun _ h => h.2)
    (4 ^ (n + 1))
  rw [hend] at this
  rw [this]
  simp only [gridSign_walk hT]
  rw [sum_walkSign _ _ (freeUnits_le n), h.1, h.2.1, h.2.2]
  push_cast
  rfl

/-- Even orders refocus. -/
theorem xy_integral_even {T : ℝ} (hT : 0 < T) (k : ℕ) :
    ∫ t in 0..T, switching (flipTimes (xyTable T (2 * k + 2))) t = 0 := by
  rw [xy_integral hT (2 * k + 1) (concatenationXY_totals_even k)]
  ring

/-- Odd orders miss by a fraction of the duration, none for order one. -/
theorem xy_integral_odd {T : ℝ} (hT : 0 < T) (k : ℕ) :
    ∫ t in 0..T, switching (flipTimes (xyTable T (2 * k + 1))) t = -(T * (1 - 1 / 16 ^ k) / 10) := by
  rw [xy_integral hT (2 * k) (concatenationXY_totals_odd k)]
  have e : (4 : ℝ) ^ (2 * k + 1) = 4 * 16 ^ k := by
    rw [pow_succ, pow_mul]; norm_num; ring
  rw [e]
  split
  · rename_i h; subst h; norm_num
  · field_simp; ring

end OpenControls
