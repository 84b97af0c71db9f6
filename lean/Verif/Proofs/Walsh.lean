import Verif.Proofs.Sequences
import Mathlib.Data.Nat.Digits.Lemmas

/-!
# The Walsh sequence
-/

namespace OpenControls

open Spec RealInst

/-- The sign of the Walsh function on the `i`-th of `2^m` cells, `m` the number of binary digits. -/
def cellSign (k i : ℕ) : ℝ :=
  ∏ j ∈ Finset.range (Nat.log2 k + 1), if k.testBit j then (-1) ^ (i / 2 ^ (Nat.log2 k - j)) else 1

theorem cellSign_sq (k i : ℕ) : cellSign k i * cellSign k i = 1 := by
  unfold cellSign
  rw [← Finset.prod_mul_distrib]
  apply Finset.prod_eq_one
  intro j _
  split
  · rw [← pow_add, ← two_mul, pow_mul]; simp
  · simp

theorem cellSign_zero (k : ℕ) : cellSign k 0 = 1 := by
  unfold cellSign
  apply Finset.prod_eq_one
  intro j _
  simp

theorem cellSign_cases (k i : ℕ) : cellSign k i = 1 ∨ cellSign k i = -1 :=
  mul_self_eq_one_iff.mp (cellSign_sq k i)

theorem sign_sin_of_mem {y : ℝ} {q : ℕ} (h1 : (q : ℝ) < y) (h2 : y < q + 1) :
    Real.sign (Real.sin (Real.pi * y)) = (-1) ^ q := by
  have e : Real.pi * y = Real.pi * (y - q) + q * Real.pi := by ring
  rw [e, Real.sin_add_nat_mul_pi]
  have hs : 0 < Real.sin (Real.pi * (y - q)) := by
    apply Real.sin_pos_of_pos_of_lt_pi
    · exact mul_pos Real.pi_pos (by linarith)
    · nlinarith [Real.pi_pos]
  rcases neg_one_pow_eq_or ℝ q with h | h
  · rw [h, one_mul, Real.sign_of_pos hs]
  · rw [h, neg_one_mul, Real.sign_of_neg (by linarith)]

/-- On a cell the Walsh function is constant. -/
theorem paley_cell {k i : ℕ} {x : ℝ} (h1 : (i : ℝ) / 2 ^ (Nat.log2 k + 1) < x)
    (h2 : x < ((i : ℝ) + 1) / 2 ^ (Nat.log2 k + 1)) : paley k x = cellSign k i := by
  unfold paley cellSign
  apply Finset.prod_congr rfl
  intro j hj
  rw [Finset.mem_range] at hj
  split
  · rename_i hb
    set r := Nat.log2 k - j with hr
    have hm : Nat.log2 k + 1 = (j + 1) + r := by omega
    rw [hm, pow_add] at h1 h2
    have hq : i / 2 ^ r * 2 ^ r ≤ i := Nat.div_mul_le_self i _
    have hq' : i + 1 ≤ (i / 2 ^ r + 1) * 2 ^ r := by
      have := Nat.lt_mul_div_succ i (show 0 < 2 ^ r by positivity)
      rw [mul_comm] at this
      exact this
    have hqr : ((i / 2 ^ r : ℕ) : ℝ) * 2 ^ r ≤ i := by exact_mod_cast hq
    have hqr' : (i : ℝ) + 1 ≤ (((i / 2 ^ r : ℕ) : ℝ) + 1) * 2 ^ r := by exact_mod_cast hq'
    have p1 : (0 : ℝ) < 2 ^ (j + 1) := by positivity
    have p2 : (0 : ℝ) < 2 ^ r := by positivity
    rw [div_lt_iff₀ (by positivity)] at h1
    rw [lt_div_iff₀ (by positivity)] at h2
    unfold rademacher
    rw [show (2 : ℝ) ^ (j + 1) * Real.pi * x = Real.pi * (2 ^ (j + 1) * x) by ring]
    apply sign_sin_of_mem
    · by_contra h
      push Not at h
      have : 2 ^ (j + 1) * x * 2 ^ r ≤ i := le_trans (mul_le_mul_of_nonneg_right h p2.le) hqr
      nlinarith
    · by_contra h
      push Not at h
      have := mul_le_mul_of_nonneg_right h p2.le
      nlinarith
  · rfl

/-- At the edges of the cells the Walsh function is zero. -/
theorem paley_edge {k : ℕ} (hk : k ≠ 0) (c : ℕ) : paley k ((c : ℝ) / 2 ^ (Nat.log2 k + 1)) = 0 := by
  unfold paley
  apply Finset.prod_eq_zero (i := Nat.log2 k) (by simp)
  rw [if_pos (by rw [Nat.testBit_log2]; exact hk)]
  unfold rademacher
  rw [show (2 : ℝ) ^ (Nat.log2 k + 1) * Real.pi * ((c : ℝ) / 2 ^ (Nat.log2 k + 1)) = c * Real.pi by
    field_simp]
  rw [Real.sin_nat_mul_pi, Real.sign_zero]

/-- Every number is on an edge or in a cell. -/
theorem cell_or_edge {x : ℝ} (hx : 0 < x) (m : ℕ) :
    (∃ c : ℕ, x = (c : ℝ) / 2 ^ m) ∨ ∃ c : ℕ, (c : ℝ) / 2 ^ m < x ∧ x < ((c : ℝ) + 1) / 2 ^ m := by
  have p : (0 : ℝ) < 2 ^ m := by positivity
  have h1 := Nat.floor_le (show 0 ≤ x * 2 ^ m by positivity)
  have h2 := Nat.lt_floor_add_one (x * 2 ^ m)
  rcases h1.eq_or_lt with h | h
  · left
    exact ⟨_, by rw [eq_div_iff p.ne', h]⟩
  · right
    exact ⟨_, by rw [div_lt_iff₀ p]; exact h, by rw [lt_div_iff₀ p]; exact h2⟩

/-- **zeros** of the Walsh function -/
theorem paley_eq_zero_iff {k : ℕ} (hk : k ≠ 0) {x : ℝ} (hx : 0 < x) :
    paley k x = 0 ↔ ∃ c : ℕ, x = (c : ℝ) / 2 ^ (Nat.log2 k + 1) := by
  constructor
  · intro h
    rcases cell_or_edge hx (Nat.log2 k + 1) with hc | ⟨c, h1, h2⟩
    · exact hc
    · rw [paley_cell h1 h2] at h
      have := cellSign_sq k c
      rw [h] at this; simp at this
  · rintro ⟨c, rfl⟩; exact paley_edge hk c

/-! ## The code's sampled array -/

theorem walsh_fold (xs : ℕ → ℝ) (N : ℕ) (b : ℕ → ℕ) (m : ℕ) :
    (List.range m).foldl (fun arr i =>
      List.zipWith (fun w x => w * powBit (PyFloat.sign (PyFloat.sin
        (Py.nat (2 ^ (i + 1)) * PyFloat.pi * x))) (b i)) arr ((List.range N).map xs))
      (List.replicate N (PyFloat.lit 1)) =
    (List.range N).map fun c => ∏ j ∈ Finset.range m,
      if b j = 0 then 1 else rademacher (j + 1) (xs c) := by
  induction m with
  | zero =>
    simp only [List.range_zero, List.foldl_nil, Finset.range_zero, Finset.prod_empty]
    simp
  | succ m ih =>
    rw [List.range_succ, List.foldl_append, ih]
    simp only [List.foldl_cons, List.foldl_nil, List.zipWith_map, List.zipWith_self]
    apply List.map_congr_left
    intro c _
    rw [Finset.prod_range_succ]
    congr 1
    unfold powBit rademacher
    split <;> simp

theorem walshBinaryOrder_getD {k i : ℕ} (hk : k ≠ 0) (hi : i < Nat.log2 k + 1) :
    (Nat.digits 2 k).reverse.getD (Nat.log2 k + 1 - 1 - i) 0 = (k.testBit i).toNat := by
  have hlen : (Nat.digits 2 k).length = Nat.log2 k + 1 := by
    rw [Nat.length_digits 2 k (by norm_num) hk, Nat.log2_eq_log_two]
  rw [List.getD_eq_getElem?_getD, List.getElem?_reverse (by omega), hlen,
    show Nat.log2 k + 1 - 1 - (Nat.log2 k + 1 - 1 - i) = i by omega,
    ← List.getD_eq_getElem?_getD, Nat.getD_digits _ _ (le_refl 2)]
  rw [Nat.testBit_eq_decide_div_mod_eq]
  rcases Nat.mod_two_eq_zero_or_one (k / 2 ^ i) with h | h <;> simp [h]

theorem walshHammingWeight_eq {k : ℕ} (hk : k ≠ 0) :
    walshHammingWeight ℝ k = .ok (Nat.log2 k + 1) := by
  have h1 : (1 : ℝ) ≤ k := by exact_mod_cast Nat.one_le_iff_ne_zero.mpr hk
  unfold walshHammingWeight
  rw [log2_eq, nat_eq, pyInt_of_nonneg (Real.logb_nonneg (by norm_num) h1), except_ok_bind]
  have h := Real.floor_logb_natCast (b := 2) (r := (k : ℝ)) (by norm_num)
  rw [Int.log_natCast] at h
  rw [← Int.floor_toNat, show (2 : ℝ) = ((2 : ℕ) : ℝ) by norm_num, h, Int.toNat_natCast,
    Nat.log2_eq_log_two]
  rfl

theorem walshRelativeOffsets_eq {N : ℕ} (hN : N ≠ 0) :
    (walshRelativeOffsets N : Except PyErr (List ℝ)) =
      .ok ((List.range N).map fun i => PyFloat.lit 1 / Py.nat (2 * N) +
        Py.nat i * (PyFloat.lit 1 / Py.nat N)) := by
  have p : (0 : ℝ) < N := by exact_mod_cast Nat.pos_of_ne_zero hN
  unfold walshRelativeOffsets Py.npArange
  rw [pyCeil_eq, except_ok_bind]
  have : ⌈((PyFloat.lit 1 : ℝ) - PyFloat.lit 1 / Py.nat (2 * N)) / (PyFloat.lit 1 / Py.nat N)⌉₊ = N := by
    rw [Nat.ceil_eq_iff hN]
    have e : ((PyFloat.lit 1 : ℝ) - PyFloat.lit 1 / Py.nat (2 * N)) / (PyFloat.lit 1 / Py.nat N) =
        N - 1 / 2 := by
      simp only [lit_eq, nat_eq]; push_cast; field_simp
    rw [e, Nat.cast_sub (Nat.one_le_iff_ne_zero.mpr hN)]
    constructor
    · push_cast; linarith
    · linarith
  rw [this]
  rfl

theorem walshBinaryOrder_eq {k : ℕ} (hk : k ≠ 0) :
    walshBinaryOrder k (Nat.log2 k + 1) = .ok (Nat.digits 2 k).reverse := by
  have hlen : (Nat.digits 2 k).length = Nat.log2 k + 1 := by
    rw [Nat.length_digits 2 k (by norm_num) hk, Nat.log2_eq_log_two]
  unfold walshBinaryOrder
  simp [hlen, List.take_of_length_le]

theorem walshArray_eq {k : ℕ} (hk : k ≠ 0) :
    (walshArray (Nat.log2 k + 1) (2 ^ (Nat.log2 k + 1))
      ((List.range (2 ^ (Nat.log2 k + 1))).map fun i =>
        PyFloat.lit 1 / Py.nat (2 * 2 ^ (Nat.log2 k + 1)) +
        Py.nat i * (PyFloat.lit 1 / Py.nat (2 ^ (Nat.log2 k + 1))))
      (Nat.digits 2 k).reverse : Except PyErr (List ℝ)) =
      .ok ((List.range (2 ^ (Nat.log2 k + 1))).map (cellSign k)) := by
  unfold walshArray
  rw [if_neg (by simp)]
  congr 1
  have := walsh_fold (fun i => PyFloat.lit 1 / Py.nat (2 * 2 ^ (Nat.log2 k + 1)) +
    Py.nat i * (PyFloat.lit 1 / Py.nat (2 ^ (Nat.log2 k + 1)))) (2 ^ (Nat.log2 k + 1))
    (fun i => (Nat.digits 2 k).reverse.getD (Nat.log2 k + 1 - 1 - i) 0) (Nat.log2 k + 1)
  rw [this]
  apply List.map_congr_left
  intro c _
  have p : (0 : ℝ) < 2 ^ (Nat.log2 k + 1) := by positivity
  rw [← paley_cell (k := k) (i := c) (x := PyFloat.lit 1 / Py.nat (2 * 2 ^ (Nat.log2 k + 1)) +
    Py.nat c * (PyFloat.lit 1 / Py.nat (2 ^ (Nat.log2 k + 1))))]
  · unfold paley
    apply Finset.prod_congr rfl
    intro j hj
    rw [walshBinaryOrder_getD hk (Finset.mem_range.mp hj)]
    cases k.testBit j <;> simp
  · simp only [lit_eq, nat_eq]
    push_cast
    rw [div_lt_iff₀ p]
    field_simp
    linarith
  · simp only [lit_eq, nat_eq]
    push_cast
    rw [lt_div_iff₀ p]
    field_simp
    linarith

theorem walshSwitches_eq (N : ℕ) (w : ℕ → ℝ) (s n : ℕ) :
    walshSwitches N s ((List.range' s (n + 1)).map w) =
      ((List.range' s n).filter fun i => w i ≠ w (i + 1)).map
        fun i => Py.nat (i + 1) * (PyFloat.lit 1 / Py.nat N) := by
  induction n generalizing s with
  | zero => simp [walshSwitches]
  | succ n ih =>
    have ih' := ih (s + 1)
    simp only [List.range'_succ, List.map_cons, walshSwitches] at ih' ⊢
    rw [ih', List.filter_cons]
    by_cases h : w s = w (s + 1) <;> simp [h]

/-- the switching times -/
noncomputable def walshTimes (T : ℝ) (k : ℕ) : List ℝ :=
  ((List.range' 0 (2 ^ (Nat.log2 k + 1) - 1)).filter
    fun i => cellSign k i ≠ cellSign k (i + 1)).map
      fun i : ℕ => T * (((i : ℝ) + 1) / 2 ^ (Nat.log2 k + 1))

theorem walshOffsets_eq (T : ℝ) {k : ℕ} (hk : k ≠ 0) :
    walshOffsets T k = .ok (walshTimes T k) := by
  unfold walshOffsets walshTimes
  rw [walshHammingWeight_eq hk, except_ok_bind]
  simp only
  rw [walshRelativeOffsets_eq (by positivity), except_ok_bind, walshBinaryOrder_eq hk,
    except_ok_bind, walshArray_eq hk, except_ok_bind]
  change Except.ok _ = _
  congr 1
  have hN : 2 ^ (Nat.log2 k + 1) = 2 ^ (Nat.log2 k + 1) - 1 + 1 := by
    have : 0 < 2 ^ (Nat.log2 k + 1) := by positivity
    omega
  rw [List.range_eq_range']
  conv_lhs => rw [show List.range' 0 (2 ^ (Nat.log2 k + 1)) =
    List.range' 0 (2 ^ (Nat.log2 k + 1) - 1 + 1) by rw [← hN]]
  rw [walshSwitches_eq, List.map_map]
  apply List.map_congr_left
  intro i _
  simp
  left
  field_simp

theorem walsh_ordered {T : ℝ} (hT : 0 < T) (k : ℕ) : Ordered T (walshTimes T k) := by
  have p : (0 : ℝ) < 2 ^ (Nat.log2 k + 1) := by positivity
  constructor
  · unfold walshTimes
    rw [List.pairwise_map]
    refine List.Pairwise.imp ?_ ((List.pairwise_lt_range' (s := 0)).filter _)
    intro a b hab
    have : (a : ℝ) < b := by exact_mod_cast hab
    gcongr
  · intro t ht
    unfold walshTimes at ht
    obtain ⟨i, hi, rfl⟩ := List.mem_map.mp ht
    have hi' := List.mem_range'_1.mp (List.mem_filter.mp hi).1
    have : ((i + 1 : ℕ) : ℝ) < ((2 ^ (Nat.log2 k + 1) : ℕ) : ℝ) := by
      exact_mod_cast (by omega : i + 1 < 2 ^ (Nat.log2 k + 1))
    push_cast at this
    refine ⟨by positivity, ?_⟩
    have : ((i : ℝ) + 1) / 2 ^ (Nat.log2 k + 1) < 1 := by rw [div_lt_one p]; exact this
    nlinarith

theorem walsh_count_sign (k c : ℕ) :
    (-1 : ℝ) ^ ((List.range' 0 c).countP fun i => cellSign k i ≠ cellSign k (i + 1)) =
      cellSign k c := by
  induction c with
  | zero => simp [cellSign_zero]
  | succ c ih =>
    rw [List.range'_concat, List.countP_append, pow_add, ih]
    simp only [one_mul, zero_add, List.countP_singleton]
    rcases cellSign_cases k c with h | h <;> rcases cellSign_cases k (c + 1) with h' | h' <;>
      simp [h, h']

/-- The number of switches before a time tells the sign of the Walsh function. -/
theorem walsh_switching {T : ℝ} (hT : 0 < T) {k : ℕ} (hk : k ≠ 0) {t : ℝ} (h0 : 0 < t) (h1 : t < T)
    (hp : paley k (t / T) ≠ 0) : switching (walshTimes T k) t = paley k (t / T) := by
  rcases cell_or_edge (div_pos h0 hT) (Nat.log2 k + 1) with ⟨c, hc⟩ | ⟨c, hc1, hc2⟩
  · exact absurd (hc ▸ paley_edge hk c) hp
  · rw [paley_cell hc1 hc2, ← walsh_count_sign k c]
    have p : (0 : ℝ) < 2 ^ (Nat.log2 k + 1) := by positivity
    have hcN : c < 2 ^ (Nat.log2 k + 1) := by
      have : (c : ℝ) < 2 ^ (Nat.log2 k + 1) := by
        rw [div_lt_iff₀ p] at hc1
        have : t / T < 1 := by rw [div_lt_one hT]; exact h1
        nlinarith
      exact_mod_cast this
    unfold switching walshTimes
    congr 1
    rw [List.countP_map, List.countP_filter]
    have hsplit : List.range' 0 (2 ^ (Nat.log2 k + 1) - 1) =
        List.range' 0 c ++ List.range' c (2 ^ (Nat.log2 k + 1) - 1 - c) := by
      have := List.range'_append_1 (s := 0) (m := c) (n := 2 ^ (Nat.log2 k + 1) - 1 - c)
      rw [zero_add] at this
      rw [this]
      congr 1
      omega
    rw [hsplit, List.countP_append]
    have hz : (List.range' c (2 ^ (Nat.log2 k + 1) - 1 - c)).countP (fun i =>
        (((fun s => decide (s < t)) ∘ fun i : ℕ => T * (((i : ℝ) + 1) / 2 ^ (Nat.log2 k + 1))) i) &&
        decide (cellSign k i ≠ cellSign k (i + 1))) = 0 := by
      rw [List.countP_eq_zero]
      intro i hi
      rw [List.mem_range'_1] at hi
      have : (c : ℝ) ≤ i := by exact_mod_cast hi.1
      have : ¬ T * (((i : ℝ) + 1) / 2 ^ (Nat.log2 k + 1)) < t := by
        rw [not_lt]
        rw [div_lt_iff₀ hT] at hc2
        have e : ((c : ℝ) + 1) / 2 ^ (Nat.log2 k + 1) ≤ ((i : ℝ) + 1) / 2 ^ (Nat.log2 k + 1) := by
          gcongr
        nlinarith
      simp [this]
    rw [hz, add_zero]
    apply List.countP_congr
    intro i hi
    rw [List.mem_range'_1] at hi
    have : T * (((i : ℝ) + 1) / 2 ^ (Nat.log2 k + 1)) < t := by
      have h : ((i + 1 : ℕ) : ℝ) ≤ c := by exact_mod_cast (by omega : i + 1 ≤ c)
      push_cast at h
      rw [lt_div_iff₀ hT] at hc1
      have e : ((i : ℝ) + 1) / 2 ^ (Nat.log2 k + 1) ≤ (c : ℝ) / 2 ^ (Nat.log2 k + 1) := by
        gcongr
      nlinarith
    simp [this]

/-! ## Uniqueness of switching times -/

theorem countP_across {x t1 t2 : ℝ} (h1 : t1 < x) (h2 : x < t2) (l : List ℝ)
    (h : ∀ s ∈ l, s ≠ x → (s < t1 ↔ s < t2)) :
    l.countP (fun s => s < t2) = l.countP (fun s => s < t1) + l.count x := by
  induction l with
  | nil => simp
  | cons s l ih =>
    have ih := ih fun r hr => h r (List.mem_cons_of_mem _ hr)
    simp only [List.countP_cons, List.count_cons, ih, beq_iff_eq, decide_eq_true_eq]
    by_cases hs : s = x
    · subst hs
      rw [if_pos h2, if_neg (by linarith), if_pos rfl]
      ring
    · have := h s (List.mem_cons_self ..) hs
      rw [if_neg hs]
      by_cases ht : s < t1
      · rw [if_pos ht, if_pos (this.mp ht)]; ring
      · rw [if_neg ht, if_neg (this.not.mp ht)]; ring

theorem mem_of_switching_eq {T : ℝ} {a b : List ℝ} (ha : Ordered T a) {E : Set ℝ} (hE : E.Finite)
    (h : ∀ t, 0 < t → t < T → t ∉ E → switching a t = switching b t) {x : ℝ} (hx : x ∈ a) :
    x ∈ b := by
  by_contra hxb
  obtain ⟨hx0, hxT⟩ := ha.2 x hx
  have hS : ((E ∪ {s | s ∈ a} ∪ {s | s ∈ b}) \ {x}).Finite :=
    ((hE.union a.finite_toSet).union b.finite_toSet).subset Set.sdiff_subset
  have hn : (((E ∪ {s | s ∈ a} ∪ {s | s ∈ b}) \ {x})ᶜ ∩ Set.Ioo 0 T) ∈ nhds x :=
    Filter.inter_mem (hS.isClosed.isOpen_compl.mem_nhds (by simp)) (Ioo_mem_nhds hx0 hxT)
  obtain ⟨ε, hε, hball⟩ := Metric.mem_nhds_iff.mp hn
  have mem : ∀ t, |t - x| < ε → t ≠ x →
      t ∉ E ∧ t ∉ a ∧ t ∉ b ∧ 0 < t ∧ t < T := by
    intro t ht hne
    obtain ⟨h1, h2⟩ := hball (show t ∈ Metric.ball x ε by rwa [Metric.mem_ball, Real.dist_eq])
    simp only [Set.mem_compl_iff, Set.mem_sdiff, Set.mem_union, Set.mem_ofPred_eq,
      Set.mem_singleton_iff, not_and, not_not] at h1
    exact ⟨fun hc => hne (h1 (.inl (.inl hc))), fun hc => hne (h1 (.inl (.inr hc))),
      fun hc => hne (h1 (.inr hc)), h2.1, h2.2⟩
  have m1 := mem (x - ε / 2) (by rw [abs_lt]; constructor <;> linarith) (by linarith)
  have m2 := mem (x + ε / 2) (by rw [abs_lt]; constructor <;> linarith) (by linarith)
  have across : ∀ l : List ℝ, (∀ t, |t - x| < ε → t ≠ x → t ∉ l) → ∀ s ∈ l, s ≠ x →
      (s < x - ε / 2 ↔ s < x + ε / 2) := by
    intro l hl s hs hne
    constructor
    · intro; linarith
    · intro hlt
      by_contra hge
      exact hl s (by rw [abs_lt]; constructor <;> linarith) hne hs
  have ca := countP_across (t1 := x - ε / 2) (t2 := x + ε / 2) (by linarith) (by linarith) a
    (across a fun t h1 h2 => (mem t h1 h2).2.1)
  have cb := countP_across (t1 := x - ε / 2) (t2 := x + ε / 2) (by linarith) (by linarith) b
    (across b fun t h1 h2 => (mem t h1 h2).2.2.1)
  have nda : a.Nodup := ha.1.imp ne_of_lt
  rw [List.count_eq_one_of_mem nda hx] at ca
  rw [List.count_eq_zero.mpr hxb, add_zero] at cb
  have e1 := h _ m1.2.2.2.1 m1.2.2.2.2 m1.1
  have e2 := h _ m2.2.2.2.1 m2.2.2.2.2 m2.1
  unfold switching at e1 e2
  rw [ca, cb, pow_succ, e1] at e2
  have := pow_ne_zero (b.countP fun s => s < x - ε / 2) (show (-1 : ℝ) ≠ 0 by norm_num)
  apply this
  linarith

theorem switching_unique {T : ℝ} {a b : List ℝ} (ha : Ordered T a) (hb : Ordered T b) {E : Set ℝ}
    (hE : E.Finite) (h : ∀ t, 0 < t → t < T → t ∉ E → switching a t = switching b t) : a = b := by
  refine List.Perm.eq_of_pairwise ?_ ha.1 hb.1 ?_
  · intro x y _ _ h1 h2; linarith
  · rw [List.perm_ext_iff_of_nodup (ha.1.imp ne_of_lt) (hb.1.imp ne_of_lt)]
    exact fun x => ⟨mem_of_switching_eq ha hE h,
      mem_of_switching_eq hb hE fun t h0 h1 h2 => (h t h0 h1 h2).symm⟩

end OpenControls
