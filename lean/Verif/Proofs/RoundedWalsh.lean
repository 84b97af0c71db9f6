import Verif.Proofs.RoundedFamilies
import Verif.Proofs.Walsh

/-!
# The Walsh sequence in rounded arithmetic
-/

namespace OpenControls

open Spec Fl

variable {r : Rounding}

theorem val_nat' {n : ℕ} (h : n ≤ 2 ^ 20) : (Py.nat n : Fl r).val = n := by
  unfold Py.nat
  rw [val_lit, Rat.cast_natCast, r.rnd_nat h]

theorem val_lit_one : (PyFloat.lit 1 : Fl r).val = 1 := by simp

/-- The number of binary digits is computed correctly. -/
theorem walshHammingWeight_rounded {k : ℕ} (hk : k ≠ 0) (hk' : k ≤ 2000) :
    walshHammingWeight (Fl r) k = .ok (Nat.log2 k + 1) := by
  have hu := r.u_nonneg
  have hu' : r.u ≤ 1 / 1000000 := r.u_le.trans (by norm_num)
  set m := Nat.log2 k with hm
  have h1 : 2 ^ m ≤ k := Nat.log2_self_le hk
  have h2 : k + 1 ≤ 2 ^ (m + 1) := Nat.lt_log2_self
  have hm10 : m ≤ 10 := by
    by_contra hc
    have : 2 ^ 11 ≤ 2 ^ m := Nat.pow_le_pow_right (by norm_num) (by omega)
    omega
  have hmr : (m : ℝ) ≤ 10 := by exact_mod_cast hm10
  have hm0 : (0 : ℝ) ≤ m := by positivity
  have hk0 : (0 : ℝ) < k := by exact_mod_cast Nat.pos_of_ne_zero hk
  have lo : (m : ℝ) ≤ r.log2.f k := by
    have := r.log2_mono (2 ^ m) k (by positivity) (by exact_mod_cast h1)
    rwa [r.log2_pow m (by nlinarith)] at this
  have hi : r.log2.f k < m + 1 := by
    have hc := r.log2.close k
    have hl0 : 0 ≤ Real.logb 2 k :=
      Real.logb_nonneg (by norm_num) (by exact_mod_cast Nat.one_le_iff_ne_zero.mpr hk)
    rw [abs_of_nonneg hl0] at hc
    have hP : (0 : ℝ) < 2 ^ (m + 1) := by positivity
    have hlog2 : 0 < Real.log 2 := Real.log_pos (by norm_num)
    have hlog2' : Real.log 2 < 1 := by
      have := Real.log_lt_sub_one_of_pos (x := 2) (by norm_num) (by norm_num)
      linarith
    have e : Real.logb 2 k ≤ m + 1 - 1 / 2 ^ (m + 1) := by
      have hk1 : (k : ℝ) ≤ 2 ^ (m + 1) * (1 - 1 / 2 ^ (m + 1)) := by
        rw [mul_sub, mul_one, mul_one_div_cancel hP.ne']
        have : (k : ℝ) + 1 ≤ 2 ^ (m + 1) := by exact_mod_cast h2
        linarith
      have hq : 0 < 1 - 1 / (2 : ℝ) ^ (m + 1) := by
        by_contra hc
        push Not at hc
        nlinarith
      have hl : Real.log k ≤ (m + 1) * Real.log 2 - 1 / 2 ^ (m + 1) := by
        have a1 := Real.log_le_log hk0 hk1
        rw [Real.log_mul hP.ne' hq.ne', Real.log_pow] at a1
        have a2 := Real.log_le_sub_one_of_pos hq
        push_cast at a1
        linarith
      rw [Real.logb, div_le_iff₀ hlog2]
      have : 0 < 1 / (2 : ℝ) ^ (m + 1) := by positivity
      nlinarith
    have hd : 1 / 2048 ≤ 1 / (2 : ℝ) ^ (m + 1) := by
      apply one_div_le_one_div_of_le hP
      calc (2 : ℝ) ^ (m + 1) ≤ 2 ^ 11 := pow_le_pow_right₀ (by norm_num) (by omega)
        _ = 2048 := by norm_num
    have := (abs_le.mp hc).2
    nlinarith
  unfold walshHammingWeight
  have hv : (PyFloat.log2 (Py.nat k : Fl r)).val = r.log2.f k := by
    rw [val_log2, val_nat' (by omega)]
  rw [pyInt_rounded (by rw [hv]; linarith), except_ok_bind, hv,
    (Nat.floor_eq_iff (by linarith)).mpr ⟨lo, hi⟩]
  rfl

/-- The sampled positions are exact. -/
theorem walshRelativeOffsets_rounded {m : ℕ} (hm : m ≤ 11) :
    (walshRelativeOffsets (2 ^ m) : Except PyErr (List (Fl r))) =
      .ok ((List.range (2 ^ m)).map fun i : ℕ => round r ((2 * i + 1 : ℕ) / 2 ^ (m + 1))) := by
  have hN : 2 ^ m ≤ 2 ^ 11 := Nat.pow_le_pow_right (by norm_num) hm
  norm_num at hN
  have p : (0 : ℝ) < 2 ^ m := by positivity
  have ev : ∀ j : ℕ, j ≤ 2 ^ 20 → ∀ l : ℕ, r.rnd (j / 2 ^ l) = j / 2 ^ l := fun j hj l => by
    rw [r.rnd_div_pow, r.rnd_nat hj]
  have v1 : (PyFloat.lit 1 / Py.nat (2 * 2 ^ m) : Fl r).val = 1 / 2 ^ (m + 1) := by
    rw [val_div, val_lit_one, val_nat' (by omega)]
    have := ev 1 (by norm_num) (m + 1)
    push_cast at this ⊢
    rwa [pow_succ', ] at this ⊢
  have v2 : (PyFloat.lit 1 / Py.nat (2 ^ m) : Fl r).val = 1 / 2 ^ m := by
    rw [val_div, val_lit_one, val_nat' (by omega)]
    have := ev 1 (by norm_num) m
    push_cast at this ⊢
    exact this
  unfold walshRelativeOffsets Py.npArange
  have hc : Py.pyCeil (((PyFloat.lit 1 : Fl r) - PyFloat.lit 1 / Py.nat (2 * 2 ^ m)) /
      (PyFloat.lit 1 / Py.nat (2 ^ m))) = .ok (2 ^ m) := by
    have e1 : ((PyFloat.lit 1 : Fl r) - PyFloat.lit 1 / Py.nat (2 * 2 ^ m)).val =
        ((2 ^ (m + 1) - 1 : ℕ) : ℝ) / 2 ^ (m + 1) := by
      rw [val_sub, v1, val_lit_one, ← ev (2 ^ (m + 1) - 1) (by rw [pow_succ]; omega)]
      congr 1
      rw [Nat.cast_sub Nat.one_le_two_pow]
      push_cast
      field_simp
    have e2 : (((PyFloat.lit 1 : Fl r) - PyFloat.lit 1 / Py.nat (2 * 2 ^ m)) /
      (PyFloat.lit 1 / Py.nat (2 ^ m))).val = ((2 ^ (m + 1) - 1 : ℕ) : ℝ) / 2 ^ 1 := by
      rw [val_div, e1, v2, ← ev (2 ^ (m + 1) - 1) (by rw [pow_succ]; omega) 1]
      congr 1
      rw [pow_succ (2 : ℝ) m]
      field_simp
    have e3 : ⌈((2 ^ (m + 1) - 1 : ℕ) : ℝ) / 2 ^ 1⌉ = ((2 ^ m : ℕ) : ℤ) := by
      rw [Int.ceil_eq_iff, Nat.cast_sub Nat.one_le_two_pow]
      push_cast
      rw [pow_succ]
      constructor <;> linarith
    unfold Py.pyCeil PyFloat.ceilInt
    simp only [Fl.instPyFloat]
    have e2' := e2
    rw [show ∀ x : Fl r, x.val = x.1 from fun _ => rfl] at e2'
    simp only [← show ∀ x : Fl r, x.val = x.1 from fun _ => rfl] at e2' ⊢
    rw [e2, e3]
    rfl
  rw [hc, except_ok_bind]
  change Except.ok _ = _
  congr 1
  apply List.map_congr_left
  intro i hi
  rw [List.mem_range] at hi
  apply ext
  rw [val_add, val_mul, v1, v2, val_nat' (by omega), val_round, mul_one_div, ev i (by omega)]
  congr 1
  push_cast
  rw [pow_succ]
  field_simp
  ring

theorem unit_prod {x y : ℝ} (hx : x = 1 ∨ x = -1) (hy : y = 1 ∨ y = -1) :
    round r x * round r y = round r (x * y) := by
  have h1 := r.rnd_one
  have h2 : r.rnd (-1) = -1 := by rw [r.neg, h1]
  apply ext
  rw [val_mul]
  simp only [val_round]
  rcases hx with rfl | rfl <;> rcases hy with rfl | rfl <;> simp [h1, h2]

/-- The sign of the computed sine is correct. -/
theorem sign_sin_rounded {m i c : ℕ} (hm : m ≤ 10) (hi : i ≤ m) (hc : c < 2 ^ (m + 1)) :
    (PyFloat.sign (PyFloat.sin (Py.nat (2 ^ (i + 1)) * PyFloat.pi *
      round r (((2 * c + 1 : ℕ) : ℝ) / 2 ^ (m + 2)))) : Fl r) =
      round r ((-1) ^ (c / 2 ^ (m - i))) := by
  have hu := r.u_nonneg
  have hw := r.w_le
  have hw0 := r.w_nonneg
  have hu' : r.u ≤ 1 / 1000000 := r.u_le.trans (by norm_num)
  have hpi := Real.pi_pos
  have hN : 2 ^ (m + 1) ≤ 2 ^ 11 := Nat.pow_le_pow_right (by norm_num) (by omega)
  have hI : 2 ^ (i + 1) ≤ 2 ^ 11 := Nat.pow_le_pow_right (by norm_num) (by omega)
  norm_num at hN hI
  set q := c / 2 ^ (m - i) with hq
  set d := m - i with hd
  have hmi : m = i + d := by omega
  -- the argument
  set x : ℝ := ((2 * c + 1 : ℕ) : ℝ) / 2 ^ (m + 2) with hx
  have hxr : r.rnd x = x := by rw [hx, r.rnd_div_pow, r.rnd_nat (by omega)]
  have ha : (Py.nat (2 ^ (i + 1)) * PyFloat.pi * round r x : Fl r).val =
      r.rnd (2 ^ (i + 1) * r.rnd Real.pi * x) := by
    simp only [val_mul, val_round, hxr, val_pi]
    rw [val_nat' (by omega)]
    push_cast
    rw [mul_comm (2 ^ (i + 1)) (r.rnd Real.pi), r.rnd_mul_pow, r.idem]
  set a := r.rnd (2 ^ (i + 1) * r.rnd Real.pi * x) with haa
  have hrel : Rel r 2 a (2 ^ (i + 1) * Real.pi * x) :=
    ((((Rel.refl ((2 : ℝ) ^ (i + 1))).mul (Rel.of_rnd Real.pi)).mul (Rel.refl x)).rnd).mono
      (by norm_num)
  have hx0 : 0 < x := by positivity
  have hx1 : x ≤ 1 := by
    rw [hx, div_le_one (by positivity)]
    have : 2 * c + 1 ≤ 2 ^ (m + 2) := by rw [pow_succ 2 (m + 1)]; omega
    exact_mod_cast this
  have hclose := hrel.close (by nlinarith)
  rw [abs_of_pos (mul_pos (mul_pos (by positivity) hpi) hx0)] at hclose
  have hP : (0 : ℝ) < 2 ^ (i + 1) := by positivity
  -- cell of the exact argument
  have hD : (0 : ℝ) < 2 ^ d := by positivity
  have hD' : (2 : ℝ) ^ d ≤ 1024 := by
    calc (2 : ℝ) ^ d ≤ 2 ^ 10 := pow_le_pow_right₀ (by norm_num) (by omega)
      _ = 1024 := by norm_num
  have hPx : 2 ^ (i + 1) * x * (2 * 2 ^ d) = 2 * c + 1 := by
    rw [hx, hmi]; push_cast; rw [show i + d + 2 = (i + 1) + (d + 1) by ring, pow_add (2 : ℝ) (i + 1), pow_succ (2 : ℝ) d]
    field_simp
  have hq1 : (q : ℝ) * 2 ^ d ≤ c := by exact_mod_cast Nat.div_mul_le_self c (2 ^ d)
  have hq2 : (c : ℝ) + 1 ≤ (q + 1) * 2 ^ d := by
    have := Nat.lt_mul_div_succ c (show 0 < 2 ^ d by positivity)
    rw [mul_comm] at this
    exact_mod_cast this
  set y := 2 ^ (i + 1) * x with hy
  have hy0 : 0 < y := by positivity
  have hyle : y ≤ 2 ^ (i + 1) := by nlinarith
  have hI' : (2 : ℝ) ^ (i + 1) * 2 ^ d ≤ 2048 := by
    have : 2 ^ (i + 1) * 2 ^ d ≤ 2048 := by
      rw [← pow_add, show i + 1 + d = m + 1 by omega]; exact hN
    exact_mod_cast this
  have hyD : y * 2 ^ d ≤ 2048 := le_trans (by gcongr) hI'
  have e : 2 ^ (i + 1) * Real.pi * x = Real.pi * y := by rw [hy]; ring
  rw [e] at hclose
  have hb : |a / Real.pi - y| ≤ 4 * r.w * y := by
    rw [show a / Real.pi - y = (a - Real.pi * y) / Real.pi by field_simp, abs_div, abs_of_pos hpi,
      div_le_iff₀ hpi]
    linarith
  obtain ⟨hb1, hb2⟩ := abs_le.mp hb
  have hwy : 4 * r.w * y * 2 ^ d < 1 / 2 := by
    calc 4 * r.w * y * 2 ^ d = 4 * r.w * (y * 2 ^ d) := by ring
      _ ≤ 4 * r.w * 2048 := by gcongr
      _ < 1 / 2 := by linarith
  have key1 : (q : ℝ) < a / Real.pi := by
    by_contra hcon
    push Not at hcon
    have : y - 4 * r.w * y ≤ q := by linarith
    have := mul_le_mul_of_nonneg_right this hD.le
    nlinarith
  have key2 : a / Real.pi < q + 1 := by
    by_contra hcon
    push Not at hcon
    have : (q : ℝ) + 1 ≤ y + 4 * r.w * y := by linarith
    have := mul_le_mul_of_nonneg_right this hD.le
    nlinarith
  have hsign := sign_sin_of_mem key1 key2
  rw [mul_div_cancel₀ _ hpi.ne'] at hsign
  apply ext
  rw [val_sign, val_sin, ha, val_round]
  congr 1
  rw [← hsign]
  have hl := Rel.lib r.sin a
  rcases lt_trichotomy (Real.sin a) 0 with h | h | h
  · obtain ⟨ee, _, h2⟩ := hl
    rw [Real.sign_of_neg h, Real.sign_of_neg]
    rw [h2]
    exact mul_neg_of_neg_of_pos h (Real.exp_pos _)
  · rw [hl.zero_iff.mpr h, h]
  · rw [Real.sign_of_pos h, Real.sign_of_pos (hl.pos h)]

theorem one_or_neg (n : ℕ) : ((-1 : ℝ) ^ n = 1) ∨ ((-1 : ℝ) ^ n = -1) := neg_one_pow_eq_or ℝ n

theorem walshArray_rounded {k : ℕ} (hk : k ≠ 0) (hk' : Nat.log2 k ≤ 10) :
    (walshArray (Nat.log2 k + 1) (2 ^ (Nat.log2 k + 1))
      ((List.range (2 ^ (Nat.log2 k + 1))).map fun i : ℕ =>
        round r ((2 * i + 1 : ℕ) / 2 ^ (Nat.log2 k + 1 + 1)))
      (Nat.digits 2 k).reverse : Except PyErr (List (Fl r))) =
      .ok ((List.range (2 ^ (Nat.log2 k + 1))).map fun i => round r (cellSign k i)) := by
  unfold walshArray
  rw [if_neg (by simp)]
  congr 1
  set m := Nat.log2 k with hm
  have step : ∀ n ≤ m + 1, (List.range n).foldl (fun arr i =>
      List.zipWith (fun w x => w * powBit (PyFloat.sign (PyFloat.sin
        (Py.nat (2 ^ (i + 1)) * PyFloat.pi * x)))
          ((Nat.digits 2 k).reverse.getD (m + 1 - 1 - i) 0)) arr
        ((List.range (2 ^ (m + 1))).map fun i : ℕ => round r ((2 * i + 1 : ℕ) / 2 ^ (m + 1 + 1))))
      (List.replicate (2 ^ (m + 1)) (PyFloat.lit 1)) =
    (List.range (2 ^ (m + 1))).map fun c => round r (∏ j ∈ Finset.range n,
      if k.testBit j then (-1) ^ (c / 2 ^ (m - j)) else 1) := by
    intro n
    induction n with
    | zero =>
      intro _
      have : (PyFloat.lit 1 : Fl r) = round r 1 := ext (by simp [val_round])
      simp [this]
    | succ n ih =>
      intro hn
      rw [List.range_succ, List.foldl_append, ih (by omega)]
      simp only [List.foldl_cons, List.foldl_nil, List.zipWith_map, List.zipWith_self]
      apply List.map_congr_left
      intro c hc
      rw [List.mem_range] at hc
      rw [Finset.prod_range_succ, walshBinaryOrder_getD hk (by omega),
        sign_sin_rounded hk' (by omega) hc]
      have hprod : (∏ j ∈ Finset.range n,
          if k.testBit j then (-1 : ℝ) ^ (c / 2 ^ (m - j)) else 1) = 1 ∨
          (∏ j ∈ Finset.range n, if k.testBit j then (-1 : ℝ) ^ (c / 2 ^ (m - j)) else 1) = -1 := by
        rw [← mul_self_eq_one_iff, ← Finset.prod_mul_distrib]
        apply Finset.prod_eq_one
        intro j _
        split
        · exact mul_self_eq_one_iff.mpr (one_or_neg _)
        · simp
      have one : (PyFloat.lit 1 : Fl r) = round r 1 := ext (by simp [val_round])
      unfold powBit
      cases k.testBit n
      · simp only [Bool.toNat_false, ↓reduceIte, one, Bool.false_eq_true]
        exact unit_prod hprod (.inl rfl)
      · simp only [Bool.toNat_true, one_ne_zero, ↓reduceIte]
        exact unit_prod hprod (one_or_neg _)
  exact step (m + 1) le_rfl

theorem walshSwitches_rounded {m : ℕ} (hm : m ≤ 11) (w : ℕ → ℝ) (hw : ∀ i, w i = 1 ∨ w i = -1)
    (s n : ℕ) (h : s + n ≤ 2 ^ m) :
    walshSwitches (2 ^ m) s ((List.range' s (n + 1)).map fun i => round r (w i)) =
      ((List.range' s n).filter fun i => w i ≠ w (i + 1)).map
        fun i : ℕ => round r (((i : ℝ) + 1) / 2 ^ m) := by
  have hN : 2 ^ m ≤ 2 ^ 11 := Nat.pow_le_pow_right (by norm_num) hm
  norm_num at hN
  have h1 := r.rnd_one
  have h2 : r.rnd (-1) = -1 := by rw [r.neg, h1]
  have hne : ∀ i, Py.ne (round r (w i)) (round r (w (i + 1))) = true ↔ w i ≠ w (i + 1) := by
    intro i
    rw [ne_iff, val_round, val_round]
    rcases hw i with a | a <;> rcases hw (i + 1) with b | b <;> simp [a, b, h1, h2]
  induction n generalizing s with
  | zero => simp [walshSwitches]
  | succ n ih =>
    have ih' := ih (s + 1) (by omega)
    simp only [List.range'_succ, List.map_cons, walshSwitches] at ih' ⊢
    rw [ih', List.filter_cons]
    have hv : (Py.nat (s + 1) * (PyFloat.lit 1 / Py.nat (2 ^ m)) : Fl r) =
        round r (((s : ℝ) + 1) / 2 ^ m) := by
      apply ext
      rw [val_mul, val_div, val_lit_one, val_nat' (by omega), val_nat' (by omega), val_round]
      push_cast
      rw [r.rnd_div_pow 1 m, r.rnd_one, mul_one_div]
    by_cases hc : w s = w (s + 1)
    · simp [hc, (hne s).not.mpr (not_not.mpr hc)]
    · simp [hc, (hne s).mpr hc, hv]

/-- one rounded switching time -/
noncomputable def walshRounded (T : Fl r) (k i : ℕ) : Fl r :=
  T * round r (((i : ℝ) + 1) / 2 ^ (Nat.log2 k + 1))

theorem log2_le_ten {k : ℕ} (hk : k ≠ 0) (hk' : k ≤ 2000) : Nat.log2 k ≤ 10 := by
  by_contra hc
  have h1 : 2 ^ Nat.log2 k ≤ k := Nat.log2_self_le hk
  have : 2 ^ 11 ≤ 2 ^ Nat.log2 k := Nat.pow_le_pow_right (by norm_num) (by omega)
  omega

theorem walshOffsets_rounded (T : Fl r) {k : ℕ} (hk : k ≠ 0) (hk' : k ≤ 2000) :
    walshOffsets T k = .ok (((List.range' 0 (2 ^ (Nat.log2 k + 1) - 1)).filter
      fun i => cellSign k i ≠ cellSign k (i + 1)).map (walshRounded T k)) := by
  have hm := log2_le_ten hk hk'
  unfold walshOffsets
  rw [walshHammingWeight_rounded hk hk', except_ok_bind]
  simp only
  rw [walshRelativeOffsets_rounded (by omega), except_ok_bind, walshBinaryOrder_eq hk,
    except_ok_bind, walshArray_rounded hk hm, except_ok_bind]
  change Except.ok _ = _
  congr 1
  have hN : 2 ^ (Nat.log2 k + 1) = 2 ^ (Nat.log2 k + 1) - 1 + 1 := by
    have : 0 < 2 ^ (Nat.log2 k + 1) := by positivity
    omega
  rw [List.range_eq_range']
  conv_lhs => rw [show List.range' 0 (2 ^ (Nat.log2 k + 1)) =
    List.range' 0 (2 ^ (Nat.log2 k + 1) - 1 + 1) by rw [← hN]]
  rw [walshSwitches_rounded (by omega) _ (cellSign_cases k) _ _ (by omega), List.map_map]
  rfl

theorem walsh_good {T : Fl r} (hT : 0 < T.val) {k : ℕ} (hk : k ≠ 0) (hk' : k ≤ 2000) (a : Axis) :
    Times.Good T.val r.u
      (Times.onAxis a (((List.range' 0 (2 ^ (Nat.log2 k + 1) - 1)).filter
        fun i => cellSign k i ≠ cellSign k (i + 1)).map fun i : ℕ =>
          (walshRounded T k i, T.val * (((i : ℝ) + 1) / 2 ^ (Nat.log2 k + 1))))) := by
  have hu := r.u_nonneg
  have hu' : r.u ≤ 1 / 1000000 := r.u_le.trans (by norm_num)
  have hm := log2_le_ten hk hk'
  set N := 2 ^ (Nat.log2 k + 1) with hNdef
  have hN : N ≤ 2 ^ 11 := Nat.pow_le_pow_right (by norm_num) (by omega)
  have hNr : (N : ℝ) = 2 ^ (Nat.log2 k + 1) := by rw [hNdef]; push_cast; rfl
  have hN0 : (0 : ℝ) < N := by rw [hNr]; positivity
  have hNl : (N : ℝ) ≤ 2048 := by exact_mod_cast hN
  have hval : ∀ i : ℕ, i + 1 < N →
      (walshRounded T k i).val = r.rnd (T.val * (((i : ℝ) + 1) / N)) := by
    intro i hi
    unfold walshRounded
    rw [val_mul, val_round, ← hNr]
    congr 2
    rw [hNr, r.rnd_div_pow]
    congr 1
    exact_mod_cast r.rnd_nat (n := i + 1) (by omega)
  have hfull : Times.Good T.val r.u ((List.range' 1 (N - 1)).map fun i : ℕ =>
      (walshRounded T k (i - 1), T.val * ((i : ℝ) / N), a)) := by
    have e : 2 * (r.u * T.val) < T.val / N := by
      rw [lt_div_iff₀ hN0]
      have : r.u * N ≤ 1 / 1000000 * 2048 := by gcongr
      nlinarith
    have hTN : 0 < T.val / N := by positivity
    have e' : T.val / N * N = T.val := by field_simp
    have e2 : ∀ x : ℝ, T.val * (x / N) = T.val / N * x := fun x => by ring
    refine Times.good_of_gap hu hT (f := fun i => walshRounded T k (i - 1))
      (f' := fun i : ℕ => T.val * ((i : ℝ) / N)) (fun _ => a) ?_ ?_ ?_
    · intro i h1 h2
      have := hval (i - 1) (by omega)
      rw [this, Nat.cast_sub h1]
      push_cast
      rw [sub_add_cancel]
      refine (r.close _).trans ?_
      rw [abs_of_nonneg (by positivity)]
      have : (i : ℝ) ≤ N := by exact_mod_cast (by omega : i ≤ N)
      rw [e2]
      have : T.val / N * i ≤ T.val := by nlinarith
      gcongr
    · intro i j h1 hij hj
      have hij' : (i : ℝ) + 1 ≤ j := by exact_mod_cast hij
      simp only [e2]
      nlinarith
    · intro i h1 h2
      have h1' : (1 : ℝ) ≤ i := by exact_mod_cast h1
      have h2' : (i : ℝ) + 1 ≤ N := by exact_mod_cast (by omega : i + 1 ≤ N)
      simp only [e2]
      constructor <;> nlinarith
  refine hfull.subset ?_
  intro p hp
  unfold Times.onAxis at hp
  rw [List.map_map] at hp
  obtain ⟨i, hi, rfl⟩ := List.mem_map.mp hp
  have hi' := List.mem_range'_1.mp (List.mem_filter.mp hi).1
  refine List.mem_map.mpr ⟨i + 1, ?_, ?_⟩
  · rw [List.mem_range'_1]; omega
  · simp [hNr]

end OpenControls
