import Verif.Proofs.Families

/-!
# Lemmas on predefined sequences that coincide
-/

namespace OpenControls

open Spec RealInst

theorem ordered_ext {T : ℝ} {a b : List ℝ} (ha : Ordered T a) (hb : Ordered T b)
    (h : ∀ x, x ∈ a ↔ x ∈ b) : a = b := by
  refine List.Perm.eq_of_pairwise ?_ ha.1 hb.1 ?_
  · intro x y _ _ h1 h2; linarith
  · rw [List.perm_ext_iff_of_nodup (ha.1.imp ne_of_lt) (hb.1.imp ne_of_lt)]
    exact h

/-- Two calls with the same tables agree, also in their errors. -/
theorem Spec.Family.call_congr {f g : Family} (hf : f.Valid) (hg : g.Valid) (T : ℝ)
    (h : 0 < T → f.table T = g.table T)
    (herr : ¬ 0 < T → ∀ prePost name, f.call T prePost name = g.call T prePost name)
    (prePost : Bool) (name : Option String) : f.call T prePost name = g.call T prePost name := by
  by_cases hT : 0 < T
  · rw [Family.call_eq hf hT, Family.call_eq hg hT, h hT]
  · exact herr hT prePost name

/-- the error of every constructor for a duration that is not positive -/
theorem Spec.Family.call_error (f : Family) {T : ℝ} (hT : ¬ 0 < T) (prePost : Bool)
    (name : Option String) : f.call T prePost name =
      .error (.arguments "Sequence duration must be greater than zero.") := by
  have hdur : Py.gt T (PyFloat.lit 0) = false := by simpa using hT
  cases f <;>
    simp only [Family.call, newRamseySequence, newSpinEchoSequence, newCarrPurcellSequence,
      newCPMGSequence, newUhrigSequence, newPeriodicSequence, newWalshSequence,
      newQuadraticSequence, newXConcatenatedSequence, newXYConcatenatedSequence, checkDuration,
      checkArguments_bind, hdur, Bool.false_eq_true, if_false]

theorem Spec.Family.call_eq_of_table {f g : Family} (hf : f.Valid) (hg : g.Valid) (T : ℝ)
    (h : 0 < T → f.table T = g.table T) (prePost : Bool) (name : Option String) :
    f.call T prePost name = g.call T prePost name :=
  Family.call_congr hf hg T h (fun hT pp n => by
    rw [Family.call_error f hT, Family.call_error g hT]) prePost name

/-! ## Where the Walsh functions change sign -/

theorem div_step (a c : ℕ) :
    (c + 1) / a = c / a + if a ∣ c + 1 then 1 else 0 := by
  rw [Nat.succ_div]

/-- The sign changes between the cells `c` and `c + 1` exactly if an odd number of Rademacher factors
changes. -/
theorem cellSign_change (k c : ℕ) : cellSign k c ≠ cellSign k (c + 1) ↔
    Odd ((Finset.range (Nat.log2 k + 1)).filter
      fun j => k.testBit j = true ∧ 2 ^ (Nat.log2 k - j) ∣ c + 1).card := by
  have step : cellSign k (c + 1) = cellSign k c *
      (-1) ^ ((Finset.range (Nat.log2 k + 1)).filter
        fun j => k.testBit j = true ∧ 2 ^ (Nat.log2 k - j) ∣ c + 1).card := by
    rw [← Finset.prod_const, Finset.prod_filter]
    unfold cellSign
    rw [← Finset.prod_mul_distrib]
    refine Finset.prod_congr rfl fun j _ => ?_
    by_cases hb : k.testBit j
    · simp only [hb, if_true, true_and]
      rw [div_step, pow_add]
      split <;> simp
    · simp [hb]
  rw [step]
  have h0 : cellSign k c ≠ 0 := by
    rcases cellSign_cases k c with h | h <;> rw [h] <;> norm_num
  rcases Nat.even_or_odd ((Finset.range (Nat.log2 k + 1)).filter
      fun j => k.testBit j = true ∧ 2 ^ (Nat.log2 k - j) ∣ c + 1).card with h | h
  · rw [h.neg_one_pow, mul_one]
    simpa using Nat.not_odd_iff_even.mpr h
  · rw [h.neg_one_pow]
    refine iff_of_true ?_ h
    intro e
    apply h0
    linarith

theorem mem_walshTimes (T : ℝ) (k : ℕ) (t : ℝ) : t ∈ walshTimes T k ↔
    ∃ c : ℕ, 0 < c ∧ c < 2 ^ (Nat.log2 k + 1) ∧
      Odd ((Finset.range (Nat.log2 k + 1)).filter
        fun j => k.testBit j = true ∧ 2 ^ (Nat.log2 k - j) ∣ c).card ∧
      t = T * ((c : ℝ) / 2 ^ (Nat.log2 k + 1)) := by
  unfold walshTimes
  rw [List.mem_map]
  constructor
  · rintro ⟨i, hi, rfl⟩
    rw [List.mem_filter, List.mem_range'_1] at hi
    refine ⟨i + 1, by omega, by omega, (cellSign_change k i).mp (by simpa using hi.2), ?_⟩
    push_cast
    rfl
  · rintro ⟨c, h0, h1, h2, rfl⟩
    obtain ⟨i, rfl⟩ : ∃ i, c = i + 1 := ⟨c - 1, by omega⟩
    refine ⟨i, ?_, by push_cast; rfl⟩
    rw [List.mem_filter, List.mem_range'_1]
    exact ⟨by omega, by simpa using (cellSign_change k i).mpr h2⟩

theorem mem_periodicTimes (T : ℝ) (n : ℕ) (t : ℝ) : t ∈ periodicTimes T n ↔
    ∃ c : ℕ, 0 < c ∧ c < n + 1 ∧ t = c * (T / (n + 1)) := by
  unfold periodicTimes
  rw [List.mem_map]
  constructor
  · rintro ⟨i, hi, rfl⟩
    rw [List.mem_range'_1] at hi
    exact ⟨i, by omega, by omega, rfl⟩
  · rintro ⟨c, h0, h1, rfl⟩
    exact ⟨c, List.mem_range'_1.mpr (by omega), rfl⟩

theorem mem_cpmgTimes (T : ℝ) (n : ℕ) (t : ℝ) : t ∈ cpmgTimes T n ↔
    ∃ c : ℕ, 0 < c ∧ c < n + 1 ∧ t = T / n * (c - 1 / 2) := by
  unfold cpmgTimes
  rw [List.mem_map]
  constructor
  · rintro ⟨i, hi, rfl⟩
    rw [List.mem_range'_1] at hi
    exact ⟨i, by omega, by omega, rfl⟩
  · rintro ⟨c, h0, h1, rfl⟩
    exact ⟨c, List.mem_range'_1.mpr (by omega), rfl⟩

theorem walsh_power {T : ℝ} (hT : 0 < T) (m : ℕ) :
    walshTimes T (2 ^ m) = periodicTimes T (2 ^ (m + 1) - 1) := by
  refine ordered_ext (walsh_ordered hT _) (periodic_ordered hT _) fun t => ?_
  have hl : Nat.log2 (2 ^ m) = m := Nat.log2_two_pow
  rw [mem_walshTimes, mem_periodicTimes, hl]
  have h2 : 1 ≤ 2 ^ (m + 1) := Nat.one_le_two_pow
  have key : ∀ c : ℕ, ((Finset.range (m + 1)).filter
      fun j => (2 ^ m).testBit j = true ∧ 2 ^ (m - j) ∣ c).card = 1 := by
    intro c
    rw [Finset.card_eq_one]
    refine ⟨m, ?_⟩
    ext j
    simp only [Finset.mem_filter, Finset.mem_range, Finset.mem_singleton, Nat.testBit_two_pow,
      decide_eq_true_eq]
    constructor
    · rintro ⟨-, h, -⟩; exact h.symm
    · rintro rfl; simp
  have hcast : (((2 ^ (m + 1) - 1 : ℕ) : ℝ) + 1) = 2 ^ (m + 1) := by
    rw [Nat.cast_sub h2]; push_cast; ring
  refine exists_congr fun c => ?_
  rw [key c, hcast, Nat.sub_add_cancel h2]
  have e : T * ((c : ℝ) / 2 ^ (m + 1)) = c * (T / 2 ^ (m + 1)) := by ring
  rw [e]
  simp

theorem log2_three (m : ℕ) : Nat.log2 (3 * 2 ^ m) = m + 1 := by
  rw [Nat.log2_eq_iff (by positivity)]
  constructor
  · rw [pow_succ]; omega
  · rw [pow_succ, pow_succ]
    have : 0 < 2 ^ m := by positivity
    omega

theorem testBit_three (m j : ℕ) : (3 * 2 ^ m).testBit j = true ↔ j = m ∨ j = m + 1 := by
  rw [Nat.mul_comm, Nat.testBit_two_pow_mul]
  rcases lt_or_ge j m with h | h
  · simp [not_le.mpr h]; omega
  · obtain ⟨i, rfl⟩ := Nat.exists_eq_add_of_le h
    simp only [ge_iff_le, Nat.le_add_right, decide_true, Bool.true_and, Nat.add_sub_cancel_left]
    rcases i with _ | _ | i
    · simp
    · simp; decide
    · simp [Nat.testBit_succ]

theorem walsh_three {T : ℝ} (hT : 0 < T) (m : ℕ) :
    walshTimes T (3 * 2 ^ m) = cpmgTimes T (2 ^ (m + 1)) := by
  refine ordered_ext (walsh_ordered hT _) (cpmg_ordered hT _) fun t => ?_
  rw [mem_walshTimes, mem_cpmgTimes, log2_three]
  have key : ∀ c : ℕ, Odd ((Finset.range (m + 1 + 1)).filter
      fun j => (3 * 2 ^ m).testBit j = true ∧ 2 ^ (m + 1 - j) ∣ c).card ↔ Odd c := by
    intro c
    have hset : (Finset.range (m + 1 + 1)).filter
        (fun j => (3 * 2 ^ m).testBit j = true ∧ 2 ^ (m + 1 - j) ∣ c) =
        if Odd c then {m + 1} else {m, m + 1} := by
      ext j
      simp only [Finset.mem_filter, Finset.mem_range, testBit_three]
      split
      · rename_i h
        rw [Finset.mem_singleton]
        constructor
        · rintro ⟨-, rfl | rfl, hd⟩
          · have : j + 1 - j = 1 := by omega
            rw [this, pow_one] at hd
            exact absurd hd (by rw [← even_iff_two_dvd, Nat.not_even_iff_odd]; exact h)
          · rfl
        · rintro rfl; simp
      · rename_i h
        rw [Nat.not_odd_iff_even, even_iff_two_dvd] at h
        rw [Finset.mem_insert, Finset.mem_singleton]
        constructor
        · rintro ⟨-, h', -⟩; exact h'
        · rintro (rfl | rfl)
          · refine ⟨by omega, .inl rfl, ?_⟩
            rw [show j + 1 - j = 1 by omega, pow_one]; exact h
          · simp
    rw [hset]
    by_cases h : Odd c
    · simp [h]
    · simp only [h, if_false, iff_false]
      rw [Finset.card_pair (by omega)]
      decide
  constructor
  · rintro ⟨c, h0, h1, h2, rfl⟩
    rw [key] at h2
    obtain ⟨i, rfl⟩ := h2
    refine ⟨i + 1, by omega, ?_, ?_⟩
    · rw [pow_succ] at h1; omega
    · push_cast
      field_simp
      ring
  · rintro ⟨c, h0, h1, rfl⟩
    obtain ⟨i, rfl⟩ : ∃ i, c = i + 1 := ⟨c - 1, by omega⟩
    refine ⟨2 * i + 1, by omega, ?_, (key _).mpr ⟨i, rfl⟩, ?_⟩
    · rw [pow_succ]; omega
    · push_cast
      field_simp
      ring

theorem log2_ones (l : ℕ) : Nat.log2 (2 ^ (l + 1) - 1) = l := by
  have h1 : 1 ≤ 2 ^ l := Nat.one_le_two_pow
  rw [Nat.log2_eq_iff (by rw [pow_succ]; omega), pow_succ]
  omega

theorem walsh_ones {T : ℝ} (hT : 0 < T) (l : ℕ) :
    walshTimes T (2 ^ (l + 1) - 1) = xConcatenatedOffsets T (l + 1) := by
  refine ordered_ext (walsh_ordered hT _) (xOffsets_ordered hT (by omega)) fun t => ?_
  rw [mem_walshTimes, mem_xOffsets hT (by omega), log2_ones]
  refine exists_congr fun c => and_congr_right fun h0 => and_congr_right fun h1 => ?_
  have e : T * ((c : ℝ) / 2 ^ (l + 1)) = c * (T / 2 ^ (l + 1)) := by ring
  rw [e]
  refine and_congr_left fun _ => ?_
  have hv : padicValNat 2 c ≤ l := by
    by_contra hlt
    have : 2 ^ (l + 1) ∣ c := (pow_dvd_pow 2 (by omega)).trans pow_padicValNat_dvd
    exact absurd (Nat.le_of_dvd h0 this) (by omega)
  have hset : (Finset.range (l + 1)).filter
      (fun j => (2 ^ (l + 1) - 1).testBit j = true ∧ 2 ^ (l - j) ∣ c) =
      Finset.Icc (l - padicValNat 2 c) l := by
    ext j
    simp only [Finset.mem_filter, Finset.mem_range, Finset.mem_Icc, Nat.testBit_two_pow_sub_one,
      decide_eq_true_eq]
    rw [padicValNat_dvd_iff_le (by omega)]
    omega
  rw [hset, Nat.card_Icc, show l + 1 - (l - padicValNat 2 c) = padicValNat 2 c + 1 by omega,
    Nat.odd_add_one, Nat.not_odd_iff_even]

theorem uhrig_one (T : ℝ) : uhrigTimes T 1 = cpmgTimes T 1 := by
  have h : Real.pi / (2 * (1 + 1)) = Real.pi / 4 := by ring
  simp only [uhrigTimes, cpmgTimes, List.range', List.map_cons, List.map_nil, Nat.cast_one, one_mul,
    h, Real.sin_pi_div_four]
  rw [div_pow, Real.sq_sqrt (by norm_num)]
  norm_num

theorem uhrig_two (T : ℝ) : uhrigTimes T 2 = cpmgTimes T 2 := by
  have h1 : Real.pi / (2 * (2 + 1)) = Real.pi / 6 := by ring
  have h2 : 2 * Real.pi / (2 * (2 + 1)) = Real.pi / 3 := by ring
  simp only [uhrigTimes, cpmgTimes, List.range', List.map_cons, List.map_nil, Nat.cast_one, one_mul,
    Nat.cast_ofNat, Nat.reduceAdd, h1, h2, Real.sin_pi_div_six, Real.sin_pi_div_three]
  rw [div_pow, div_pow, Real.sq_sqrt (by norm_num)]
  norm_num
  constructor <;> ring

/-- from three pulses on the first Uhrig pulse comes earlier than the first CPMG pulse -/
theorem uhrig_first {n : ℕ} (hn : 3 ≤ n) :
    Real.sin (Real.pi / (2 * (n + 1))) ^ 2 < 1 / (2 * n) := by
  have hpi := Real.pi_pos
  have hn' : (3 : ℝ) ≤ n := by exact_mod_cast hn
  have hx : 0 < Real.pi / (2 * ((n : ℝ) + 1)) := by positivity
  rcases hn.eq_or_lt with rfl | h4
  · have e : Real.sin (Real.pi / (2 * ((3 : ℕ) + 1))) ^ 2 = 1 / 2 - Real.cos (Real.pi / 4) / 2 := by
      rw [Real.sin_sq_eq_half_sub]
      congr 3
      push_cast
      ring
    rw [e, Real.cos_pi_div_four]
    have : (4 / 3 : ℝ) < Real.sqrt 2 := by
      rw [Real.lt_sqrt (by norm_num)]; norm_num
    push_cast
    linarith
  · have hn4 : (4 : ℝ) ≤ n := by exact_mod_cast h4
    have h1 : Real.sin (Real.pi / (2 * (n + 1))) < Real.pi / (2 * (n + 1)) := Real.sin_lt hx
    have h0 : 0 ≤ Real.sin (Real.pi / (2 * (n + 1))) :=
      (Real.sin_pos_of_pos_of_lt_pi hx (div_lt_self hpi (by linarith))).le
    have h2 : Real.sin (Real.pi / (2 * (n + 1))) ^ 2 < (Real.pi / (2 * (n + 1))) ^ 2 :=
      pow_lt_pow_left₀ h1 h0 two_ne_zero
    refine h2.trans_le ?_
    rw [div_pow, div_le_div_iff₀ (by positivity) (by positivity)]
    have hp : Real.pi < 3.1416 := Real.pi_lt_d4
    have : Real.pi ^ 2 < 10 := by nlinarith
    nlinarith

end OpenControls
