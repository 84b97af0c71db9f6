import Verif.Limited
import Verif.Proofs.RoundingInst

/-!
# Double precision with its limits is an arithmetic of limited range
-/

namespace OpenControls

namespace Bits

/-- rounding of a non-negative number: 53 bits, but multiples of `2⁻¹⁰⁷⁴` -/
noncomputable def limPos (x : ℝ) : ℝ :=
  if x < 2 ^ (-1022 : ℤ) then nearest (x * 2 ^ (1074 : ℤ)) * 2 ^ (-1074 : ℤ) else roundPos 53 x

/-- rounding -/
noncomputable def limRnd (x : ℝ) : ℝ := if 0 ≤ x then limPos x else -limPos (-x)

theorem two_zpow_mul {i j k : ℤ} (h : i + j = k) : (2 : ℝ) ^ i * 2 ^ j = 2 ^ k := by
  rw [← zpow_add₀ (by norm_num : (2 : ℝ) ≠ 0), h]

theorem limPos_exact {m : ℕ} (hm : m ≤ 2 ^ 53) {j : ℤ} (hj : -1074 ≤ j) :
    limPos (m * 2 ^ j) = m * 2 ^ j := by
  unfold limPos
  split
  · obtain ⟨i, rfl⟩ := Int.le.dest hj
    have e : (m : ℝ) * 2 ^ (-1074 + (i : ℤ)) * 2 ^ (1074 : ℤ) = ((m * 2 ^ i : ℤ) : ℝ) := by
      rw [mul_assoc, two_zpow_mul (k := (i : ℤ)) (by ring)]
      push_cast
      rw [zpow_natCast]
    rw [e, nearest_int, ← e, mul_assoc, mul_assoc, two_zpow_mul (k := 0) (by norm_num)]
    simp
  · exact roundPos_exact (by norm_num) hm j

theorem limPos_form {x : ℝ} (hx : 0 ≤ x) :
    ∃ m : ℕ, m ≤ 2 ^ 53 ∧ ∃ j : ℤ, -1074 ≤ j ∧ limPos x = m * 2 ^ j := by
  unfold limPos
  split
  · rename_i h
    have h0 : 0 ≤ nearest (x * 2 ^ (1074 : ℤ)) := by
      have := nearest_mono (show ((0 : ℤ) : ℝ) ≤ x * 2 ^ (1074 : ℤ) by push_cast; positivity)
      rwa [nearest_int] at this
    have h1 : nearest (x * 2 ^ (1074 : ℤ)) ≤ 2 ^ 52 := by
      have : x * 2 ^ (1074 : ℤ) ≤ (((2 ^ 52 : ℤ)) : ℝ) := by
        calc x * 2 ^ (1074 : ℤ) ≤ 2 ^ (-1022 : ℤ) * 2 ^ (1074 : ℤ) := by gcongr
          _ = 2 ^ (52 : ℤ) := two_zpow_mul (by norm_num)
          _ = _ := by push_cast; norm_cast
      have := nearest_mono this
      rwa [nearest_int] at this
    obtain ⟨k, hk⟩ := Int.eq_ofNat_of_zero_le h0
    refine ⟨k, ?_, -1074, le_rfl, ?_⟩
    · rw [hk] at h1
      have : (k : ℤ) ≤ 2 ^ 53 := h1.trans (by norm_num)
      exact_mod_cast this
    · rw [hk]; simp
  · rename_i h
    have h := not_lt.mp h
    have hx : 0 < x := lt_of_lt_of_le (by positivity) h
    obtain ⟨k, -, h2, h3⟩ := roundPos_form hx (show 1 ≤ 53 by norm_num)
    refine ⟨k, h2, _, ?_, h3⟩
    have : (-1022 : ℤ) ≤ Int.log 2 x := by
      have := Int.log_mono_right (b := 2) (by positivity) h
      rwa [show (2 : ℝ) = ((2 : ℕ) : ℝ) by norm_num, Int.log_zpow (by norm_num)] at this
    push_cast
    omega

theorem limPos_nonneg {x : ℝ} (hx : 0 ≤ x) : 0 ≤ limPos x := by
  obtain ⟨m, -, j, -, e⟩ := limPos_form hx
  rw [e]; positivity

theorem limPos_idem {x : ℝ} (hx : 0 ≤ x) : limPos (limPos x) = limPos x := by
  obtain ⟨m, hm, j, hj, e⟩ := limPos_form hx
  rw [e]; exact limPos_exact hm hj

theorem normal_le {x : ℝ} (h : 2 ^ (-1022 : ℤ) ≤ x) : 2 ^ (-1022 : ℤ) ≤ limPos x := by
  unfold limPos
  rw [if_neg (not_lt.mpr h)]
  have := roundPos_mono (p := 53) (by norm_num) (by positivity) h
  have e := roundPos_exact (p := 53) (by norm_num) (show 1 ≤ 2 ^ 53 by norm_num) (-1022)
  simp only [Nat.cast_one, one_mul] at e
  rwa [e] at this

theorem limPos_mono {x y : ℝ} (hx : 0 ≤ x) (h : x ≤ y) : limPos x ≤ limPos y := by
  by_cases h2 : y < 2 ^ (-1022 : ℤ)
  · have h1 := lt_of_le_of_lt h h2
    unfold limPos
    rw [if_pos h1, if_pos h2]
    have := nearest_mono (show x * 2 ^ (1074 : ℤ) ≤ y * 2 ^ (1074 : ℤ) by gcongr)
    gcongr
  · by_cases h1 : x < 2 ^ (-1022 : ℤ)
    · refine le_trans ?_ (normal_le (not_lt.mp h2))
      unfold limPos
      rw [if_pos h1]
      have : x * 2 ^ (1074 : ℤ) ≤ (((2 ^ 52 : ℤ)) : ℝ) := by
        calc x * 2 ^ (1074 : ℤ) ≤ 2 ^ (-1022 : ℤ) * 2 ^ (1074 : ℤ) := by gcongr
          _ = 2 ^ (52 : ℤ) := two_zpow_mul (by norm_num)
          _ = _ := by push_cast; norm_cast
      have := nearest_mono this
      rw [nearest_int] at this
      have h' : (nearest (x * 2 ^ (1074 : ℤ)) : ℝ) ≤ ((2 ^ 52 : ℤ) : ℝ) := by exact_mod_cast this
      calc _ ≤ ((2 ^ 52 : ℤ) : ℝ) * 2 ^ (-1074 : ℤ) := by gcongr
        _ = 2 ^ (52 : ℤ) * 2 ^ (-1074 : ℤ) := by push_cast; norm_cast
        _ = _ := two_zpow_mul (by norm_num)
    · unfold limPos
      rw [if_neg h1, if_neg h2]
      exact roundPos_mono (by norm_num) hx h

theorem limPos_zero_iff {x : ℝ} (hx : 0 ≤ x) : limPos x = 0 ↔ x ≤ 2 ^ (-1074 : ℤ) / 2 := by
  by_cases h : x < 2 ^ (-1022 : ℤ)
  · have e : x = x * 2 ^ (1074 : ℤ) * 2 ^ (-1074 : ℤ) := by
      rw [mul_assoc, two_zpow_mul (k := 0) (by norm_num)]; simp
    have hp : (0 : ℝ) < 2 ^ (-1074 : ℤ) := by positivity
    have h0 : 0 ≤ x * 2 ^ (1074 : ℤ) := by positivity
    unfold limPos
    rw [if_pos h]
    generalize x * 2 ^ (1074 : ℤ) = t at e h0
    rw [mul_eq_zero, or_iff_left hp.ne', Int.cast_eq_zero, e]
    constructor
    · intro h1
      have := nearest_close t
      rw [h1] at this
      have := abs_le.mp this
      push_cast at this
      nlinarith
    · intro h1
      have : t ≤ 1 / 2 := by
        by_contra hc
        nlinarith
      exact nearest_tie (n := 0) (by simp) (by rw [abs_of_nonneg (by simpa using h0)]; simpa using this)
  · have h := not_lt.mp h
    have h1 := normal_le h
    have hp : (0 : ℝ) < 2 ^ (-1022 : ℤ) := by positivity
    constructor
    · intro h2; linarith
    · intro h2
      have : (2 : ℝ) ^ (-1074 : ℤ) ≤ 2 ^ (-1022 : ℤ) := zpow_le_zpow_right₀ (by norm_num) (by norm_num)
      linarith

theorem limRnd_of_nonneg {x : ℝ} (h : 0 ≤ x) : limRnd x = limPos x := if_pos h

theorem limPos_zero : limPos 0 = 0 := (limPos_zero_iff le_rfl).mpr (by positivity)

theorem limRnd_neg (x : ℝ) : limRnd (-x) = -limRnd x := by
  rcases lt_trichotomy x 0 with h | rfl | h
  · rw [limRnd_of_nonneg (by linarith), limRnd, if_neg (by linarith), neg_neg]
  · simp [limRnd, limPos_zero]
  · rw [limRnd_of_nonneg h.le, limRnd, if_neg (by linarith), neg_neg]

theorem limRnd_mono : Monotone limRnd := by
  intro x y h
  rcases le_total 0 x with hx | hx
  · rw [limRnd_of_nonneg hx, limRnd_of_nonneg (hx.trans h)]
    exact limPos_mono hx h
  · rcases le_total 0 y with hy | hy
    · have h1 := limPos_nonneg (show 0 ≤ -x by linarith)
      have h2 := limPos_nonneg hy
      have h3 := limRnd_neg (-x)
      rw [neg_neg, limRnd_of_nonneg (show 0 ≤ -x by linarith)] at h3
      rw [h3, limRnd_of_nonneg hy]
      linarith
    · have h1 := limPos_mono (show 0 ≤ -y by linarith) (show -y ≤ -x by linarith)
      have h3 := limRnd_neg (-x)
      have h4 := limRnd_neg (-y)
      rw [neg_neg, limRnd_of_nonneg (show 0 ≤ -x by linarith)] at h3
      rw [neg_neg, limRnd_of_nonneg (show 0 ≤ -y by linarith)] at h4
      rw [h3, h4]
      linarith

theorem limRnd_idem (x : ℝ) : limRnd (limRnd x) = limRnd x :=
  of_nonneg (P := fun x => limRnd (limRnd x) = limRnd x)
    (fun x hx => by rw [limRnd_of_nonneg hx, limRnd_of_nonneg (limPos_nonneg hx), limPos_idem hx])
    (fun x h => by rw [limRnd_neg, limRnd_neg] at h; linarith) x

/-- representable numbers are multiples of the smallest positive number -/
theorem limRnd_multiple {x : ℝ} (h : limRnd x = x) : ∃ a : ℤ, x = a * 2 ^ (-1074 : ℤ) := by
  have key : ∀ x : ℝ, 0 ≤ x → ∃ a : ℤ, limRnd x = a * 2 ^ (-1074 : ℤ) := by
    intro x hx
    rw [limRnd_of_nonneg hx]
    obtain ⟨m, -, j, hj, e⟩ := limPos_form hx
    obtain ⟨i, rfl⟩ := Int.le.dest hj
    refine ⟨m * 2 ^ i, ?_⟩
    rw [e, ← two_zpow_mul (i := (i : ℤ)) (j := -1074) (by ring), zpow_natCast]
    push_cast
    ring
  rw [← h]
  exact of_nonneg (P := fun x => ∃ a : ℤ, limRnd x = a * 2 ^ (-1074 : ℤ)) key
    (fun x ⟨a, ha⟩ => ⟨-a, by rw [limRnd_neg] at ha; push_cast; linarith⟩) x

theorem limRnd_normal {x : ℝ} (h : 2 ^ (-1022 : ℤ) ≤ |x|) : limRnd x = rnd 53 x := by
  refine of_nonneg (P := fun x => 2 ^ (-1022 : ℤ) ≤ |x| → limRnd x = rnd 53 x) ?_ ?_ x h
  · intro x hx h
    rw [abs_of_nonneg hx] at h
    rw [limRnd_of_nonneg hx, rnd_of_nonneg hx, limPos, if_neg (not_lt.mpr h)]
  · intro x ih h
    rw [abs_neg, limRnd_neg, rnd_neg] at ih
    exact neg_injective (ih h)

theorem limRnd_of_multiple (a : ℤ) : limRnd (a * 2 ^ (-1074 : ℤ)) = rnd 53 (a * 2 ^ (-1074 : ℤ)) := by
  have key : ∀ m : ℕ, limRnd (m * 2 ^ (-1074 : ℤ)) = rnd 53 (m * 2 ^ (-1074 : ℤ)) := by
    intro m
    by_cases hm : m ≤ 2 ^ 53
    · have h : (0 : ℝ) ≤ m * 2 ^ (-1074 : ℤ) := by positivity
      rw [limRnd_of_nonneg h, rnd_of_nonneg h, limPos_exact hm le_rfl, roundPos_exact (by norm_num) hm]
    · apply limRnd_normal
      rw [abs_of_nonneg (by positivity), ← two_zpow_mul (i := 52) (j := -1074) (by norm_num)]
      have : ((2 ^ 53 : ℕ) : ℝ) ≤ m := by exact_mod_cast (not_le.mp hm).le
      have h2 : (2 : ℝ) ^ (52 : ℤ) ≤ ((2 ^ 53 : ℕ) : ℝ) := by norm_num
      gcongr
      exact h2.trans this
  rcases Int.le_total 0 a with h | h
  · obtain ⟨m, rfl⟩ := Int.eq_ofNat_of_zero_le h
    simpa using key m
  · obtain ⟨m, hm⟩ := Int.eq_ofNat_of_zero_le (show 0 ≤ -a by omega)
    have := key m
    have e : (a : ℝ) = -(m : ℝ) := by
      have : a = -(m : ℤ) := by omega
      rw [this]; simp
    rw [e, neg_mul, limRnd_neg, rnd_neg, this]

end Bits

/-- double precision with overflow and underflow -/
noncomputable def Limits.double : Limits Rounding.double where
  rnd := Bits.limRnd
  biggest := (2 ^ 53 - 1 : ℕ) * 2 ^ (971 : ℤ)
  smallest := 2 ^ (-1022 : ℤ)
  tiny := 2 ^ (-1074 : ℤ)
  tiny_pos := by positivity
  tiny_le := zpow_le_zpow_right₀ (by norm_num) (by norm_num)
  smallest_le := by
    rw [one_div, ← zpow_natCast, ← zpow_neg]
    exact zpow_le_zpow_right₀ (by norm_num) (by norm_num)
  le_biggest := by
    have h1 : (1 : ℝ) ≤ ((2 ^ 53 - 1 : ℕ) : ℝ) := by norm_num
    have h2 : (2 : ℝ) ^ 250 ≤ 2 ^ (971 : ℤ) := by
      rw [← zpow_natCast]
      exact zpow_le_zpow_right₀ (by norm_num) (by norm_num)
    exact h2.trans (le_mul_of_one_le_left (by positivity) h1)
  mono := Bits.limRnd_mono
  idem := Bits.limRnd_idem
  neg := Bits.limRnd_neg
  normal x h := Bits.limRnd_normal h
  underflow x hx := by rw [Bits.limRnd_of_nonneg hx]; exact Bits.limPos_zero_iff hx
  tiny_rep := by
    have := Bits.limPos_exact (m := 1) (by norm_num) (le_refl (-1074))
    rw [Bits.limRnd_of_nonneg (by positivity)]
    simpa using this
  biggest_rep := by
    rw [Bits.limRnd_of_nonneg (by positivity)]
    exact Bits.limPos_exact (by norm_num) (by norm_num)
  rep x h := by
    obtain ⟨a, ha⟩ := Bits.limRnd_multiple h
    have := Bits.limRnd_of_multiple a
    rw [← ha, h] at this
    exact this.symm
  add x y hx hy := by
    obtain ⟨a, ha⟩ := Bits.limRnd_multiple hx
    obtain ⟨b, hb⟩ := Bits.limRnd_multiple hy
    have := Bits.limRnd_of_multiple (a + b)
    rw [Int.cast_add, add_mul, ← ha, ← hb] at this
    exact this

/-- powers of two are double-precision numbers -/
theorem Lim.exists_pow {k : ℤ} (h1 : -1074 ≤ k) (h2 : k ≤ 1023) : ∃ a : Lim Limits.double, a.val = .fin (2 ^ k) := by
  refine ⟨⟨.fin (2 ^ k), ?_, ?_⟩, rfl⟩
  · show Bits.limRnd _ = _
    rw [Bits.limRnd_of_nonneg (by positivity)]
    have := Bits.limPos_exact (m := 1) (by norm_num) h1
    simpa using this
  · rw [abs_of_nonneg (by positivity)]
    show (2 : ℝ) ^ k ≤ ((2 ^ 53 - 1 : ℕ) : ℝ) * 2 ^ (971 : ℤ)
    have e : (2 : ℝ) ^ (52 : ℤ) * 2 ^ (971 : ℤ) = 2 ^ (1023 : ℤ) := Bits.two_zpow_mul (by norm_num)
    have h : (2 : ℝ) ^ k ≤ 2 ^ (1023 : ℤ) := zpow_le_zpow_right₀ (by norm_num) h2
    rw [← e] at h
    exact h.trans (mul_le_mul_of_nonneg_right (by norm_num) (by positivity))

/-- twice the largest number is less than a power of two -/
theorem Limits.double_biggest : 2 * Limits.double.biggest ≤ 2 ^ (1025 : ℤ) := by
  show 2 * (((2 ^ 53 - 1 : ℕ) : ℝ) * 2 ^ (971 : ℤ)) ≤ 2 ^ (1025 : ℤ)
  have e : (2 : ℝ) ^ (54 : ℤ) * 2 ^ (971 : ℤ) = 2 ^ (1025 : ℤ) := Bits.two_zpow_mul (by norm_num)
  rw [← e, ← mul_assoc]
  exact mul_le_mul_of_nonneg_right (by norm_num) (by positivity)

end OpenControls
