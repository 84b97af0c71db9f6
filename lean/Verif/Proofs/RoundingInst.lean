import Verif.Rounding
import Mathlib.Data.Int.Log

/-!
# A rounded arithmetic: `p` bits, round to nearest, ties to even
-/

namespace OpenControls

namespace Bits

/-- round to the nearest integer, ties to even -/
noncomputable def nearest (t : ℝ) : ℤ := if Even ⌊t⌋ then ⌈t - 1 / 2⌉ else ⌊t + 1 / 2⌋

theorem nearest_bounds (t : ℝ) : ⌊t⌋ ≤ nearest t ∧ nearest t ≤ ⌊t⌋ + 1 := by
  have h1 := Int.floor_le t
  have h2 := Int.lt_floor_add_one t
  unfold nearest
  split
  · constructor
    · have : ⌊t⌋ - 1 < ⌈t - 1 / 2⌉ := by
        rw [Int.lt_ceil]; push_cast; linarith
      omega
    · rw [Int.ceil_le]; push_cast; linarith
  · constructor
    · rw [Int.le_floor]; linarith
    · have : ⌊t + 1 / 2⌋ < ⌊t⌋ + 2 := by
        rw [Int.floor_lt]; push_cast; linarith
      omega

theorem nearest_mono : Monotone nearest := by
  intro t t' h
  have hf := Int.floor_mono h
  rcases hf.eq_or_lt with e | e
  · unfold nearest
    rw [e]
    split
    · exact Int.ceil_mono (by linarith)
    · exact Int.floor_mono (by linarith)
  · have h1 := (nearest_bounds t).2
    have h2 := (nearest_bounds t').1
    omega

theorem nearest_int (n : ℤ) : nearest n = n := by
  unfold nearest
  rw [Int.floor_intCast]
  split
  · rw [Int.ceil_eq_iff]; constructor <;> linarith
  · rw [Int.floor_eq_iff]; constructor <;> linarith

theorem nearest_close (t : ℝ) : |(nearest t : ℝ) - t| ≤ 1 / 2 := by
  unfold nearest
  rw [abs_le]
  split
  · have h1 := Int.le_ceil (t - 1 / 2)
    have h2 := Int.ceil_lt_add_one (t - 1 / 2)
    constructor <;> linarith
  · have h1 := Int.floor_le (t + 1 / 2)
    have h2 := Int.lt_floor_add_one (t + 1 / 2)
    constructor <;> linarith

/-- weight of the last bit -/
noncomputable def ulp (p : ℕ) (x : ℝ) : ℝ := 2 ^ (Int.log 2 x - p + 1)

theorem ulp_pos (p : ℕ) (x : ℝ) : 0 < ulp p x := by unfold ulp; positivity

/-- rounding of a non-negative number -/
noncomputable def roundPos (p : ℕ) (x : ℝ) : ℝ := ulp p x * nearest (x / ulp p x)

/-- rounding -/
noncomputable def rnd (p : ℕ) (x : ℝ) : ℝ := if 0 ≤ x then roundPos p x else -roundPos p (-x)

variable {p : ℕ}

theorem roundPos_zero : roundPos p 0 = 0 := by
  unfold roundPos
  have : nearest (0 / ulp p 0) = 0 := by
    have := nearest_int 0
    simpa using this
  rw [this]; simp

theorem roundPos_exact (hp : 1 ≤ p) {m : ℕ} (hm : m ≤ 2 ^ p) (j : ℤ) :
    roundPos p (m * 2 ^ j) = m * 2 ^ j := by
  rcases Nat.eq_zero_or_pos m with rfl | hm0
  · simp [roundPos_zero]
  have hlog : Nat.log 2 m ≤ p := by
    have := Nat.log_mono_right (b := 2) hm
    rwa [Nat.log_pow (by norm_num)] at this
  have hL : Int.log 2 ((m : ℝ) * 2 ^ j) = (Nat.log 2 m : ℤ) + j := by
    have h1 : 2 ^ Nat.log 2 m ≤ m := Nat.pow_log_le_self 2 hm0.ne'
    have h2 : m < 2 ^ (Nat.log 2 m + 1) := Nat.lt_pow_succ_log_self (by norm_num) m
    have h1' : (2 : ℝ) ^ Nat.log 2 m ≤ m := by exact_mod_cast h1
    have h2' : (m : ℝ) < 2 ^ (Nat.log 2 m + 1) := by exact_mod_cast h2
    have hpos : (0 : ℝ) < m * 2 ^ j := by positivity
    have hj : (0 : ℝ) < 2 ^ j := by positivity
    apply le_antisymm
    · have : Int.log 2 ((m : ℝ) * 2 ^ j) < (Nat.log 2 m : ℤ) + j + 1 := by
        rw [← Int.lt_zpow_iff_log_lt (by norm_num) hpos]
        push_cast
        rw [add_right_comm, zpow_add₀ (by norm_num)]
        exact mul_lt_mul_of_pos_right (by exact_mod_cast h2') hj
      omega
    · rw [← Int.zpow_le_iff_le_log (by norm_num) hpos]
      push_cast
      rw [zpow_add₀ (by norm_num)]
      exact mul_le_mul_of_nonneg_right (by exact_mod_cast h1') hj.le
  have key : ∃ n : ℤ, (m : ℝ) * 2 ^ j = ulp p ((m : ℝ) * 2 ^ j) * n := by
    unfold ulp
    rw [hL]
    rcases hlog.eq_or_lt with e | e
    · have hmp : m = 2 ^ p := by
        apply le_antisymm hm
        rw [← e]; exact Nat.pow_log_le_self 2 hm0.ne'
      refine ⟨2 ^ (p - 1), ?_⟩
      rw [e, hmp]
      push_cast
      rw [show ((p : ℤ) + j - p + 1) = j + 1 by ring, zpow_add₀ (by norm_num), zpow_one]
      obtain ⟨q, rfl⟩ : ∃ q, p = q + 1 := ⟨p - 1, by omega⟩
      rw [Nat.add_sub_cancel, pow_succ]
      ring
    · refine ⟨m * 2 ^ (p - 1 - Nat.log 2 m), ?_⟩
      push_cast
      rw [show ((Nat.log 2 m : ℤ) + j - p + 1) = j - ((p - 1 - Nat.log 2 m : ℕ) : ℤ) by omega,
        zpow_sub₀ (by norm_num), zpow_natCast]
      field_simp
  obtain ⟨n, hn⟩ := key
  unfold roundPos
  have hu := ulp_pos p ((m : ℝ) * 2 ^ j)
  set s := ulp p ((m : ℝ) * 2 ^ j)
  rw [hn, mul_div_cancel_left₀ _ hu.ne', nearest_int]

/-- scaled size of a positive number -/
theorem scaled {x : ℝ} (hx : 0 < x) (hp : 1 ≤ p) :
    ((2 ^ (p - 1) : ℕ) : ℝ) ≤ x / ulp p x ∧ x / ulp p x < ((2 ^ p : ℕ) : ℝ) ∧
      ulp p x * (2 ^ (p - 1) : ℕ) = 2 ^ Int.log 2 x ∧
      ulp p x * (2 ^ p : ℕ) = 2 ^ (Int.log 2 x + 1) := by
  have h1 : (2 : ℝ) ^ Int.log 2 x ≤ x := by
    have := Int.zpow_log_le_self (b := 2) (by norm_num) hx; exact_mod_cast this
  have h2 : x < (2 : ℝ) ^ (Int.log 2 x + 1) := by
    have := Int.lt_zpow_succ_log_self (b := 2) (by norm_num) x; exact_mod_cast this
  have hu := ulp_pos p x
  have e1 : ulp p x * (2 ^ (p - 1) : ℕ) = 2 ^ Int.log 2 x := by
    unfold ulp
    push_cast
    rw [← zpow_natCast, ← zpow_add₀ (by norm_num)]
    congr 1
    omega
  have e2 : ulp p x * (2 ^ p : ℕ) = 2 ^ (Int.log 2 x + 1) := by
    unfold ulp
    push_cast
    rw [← zpow_natCast, ← zpow_add₀ (by norm_num)]
    congr 1
    omega
  refine ⟨?_, ?_, e1, e2⟩
  · rw [le_div_iff₀ hu, mul_comm, e1]; exact h1
  · rw [div_lt_iff₀ hu, mul_comm, e2]; exact h2

theorem roundPos_form {x : ℝ} (hx : 0 < x) (hp : 1 ≤ p) :
    ∃ k : ℕ, 2 ^ (p - 1) ≤ k ∧ k ≤ 2 ^ p ∧ roundPos p x = k * ulp p x := by
  obtain ⟨h1, h2, -, -⟩ := scaled hx hp
  have n1 : (((2 ^ (p - 1) : ℕ) : ℤ)) ≤ nearest (x / ulp p x) := by
    have := nearest_mono h1
    have e := nearest_int ((2 ^ (p - 1) : ℕ) : ℤ)
    rw [Int.cast_natCast] at e
    rwa [e] at this
  have n2 : nearest (x / ulp p x) ≤ ((2 ^ p : ℕ) : ℤ) := by
    have := nearest_mono h2.le
    have e := nearest_int ((2 ^ p : ℕ) : ℤ)
    rw [Int.cast_natCast] at e
    rwa [e] at this
  have n0 : 0 ≤ nearest (x / ulp p x) := le_trans (by positivity) n1
  obtain ⟨k, hk⟩ := Int.eq_ofNat_of_zero_le n0
  rw [hk] at n1 n2
  refine ⟨k, by exact_mod_cast n1, by exact_mod_cast n2, ?_⟩
  unfold roundPos
  rw [hk, mul_comm]
  simp

theorem roundPos_bounds {x : ℝ} (hx : 0 < x) (hp : 1 ≤ p) :
    (2 : ℝ) ^ Int.log 2 x ≤ roundPos p x ∧ roundPos p x ≤ 2 ^ (Int.log 2 x + 1) := by
  obtain ⟨k, h1, h2, h3⟩ := roundPos_form hx hp
  obtain ⟨-, -, e1, e2⟩ := scaled hx hp
  have hu := ulp_pos p x
  have h1' : ((2 ^ (p - 1) : ℕ) : ℝ) ≤ k := by exact_mod_cast h1
  have h2' : (k : ℝ) ≤ ((2 ^ p : ℕ) : ℝ) := by exact_mod_cast h2
  rw [h3, ← e1, ← e2, mul_comm]
  constructor
  · exact mul_le_mul_of_nonneg_right h1' hu.le
  · rw [mul_comm]; exact mul_le_mul_of_nonneg_left h2' hu.le

theorem roundPos_nonneg (hp : 1 ≤ p) {x : ℝ} (hx : 0 ≤ x) : 0 ≤ roundPos p x := by
  rcases hx.eq_or_lt with rfl | hx
  · rw [roundPos_zero]
  · exact le_trans (by positivity) (roundPos_bounds hx hp).1

theorem roundPos_mono (hp : 1 ≤ p) {x y : ℝ} (hx : 0 ≤ x) (h : x ≤ y) :
    roundPos p x ≤ roundPos p y := by
  rcases hx.eq_or_lt with rfl | hx
  · rw [roundPos_zero]; exact roundPos_nonneg hp h
  have hl : Int.log 2 x ≤ Int.log 2 y := Int.log_mono_right hx h
  rcases hl.eq_or_lt with e | e
  · have eu : ulp p x = ulp p y := by unfold ulp; rw [e]
    unfold roundPos
    rw [eu]
    have hu := ulp_pos p y
    apply mul_le_mul_of_nonneg_left _ hu.le
    exact_mod_cast nearest_mono (div_le_div_of_nonneg_right h hu.le)
  · refine (roundPos_bounds hx hp).2.trans (le_trans ?_ (roundPos_bounds (hx.trans_le h) hp).1)
    exact zpow_le_zpow_right₀ (by norm_num) (by omega)

theorem roundPos_close (hp : 1 ≤ p) {x : ℝ} (hx : 0 ≤ x) :
    |roundPos p x - x| ≤ 1 / 2 ^ p * x := by
  rcases hx.eq_or_lt with rfl | hx
  · rw [roundPos_zero]; simp
  have hu := ulp_pos p x
  obtain ⟨h1, -, -, -⟩ := scaled hx hp
  have e : roundPos p x - x = ulp p x * (nearest (x / ulp p x) - x / ulp p x) := by
    unfold roundPos
    rw [mul_sub, mul_div_cancel₀ _ hu.ne']
  rw [e, abs_mul, abs_of_pos hu]
  have hn := nearest_close (x / ulp p x)
  rw [le_div_iff₀ hu] at h1
  push_cast at h1
  have hpp : (2 : ℝ) ^ p = 2 ^ (p - 1) * 2 := by
    rw [← pow_succ]; congr 1; omega
  calc ulp p x * |(nearest (x / ulp p x) : ℝ) - x / ulp p x| ≤ ulp p x * (1 / 2) := by gcongr
    _ ≤ 1 / 2 ^ p * x := by
      rw [hpp, one_div_mul_eq_div, le_div_iff₀ (by positivity)]
      linarith

theorem roundPos_idem (hp : 1 ≤ p) {x : ℝ} (hx : 0 ≤ x) :
    roundPos p (roundPos p x) = roundPos p x := by
  rcases hx.eq_or_lt with rfl | hx
  · rw [roundPos_zero, roundPos_zero]
  · obtain ⟨k, -, h2, h3⟩ := roundPos_form hx hp
    rw [h3]
    exact roundPos_exact hp h2 _

theorem roundPos_half {x : ℝ} (hx : 0 ≤ x) : roundPos p (x / 2) = roundPos p x / 2 := by
  rcases hx.eq_or_lt with rfl | hx
  · rw [zero_div, roundPos_zero]; simp
  have h1 : (2 : ℝ) ^ Int.log 2 x ≤ x := by
    have := Int.zpow_log_le_self (b := 2) (by norm_num) hx; exact_mod_cast this
  have h2 : x < (2 : ℝ) ^ (Int.log 2 x + 1) := by
    have := Int.lt_zpow_succ_log_self (b := 2) (by norm_num) x; exact_mod_cast this
  have hx2 : 0 < x / 2 := by positivity
  have hl : Int.log 2 (x / 2) = Int.log 2 x - 1 := by
    apply le_antisymm
    · have : Int.log 2 (x / 2) < Int.log 2 x := by
        rw [← Int.lt_zpow_iff_log_lt (by norm_num) hx2]
        rw [zpow_add₀ (by norm_num), zpow_one] at h2
        push_cast
        linarith
      omega
    · rw [← Int.zpow_le_iff_le_log (by norm_num) hx2]
      push_cast
      rw [zpow_sub₀ (by norm_num), zpow_one]
      linarith
  have eu : ulp p (x / 2) = ulp p x / 2 := by
    unfold ulp
    rw [hl, show Int.log 2 x - 1 - p + 1 = Int.log 2 x - p + 1 - 1 by ring, zpow_sub₀ (by norm_num),
      zpow_one]
  unfold roundPos
  rw [eu, div_div_div_cancel_right₀ (by norm_num)]
  ring

theorem rnd_of_nonneg {x : ℝ} (h : 0 ≤ x) : rnd p x = roundPos p x := if_pos h

theorem rnd_zero : rnd p 0 = 0 := by rw [rnd_of_nonneg le_rfl, roundPos_zero]

theorem rnd_neg (x : ℝ) : rnd p (-x) = -rnd p x := by
  rcases lt_trichotomy x 0 with h | rfl | h
  · rw [rnd_of_nonneg (by linarith), rnd, if_neg (by linarith), neg_neg]
  · simp [rnd_zero]
  · rw [rnd, if_neg (by linarith), neg_neg, rnd_of_nonneg h.le]

theorem rnd_mono (hp : 1 ≤ p) : Monotone (rnd p) := by
  intro x y h
  rcases le_total 0 x with hx | hx
  · rw [rnd_of_nonneg hx, rnd_of_nonneg (hx.trans h)]
    exact roundPos_mono hp hx h
  · have e : rnd p x = -roundPos p (-x) := by
      rw [← neg_neg (rnd p x), ← rnd_neg, rnd_of_nonneg (by linarith)]
    rcases le_total 0 y with hy | hy
    · rw [e, rnd_of_nonneg hy]
      have h1 := roundPos_nonneg hp (x := -x) (by linarith)
      have h2 := roundPos_nonneg hp hy
      linarith
    · have e' : rnd p y = -roundPos p (-y) := by
        rw [← neg_neg (rnd p y), ← rnd_neg, rnd_of_nonneg (by linarith)]
      rw [e, e']
      have := roundPos_mono hp (x := -y) (y := -x) (by linarith) (by linarith)
      linarith

theorem of_nonneg {P : ℝ → Prop} (h : ∀ x, 0 ≤ x → P x) (hn : ∀ x, P (-x) → P x) (x : ℝ) : P x := by
  rcases le_total 0 x with hx | hx
  · exact h x hx
  · exact hn x (h (-x) (by linarith))

theorem rnd_idem (hp : 1 ≤ p) (x : ℝ) : rnd p (rnd p x) = rnd p x :=
  of_nonneg (P := fun x => rnd p (rnd p x) = rnd p x)
    (fun x hx => by
      rw [rnd_of_nonneg hx, rnd_of_nonneg (roundPos_nonneg hp hx), roundPos_idem hp hx])
    (fun x h => by simp only [rnd_neg] at h; exact neg_injective h) x

theorem rnd_close (hp : 1 ≤ p) (x : ℝ) : |rnd p x - x| ≤ 1 / 2 ^ p * |x| :=
  of_nonneg (P := fun x => |rnd p x - x| ≤ 1 / 2 ^ p * |x|)
    (fun x hx => by rw [rnd_of_nonneg hx, abs_of_nonneg hx]; exact roundPos_close hp hx)
    (fun x h => by rw [rnd_neg, abs_neg, neg_sub_neg, abs_sub_comm] at h; exact h) x

theorem rnd_half (x : ℝ) : rnd p (x / 2) = rnd p x / 2 :=
  of_nonneg (P := fun x => rnd p (x / 2) = rnd p x / 2)
    (fun x hx => by rw [rnd_of_nonneg hx, rnd_of_nonneg (by positivity), roundPos_half hx])
    (fun x h => by rw [neg_div, rnd_neg, rnd_neg] at h; linarith) x

theorem abs_sum_le (l : List ℝ) : |l.sum| ≤ (l.map fun x => |x|).sum := by
  induction l with
  | nil => simp
  | cons x l ih =>
    simp only [List.sum_cons, List.map_cons]
    exact (abs_add_le _ _).trans (add_le_add le_rfl ih)

theorem rnd_nat (hp : 1 ≤ p) {n : ℕ} (h : n ≤ 2 ^ p) : rnd p n = n := by
  rw [rnd_of_nonneg (by positivity)]
  have := roundPos_exact hp h 0
  simpa using this

theorem log_eq {x : ℝ} {e : ℤ} (h1 : (2 : ℝ) ^ e ≤ x) (h2 : x < 2 ^ (e + 1)) : Int.log 2 x = e := by
  have hx : 0 < x := lt_of_lt_of_le (by positivity) h1
  apply le_antisymm
  · have : Int.log 2 x < e + 1 := by
      rw [← Int.lt_zpow_iff_log_lt (by norm_num) hx]; exact_mod_cast h2
    omega
  · rw [← Int.zpow_le_iff_le_log (by norm_num) hx]; exact_mod_cast h1

/-- rounding of a multiple of a power of two with `p + k` bits -/
theorem roundPos_scaled {y : ℝ} {j : ℤ} {k : ℕ} (h1 : 2 ^ (p + k) ≤ 2 * y) (h2 : y < 2 ^ (p + k)) :
    roundPos p (y * 2 ^ j) = 2 ^ k * nearest (y / 2 ^ k) * 2 ^ j := by
  have hj : (0 : ℝ) < 2 ^ j := by positivity
  have hl : Int.log 2 (y * 2 ^ j) = (p : ℤ) + k - 1 + j := by
    apply log_eq
    · rw [zpow_add₀ (by norm_num)]
      apply mul_le_mul_of_nonneg_right _ hj.le
      rw [zpow_sub₀ (by norm_num), zpow_one, div_le_iff₀ (by norm_num)]
      have : (2 : ℝ) ^ ((p : ℤ) + k) = 2 ^ (p + k) := by rw [← Nat.cast_add, zpow_natCast]
      rw [this]; linarith
    · rw [show (p : ℤ) + k - 1 + j + 1 = ((p + k : ℕ) : ℤ) + j by push_cast; ring,
        zpow_add₀ (by norm_num), zpow_natCast]
      exact mul_lt_mul_of_pos_right h2 hj
  have eu : ulp p (y * 2 ^ j) = 2 ^ k * 2 ^ j := by
    unfold ulp
    rw [hl, show (p : ℤ) + k - 1 + j - p + 1 = (k : ℤ) + j by ring, zpow_add₀ (by norm_num),
      zpow_natCast]
  unfold roundPos
  rw [eu, mul_div_mul_right _ _ hj.ne']
  ring

theorem nearest_eq {t : ℝ} {n : ℤ} (h : |t - n| < 1 / 2) : nearest t = n := by
  have h1 := abs_le.mp (nearest_close t)
  have h2 := abs_lt.mp h
  have a : ((nearest t : ℤ) : ℝ) < n + 1 := by linarith
  have b : (n : ℝ) < nearest t + 1 := by linarith
  have a' : nearest t < n + 1 := by exact_mod_cast a
  have b' : n < nearest t + 1 := by exact_mod_cast b
  omega

theorem nearest_tie {n : ℤ} (hn : Even n) {t : ℝ} (h : |t - n| ≤ 1 / 2) : nearest t = n := by
  rcases h.lt_or_eq with h | h
  · exact nearest_eq h
  rcases eq_or_eq_neg_of_abs_eq h with h | h
  · have ht : t = n + 1 / 2 := by linarith
    have hf : ⌊t⌋ = n := by rw [Int.floor_eq_iff, ht]; constructor <;> linarith
    unfold nearest
    rw [hf, if_pos hn, ht, add_sub_cancel_right, Int.ceil_intCast]
  · have ht : t = ((n - 1 : ℤ) : ℝ) + 1 / 2 := by push_cast; linarith
    have hf : ⌊t⌋ = n - 1 := by rw [Int.floor_eq_iff, ht]; constructor <;> linarith
    unfold nearest
    rw [hf, if_neg (by rw [Int.even_sub_one]; simpa using hn), ht,
      show ((n - 1 : ℤ) : ℝ) + 1 / 2 + 1 / 2 = (n : ℝ) by push_cast; ring, Int.floor_intCast]

theorem quarters_pos (hp : 2 ≤ p) {x : ℝ} (hx : 0 < x) (hr : roundPos p x = x) :
    roundPos p (roundPos p (3 * x) + x) = 4 * x := by
  obtain ⟨k0, h1, h2, h3⟩ := roundPos_form hx (by omega : 1 ≤ p)
  rw [hr] at h3
  -- x = m 2^j with 2^(p-1) ≤ m < 2^p
  obtain ⟨m, j, hm1, hm2, hxm⟩ : ∃ (m : ℕ) (j : ℤ), 2 ^ p ≤ 2 * m ∧ m < 2 ^ p ∧ x = m * 2 ^ j := by
    have hpp : 2 ^ p = 2 * 2 ^ (p - 1) := by rw [← pow_succ']; congr 1; omega
    rcases h2.eq_or_lt with e | e
    · have h0 : 0 < 2 ^ (p - 1) := by positivity
      refine ⟨2 ^ (p - 1), Int.log 2 x - p + 1 + 1, by omega, by omega, ?_⟩
      have hu : (2 : ℝ) ^ (Int.log 2 x - p + 1 + 1) = ulp p x * 2 := by
        unfold ulp
        rw [zpow_add₀ (by norm_num), zpow_one]
      rw [hu]
      refine h3.trans ?_
      rw [e, hpp]
      push_cast
      ring
    · exact ⟨k0, _, by omega, e, h3⟩
  have hm1' : (2 : ℝ) ^ p ≤ 2 * m := by exact_mod_cast hm1
  have hm2' : (m : ℝ) + 1 ≤ 2 ^ p := by exact_mod_cast hm2
  have hp1 : (2 : ℝ) ^ (p + 1) = 2 * 2 ^ p := by rw [pow_succ]; ring
  have hp2 : (2 : ℝ) ^ (p + 2) = 4 * 2 ^ p := by rw [pow_succ, hp1]; ring
  have hj : (0 : ℝ) < 2 ^ j := by positivity
  have h4 : 4 ≤ 2 ^ p := by
    calc 4 = 2 ^ 2 := by norm_num
      _ ≤ 2 ^ p := Nat.pow_le_pow_right (by norm_num) hp
  have hm0 : (2 : ℝ) ≤ m := by exact_mod_cast (by omega : 2 ≤ m)
  -- the second rounding, if the first one is off by less than a half
  have final : ∀ d : ℝ, 2 ^ (p + 2) ≤ 2 * (4 * (m : ℝ) + d) → |d / 4| ≤ 1 / 2 →
      (|d / 4| = 1 / 2 → Even (m : ℤ)) → 4 * (m : ℝ) + d < 2 ^ (p + 2) →
      roundPos p ((4 * m + d) * 2 ^ j) = 4 * (m * 2 ^ j) := by
    intro d hd1 hd2 hd3 hd4
    rw [roundPos_scaled (k := 2) hd1 hd4]
    have e : (4 * (m : ℝ) + d) / 2 ^ 2 - (m : ℤ) = d / 4 := by push_cast; ring
    have : nearest ((4 * (m : ℝ) + d) / 2 ^ 2) = m := by
      rcases hd2.lt_or_eq with h | h
      · exact nearest_eq (by rw [e]; exact h)
      · exact nearest_tie (hd3 h) (by rw [e]; exact hd2)
    rw [this]; push_cast; ring
  rw [hxm, ← mul_assoc]
  rcases lt_or_ge (3 * m) (2 ^ (p + 1)) with hc | hc
  · have hc' : 3 * (m : ℝ) < 2 ^ (p + 1) := by exact_mod_cast hc
    rw [roundPos_scaled (k := 1) (by rw [hp1]; linarith) hc']
    set n := nearest (3 * (m : ℝ) / 2 ^ 1) with hn
    have hclose := abs_le.mp (nearest_close (3 * (m : ℝ) / 2 ^ 1))
    rw [← hn] at hclose
    set d : ℤ := 2 * n - 3 * m with hd
    have hd1 : (d : ℝ) ≤ 1 := by rw [hd]; push_cast; linarith [hclose.2]
    have hd2 : (-1 : ℝ) ≤ d := by rw [hd]; push_cast; linarith [hclose.1]
    have hd1' : d ≤ 1 := by exact_mod_cast hd1
    have hd2' : -1 ≤ d := by exact_mod_cast hd2
    have e : (2 : ℝ) ^ 1 * n * 2 ^ j + m * 2 ^ j = (4 * m + d) * 2 ^ j := by
      rw [hd]; push_cast; ring
    rw [e]
    apply final
    · rcases Nat.even_or_odd m with he | ho
      · have hd0 : d = 0 := by
          obtain ⟨q, hq⟩ := he
          omega
        rw [hd0, hp2]; push_cast; linarith
      · have : 2 ^ p + 1 ≤ 2 * m := by
          have hpe : 2 ^ p = 4 * 2 ^ (p - 2) := by
            rw [show 4 = 2 ^ 2 by norm_num, ← pow_add]; congr 1; omega
          obtain ⟨q, hq⟩ := ho
          omega
        have : (2 : ℝ) ^ p + 1 ≤ 2 * m := by exact_mod_cast this
        rw [hp2]; linarith
    · rw [abs_le]; constructor <;> linarith
    · intro h
      rcases eq_or_eq_neg_of_abs_eq h with h | h <;> exfalso <;> linarith
    · rw [hp2]; linarith
  · have hc' : (2 : ℝ) ^ (p + 1) ≤ 3 * (m : ℝ) := by exact_mod_cast hc
    rw [roundPos_scaled (k := 2) (by rw [hp2]; rw [hp1] at hc'; linarith) (by rw [hp2]; linarith)]
    set n := nearest (3 * (m : ℝ) / 2 ^ 2) with hn
    have hclose := abs_le.mp (nearest_close (3 * (m : ℝ) / 2 ^ 2))
    rw [← hn] at hclose
    set d : ℤ := 4 * n - 3 * m with hd
    have hd1 : (d : ℝ) ≤ 2 := by rw [hd]; push_cast; linarith [hclose.2]
    have hd2 : (-2 : ℝ) ≤ d := by rw [hd]; push_cast; linarith [hclose.1]
    have e : (2 : ℝ) ^ 2 * n * 2 ^ j + m * 2 ^ j = (4 * m + d) * 2 ^ j := by
      rw [hd]; push_cast; ring
    rw [e]
    apply final
    · rw [hp2]; rw [hp1] at hc'; linarith
    · rw [abs_le]; constructor <;> linarith
    · intro h
      have : d = 2 ∨ d = -2 := by
        rcases eq_or_eq_neg_of_abs_eq h with h | h
        · left; have : (d : ℝ) = 2 := by linarith
          exact_mod_cast this
        · right; have : (d : ℝ) = -2 := by linarith
          exact_mod_cast this
      rw [Int.even_iff]
      omega
    · rw [hp2]; linarith

theorem quarters (hp : 2 ≤ p) (x : ℝ) (hr : rnd p x = x) : rnd p (rnd p (3 * x) + x) = 4 * x := by
  have pos : ∀ x, 0 ≤ x → rnd p x = x → rnd p (rnd p (3 * x) + x) = 4 * x := by
    intro x hx hr
    rcases hx.eq_or_lt with rfl | hx
    · simp [rnd_zero]
    · have h1 : 0 ≤ roundPos p (3 * x) := roundPos_nonneg (by omega) (by positivity)
      rw [rnd_of_nonneg (by positivity : 0 ≤ 3 * x), rnd_of_nonneg (by positivity)]
      rw [rnd_of_nonneg hx.le] at hr
      exact quarters_pos hp hx hr
  rcases le_total 0 x with hx | hx
  · exact pos x hx hr
  · have := pos (-x) (by linarith) (by rw [rnd_neg, hr])
    rw [mul_neg, rnd_neg, ← neg_add, rnd_neg, mul_neg] at this
    exact neg_injective this

/-- summation with rounding after each addition -/
noncomputable def sum (p : ℕ) : List ℝ → ℝ
  | [] => 0
  | x :: l => rnd p (x + sum p l)

theorem sum_close (hp : 1 ≤ p) (l : List ℝ) :
    |sum p l - l.sum| ≤ ((1 + 1 / 2 ^ p) ^ l.length - 1) * (l.map fun x => |x|).sum := by
  induction l with
  | nil => simp [sum]
  | cons x l ih =>
    simp only [sum, List.sum_cons, List.length_cons, List.map_cons]
    set u : ℝ := 1 / 2 ^ p with hu
    have hu0 : 0 ≤ u := by positivity
    set A := (l.map fun x => |x|).sum with hA
    have hA0 : |l.sum| ≤ A := abs_sum_le l
    have hA1 : 0 ≤ A := (abs_nonneg _).trans hA0
    set q := (1 + u) ^ l.length with hq
    have hq1 : 1 ≤ q := one_le_pow₀ (by linarith)
    have c := rnd_close hp (x + sum p l)
    have h1 : |rnd p (x + sum p l) - (x + l.sum)| ≤
        |rnd p (x + sum p l) - (x + sum p l)| + |sum p l - l.sum| := by
      have : rnd p (x + sum p l) - (x + l.sum) =
        (rnd p (x + sum p l) - (x + sum p l)) + (sum p l - l.sum) := by ring
      rw [this]; exact abs_add_le _ _
    have h2 : |x + sum p l| ≤ |x| + (|l.sum| + |sum p l - l.sum|) := by
      have : x + sum p l = x + (l.sum + (sum p l - l.sum)) := by ring
      rw [this]
      exact (abs_add_le _ _).trans (add_le_add le_rfl (abs_add_le _ _))
    have h3 : u * |x + sum p l| ≤ u * (|x| + (A + (q - 1) * A)) := by gcongr; linarith
    rw [pow_succ, ← hq]
    have h4 : 0 ≤ |x| := abs_nonneg x
    have h5 : 0 ≤ (q * (1 + u) - 1 - u) * |x| := mul_nonneg (by nlinarith) h4
    nlinarith

theorem pow_bound {u : ℝ} (hu : 0 ≤ u) {n : ℕ} (h : n * u ≤ 1 / 2) :
    (1 + u) ^ n - 1 ≤ 2 * n * u := by
  have h1 : 1 + u ≤ Real.exp u := by linarith [Real.add_one_le_exp u]
  have h2 : (1 + u) ^ n ≤ Real.exp (n * u) := by
    rw [Real.exp_nat_mul]
    exact pow_le_pow_left₀ (by linarith) h1 n
  have h0 : 0 ≤ n * u := by positivity
  have h3 := Real.exp_bound_div_one_sub_of_interval h0 (by linarith : n * u < 1)
  have h4 : 1 / (1 - n * u) ≤ 1 + 2 * (n * u) := by
    rw [div_le_iff₀ (by linarith)]; nlinarith
  linarith

end Bits

/-- floating-point arithmetic with `p` bits, round to nearest, ties to even, without underflow and
overflow; the library functions are correctly rounded -/
noncomputable def Rounding.bits (p : ℕ) (hp : 20 ≤ p) : Rounding :=
  have h1 : 1 ≤ p := by omega
  have hu : (0 : ℝ) ≤ 1 / 2 ^ p := by positivity
  have lib : ∀ g : ℝ → ℝ, ∀ x, |Bits.rnd p (g x) - g x| ≤ 2 * (1 / 2 ^ p) * |g x| := fun g x =>
    (Bits.rnd_close h1 (g x)).trans (by nlinarith [abs_nonneg (g x), mul_nonneg hu (abs_nonneg (g x))])
  have hnat : ∀ n : ℕ, n * (1 / 2 ^ p : ℝ) ≤ 1 → Bits.rnd p n = n := fun n h => Bits.rnd_nat h1 (by
    rw [mul_one_div, div_le_one (by positivity)] at h
    exact_mod_cast h)
  { rnd := Bits.rnd p
    u := 1 / 2 ^ p
    u_nonneg := hu
    u_le := one_div_le_one_div_of_le (by positivity) (pow_le_pow_right₀ (by norm_num) hp)
    mono := Bits.rnd_mono h1
    idem := Bits.rnd_idem h1
    neg := Bits.rnd_neg
    close := Bits.rnd_close h1
    half := Bits.rnd_half
    nat := hnat
    quarters := Bits.quarters (by omega)
    sin := ⟨fun x => Bits.rnd p (Real.sin x), fun _ => Bits.rnd_idem h1 _, lib _⟩
    cos := ⟨fun x => Bits.rnd p (Real.cos x), fun _ => Bits.rnd_idem h1 _, lib _⟩
    exp := ⟨fun x => Bits.rnd p (Real.exp x), fun _ => Bits.rnd_idem h1 _, lib _⟩
    arcsin := ⟨fun x => Bits.rnd p (Real.arcsin x), fun _ => Bits.rnd_idem h1 _, lib _⟩
    arccos := ⟨fun x => Bits.rnd p (Real.arccos x), fun _ => Bits.rnd_idem h1 _, lib _⟩
    log2 := ⟨fun x => Bits.rnd p (Real.logb 2 x), fun _ => Bits.rnd_idem h1 _, lib _⟩
    log2_mono := fun x y hx h =>
      Bits.rnd_mono h1 ((Real.logb_le_logb (by norm_num) hx (hx.trans_le h)).mpr h)
    log2_pow := fun n h => by
      change Bits.rnd p (Real.logb 2 (2 ^ n)) = n
      rw [Real.logb_pow, Real.logb_self_eq_one (by norm_num), mul_one]
      exact hnat n h
    sum := Bits.sum p
    sum_representable := fun l => by
      cases l with
      | nil => exact Bits.rnd_zero
      | cons x l => exact Bits.rnd_idem h1 _
    sum_close := fun l h => by
      refine (Bits.sum_close h1 l).trans ?_
      have : 0 ≤ (l.map fun x => |x|).sum := List.sum_nonneg (by simp)
      exact mul_le_mul_of_nonneg_right (Bits.pow_bound hu h) this }

/-- double precision -/
noncomputable def Rounding.double : Rounding := Rounding.bits 53 (by norm_num)

end OpenControls
