import Verif.Proofs.Hardware
import Verif.Proofs.Coincidences
import Verif.Proofs.Reversal

/-!
# Lemmas on the distances between the pulses of the predefined sequences
-/

namespace OpenControls

open Spec RealInst

/-- the times keep the distance `E` from both ends and `B` from each other -/
def TimesSpaced (T E B : ℝ) (times : List ℝ) : Prop :=
  (∀ a ∈ times, E ≤ a ∧ E ≤ T - a) ∧ ∀ a ∈ times, ∀ b ∈ times, a < b → B ≤ b - a

theorem spaced_cpmg {T : ℝ} (hT : 0 < T) {n : ℕ} (hn : 1 ≤ n) (E B : ℝ) :
    TimesSpaced T E B (cpmgTimes T n) ↔ E ≤ T / (2 * n) ∧ (2 ≤ n → B ≤ T / n) := by
  have hn0 : (0 : ℝ) < n := by exact_mod_cast hn
  have hu : 0 < T / n := by positivity
  have hun : T / n * n = T := by field_simp
  have hmem : ∀ t, t ∈ cpmgTimes T n ↔ ∃ i : ℕ, 1 ≤ i ∧ i < 1 + n ∧ T / n * (i - 1 / 2) = t := by
    intro t
    unfold cpmgTimes
    simp only [List.mem_map, List.mem_range'_1, and_assoc]
  have he : T / (2 * n) = T / n * (1 / 2) := by field_simp
  rw [he]
  generalize T / n = u at *
  constructor
  · rintro ⟨h1, h2⟩
    refine ⟨?_, fun h => ?_⟩
    · have := (h1 _ ((hmem _).mpr ⟨1, le_rfl, by omega, rfl⟩)).1
      push_cast at this; linarith
    · have := h2 _ ((hmem _).mpr ⟨1, le_rfl, by omega, rfl⟩) _ ((hmem _).mpr ⟨2, by omega, by omega, rfl⟩)
        (by push_cast; linarith)
      push_cast at this; linarith
  · rintro ⟨h1, h2⟩
    refine ⟨fun a ha => ?_, fun a ha b hb hab => ?_⟩
    · obtain ⟨i, hi1, hi2, rfl⟩ := (hmem a).mp ha
      have g1 : (1 : ℝ) ≤ i := by exact_mod_cast hi1
      have g2 : (i : ℝ) ≤ n := by exact_mod_cast (by omega : i ≤ n)
      constructor <;> nlinarith
    · obtain ⟨i, hi1, hi2, rfl⟩ := (hmem a).mp ha
      obtain ⟨j, hj1, hj2, rfl⟩ := (hmem b).mp hb
      have hij : i < j := by
        by_contra hc
        have : (j : ℝ) ≤ i := by exact_mod_cast not_lt.mp hc
        nlinarith
      have g : (i : ℝ) + 1 ≤ j := by exact_mod_cast hij
      have := h2 (by omega)
      nlinarith

theorem spaced_grid {T u E B : ℝ} {N : ℕ} (hu : 0 < u) (hT : u * N = T) {times : List ℝ}
    (hmem : ∀ t ∈ times, ∃ c : ℕ, 0 < c ∧ c < N ∧ t = c * u) (h1 : E ≤ u) (h2 : B ≤ u) :
    TimesSpaced T E B times := by
  refine ⟨fun a ha => ?_, fun a ha b hb hab => ?_⟩
  · obtain ⟨c, h0, hN, rfl⟩ := hmem a ha
    have g1 : (1 : ℝ) ≤ c := by exact_mod_cast h0
    have g2 : (c : ℝ) + 1 ≤ N := by exact_mod_cast hN
    constructor <;> nlinarith
  · obtain ⟨c, -, -, rfl⟩ := hmem a ha
    obtain ⟨d, -, -, rfl⟩ := hmem b hb
    have hcd : c < d := by
      by_contra hc
      have : (d : ℝ) ≤ c := by exact_mod_cast not_lt.mp hc
      nlinarith
    have g : (c : ℝ) + 1 ≤ d := by exact_mod_cast hcd
    nlinarith

theorem spaced_periodic {T : ℝ} (hT : 0 < T) {n : ℕ} (hn : 1 ≤ n) (E B : ℝ) :
    TimesSpaced T E B (periodicTimes T n) ↔ E ≤ T / (n + 1) ∧ (2 ≤ n → B ≤ T / (n + 1)) := by
  have hn0 : (0 : ℝ) < n + 1 := by positivity
  have hu : 0 < T / (n + 1) := by positivity
  constructor
  · rintro ⟨h1, h2⟩
    refine ⟨?_, fun h => ?_⟩
    · have := (h1 _ ((mem_periodicTimes T n _).mpr ⟨1, by omega, by omega, rfl⟩)).1
      push_cast at this; linarith
    · have := h2 _ ((mem_periodicTimes T n _).mpr ⟨1, by omega, by omega, rfl⟩) _
        ((mem_periodicTimes T n _).mpr ⟨2, by omega, by omega, rfl⟩) (by push_cast; linarith)
      push_cast at this; linarith
  · rintro ⟨h1, h2⟩
    by_cases h : 2 ≤ n
    · refine spaced_grid (N := n + 1) hu (by push_cast; field_simp) (fun t ht => ?_) h1 (h2 h)
      exact (mem_periodicTimes T n t).mp ht
    · have e : n = 1 := by omega
      subst e
      have e1 : periodicTimes T 1 = [T / 2] := by
        simp [periodicTimes, List.range']; norm_num
      rw [e1]
      push_cast at h1
      have h1' : E ≤ T / 2 := by norm_num at h1; exact h1
      refine ⟨fun a ha => ?_, fun a ha b hb hab => ?_⟩
      · rw [List.mem_singleton.mp ha]; constructor <;> linarith
      · rw [List.mem_singleton.mp ha, List.mem_singleton.mp hb] at hab
        exact absurd hab (lt_irrefl _)

theorem spaced_uhrig {T : ℝ} (hT : 0 < T) {n : ℕ} (hn : 1 ≤ n) (E B : ℝ) :
    TimesSpaced T E B (uhrigTimes T n) ↔
      E ≤ T * Real.sin (Real.pi / (2 * (n + 1))) ^ 2 ∧
      (2 ≤ n → B ≤ T * (Real.sin (Real.pi / (2 * (n + 1))) * Real.sin (3 * (Real.pi / (2 * (n + 1)))))) := by
  have hn0 : (0 : ℝ) < n + 1 := by positivity
  have hpi := Real.pi_pos
  set α := Real.pi / (2 * (n + 1)) with hα
  have hα0 : 0 < α := by positivity
  have hαpi : (2 * n + 2) * α = Real.pi := by rw [hα]; field_simp
  have hmem : ∀ t, t ∈ uhrigTimes T n ↔ ∃ i : ℕ, 1 ≤ i ∧ i < 1 + n ∧ T * Real.sin (i * α) ^ 2 = t := by
    intro t
    unfold uhrigTimes
    simp only [List.mem_map, List.mem_range'_1, and_assoc, mul_div_assoc, hα]
  have hdiff : ∀ i j : ℕ, T * Real.sin (j * α) ^ 2 - T * Real.sin (i * α) ^ 2 =
      T * (Real.sin ((j - i) * α) * Real.sin ((j + i) * α)) := by
    intro i j
    have e1 : ((j : ℝ) - i) * α = j * α - i * α := by ring
    have e2 : ((j : ℝ) + i) * α = j * α + i * α := by ring
    rw [e1, e2, Real.sin_sub, Real.sin_add]
    have h1 := Real.sin_sq_add_cos_sq (i * α)
    have h2 := Real.sin_sq_add_cos_sq (j * α)
    have h1' : Real.cos (i * α) ^ 2 = 1 - Real.sin (i * α) ^ 2 := by linarith
    have h2' : Real.cos (j * α) ^ 2 = 1 - Real.sin (j * α) ^ 2 := by linarith
    have : (Real.sin (j * α) * Real.cos (i * α) - Real.cos (j * α) * Real.sin (i * α)) *
        (Real.sin (j * α) * Real.cos (i * α) + Real.cos (j * α) * Real.sin (i * α)) =
        Real.sin (j * α) ^ 2 * Real.cos (i * α) ^ 2 - Real.cos (j * α) ^ 2 * Real.sin (i * α) ^ 2 := by ring
    rw [this, h1', h2']; ring
  constructor
  · rintro ⟨h1, h2⟩
    refine ⟨?_, fun h => ?_⟩
    · have := (h1 _ ((hmem _).mpr ⟨1, le_rfl, by omega, rfl⟩)).1
      rwa [Nat.cast_one, one_mul] at this
    · have h2n : (2 : ℝ) ≤ n := by exact_mod_cast h
      have hd := hdiff 1 2
      push_cast at hd
      have hs1 : 0 < Real.sin α := Real.sin_pos_of_pos_of_lt_pi hα0 (by nlinarith)
      have hs3 : 0 < Real.sin (3 * α) := Real.sin_pos_of_pos_of_lt_pi (by positivity) (by nlinarith)
      have e3 : ((2 : ℝ) - 1) * α = α := by ring
      have e4 : ((2 : ℝ) + 1) * α = 3 * α := by ring
      rw [e3, e4] at hd
      have := h2 _ ((hmem _).mpr ⟨1, le_rfl, by omega, rfl⟩) _ ((hmem _).mpr ⟨2, by omega, by omega, rfl⟩)
        (by
          push_cast
          have : 0 < T * (Real.sin α * Real.sin (3 * α)) := by positivity
          linarith)
      push_cast at this
      linarith
  · rintro ⟨h1, h2⟩
    have hmono : ∀ x y : ℝ, 0 ≤ x → x ≤ y → y ≤ Real.pi / 2 → Real.sin x ≤ Real.sin y := by
      intro x y hx hxy hy
      exact Real.sin_le_sin_of_le_of_le_pi_div_two (by linarith) hy hxy
    refine ⟨fun a ha => ?_, fun a ha b hb hab => ?_⟩
    · obtain ⟨i, hi1, hi2, rfl⟩ := (hmem a).mp ha
      have g1 : (1 : ℝ) ≤ i := by exact_mod_cast hi1
      have g2 : (i : ℝ) ≤ n := by exact_mod_cast (by omega : i ≤ n)
      have hs : 0 ≤ Real.sin α := Real.sin_nonneg_of_nonneg_of_le_pi hα0.le (by nlinarith)
      have k1 : Real.sin α ≤ Real.sin (i * α) := hmono _ _ hα0.le (by nlinarith) (by nlinarith)
      have k2 : Real.sin α ≤ Real.cos (i * α) := by
        rw [← Real.sin_pi_div_two_sub]
        exact hmono _ _ hα0.le (by nlinarith) (by nlinarith)
      have k3 := Real.sin_sq_add_cos_sq (i * α)
      have k4 : Real.sin α ^ 2 ≤ Real.sin (i * α) ^ 2 := by gcongr
      have k5 : Real.sin α ^ 2 ≤ Real.cos (i * α) ^ 2 := by gcongr
      constructor
      · exact h1.trans (by gcongr)
      · have : T - T * Real.sin (i * α) ^ 2 = T * Real.cos (i * α) ^ 2 := by
          rw [show Real.cos (i * α) ^ 2 = 1 - Real.sin (i * α) ^ 2 by linarith]; ring
        rw [this]
        exact h1.trans (by gcongr)
    · obtain ⟨i, hi1, hi2, rfl⟩ := (hmem a).mp ha
      obtain ⟨j, hj1, hj2, rfl⟩ := (hmem b).mp hb
      have hin : (i : ℝ) ≤ n := by exact_mod_cast (by omega : i ≤ n)
      have hjn : (j : ℝ) ≤ n := by exact_mod_cast (by omega : j ≤ n)
      have hi1' : (1 : ℝ) ≤ i := by exact_mod_cast hi1
      have hij : i < j := by
        by_contra hc
        have h3 : (j : ℝ) ≤ i := by exact_mod_cast not_lt.mp hc
        have h0 : 0 ≤ Real.sin (j * α) :=
          Real.sin_nonneg_of_nonneg_of_le_pi (by positivity) (by nlinarith)
        have h4 : Real.sin (j * α) ≤ Real.sin (i * α) := hmono _ _ (by positivity) (by nlinarith) (by nlinarith)
        have h5 : T * Real.sin (j * α) ^ 2 ≤ T * Real.sin (i * α) ^ 2 := by gcongr
        linarith
      have g : (i : ℝ) + 1 ≤ j := by exact_mod_cast hij
      have h2n : 2 ≤ n := by omega
      have h2n' : (2 : ℝ) ≤ n := by exact_mod_cast h2n
      rw [hdiff]
      have hs1 : 0 ≤ Real.sin α := Real.sin_nonneg_of_nonneg_of_le_pi hα0.le (by nlinarith)
      have hs3 : 0 ≤ Real.sin (3 * α) := Real.sin_nonneg_of_nonneg_of_le_pi (by positivity) (by nlinarith)
      have k1 : Real.sin α ≤ Real.sin ((j - i) * α) := hmono _ _ hα0.le (by nlinarith) (by nlinarith)
      have k2 : Real.sin (3 * α) ≤ Real.sin ((j + i) * α) := by
        rcases le_total ((j + i : ℝ) * α) (Real.pi / 2) with h | h
        · exact hmono _ _ (by positivity) (by nlinarith) h
        · rw [← Real.sin_pi_sub ((j + i : ℝ) * α)]
          exact hmono _ _ (by positivity) (by nlinarith) (by linarith)
      refine (h2 h2n).trans ?_
      gcongr
      exact hs1.trans k1

/-! ### Walsh sequences -/

/-- the factors of the Walsh function that change sign at the `c`-th of the edges -/
def changing (k c : ℕ) : Finset ℕ :=
  (Finset.range (Nat.log2 k + 1)).filter fun j => k.testBit j = true ∧ 2 ^ (Nat.log2 k - j) ∣ c

theorem changing_odd {k c : ℕ} (hk : k ≠ 0) (hc : ¬ 2 ∣ c) : changing k c = {Nat.log2 k} := by
  ext j
  unfold changing
  rw [Finset.mem_filter, Finset.mem_range, Finset.mem_singleton]
  constructor
  · rintro ⟨h1, -, h3⟩
    by_contra h
    apply hc
    exact dvd_trans (dvd_pow_self 2 (by omega)) h3
  · rintro rfl
    exact ⟨by omega, Nat.testBit_log2 hk, by simp⟩

/-- one more factor changes at the next power of two if it is there -/
theorem changing_pow {k v : ℕ} (hv : v + 1 ≤ Nat.log2 k) :
    (changing k (2 ^ (v + 1))).card =
      (changing k (2 ^ v)).card + if k.testBit (Nat.log2 k - (v + 1)) then 1 else 0 := by
  have e : changing k (2 ^ (v + 1)) = changing k (2 ^ v) ∪
      if k.testBit (Nat.log2 k - (v + 1)) then {Nat.log2 k - (v + 1)} else ∅ := by
    ext j
    unfold changing
    rw [Finset.mem_union, Finset.mem_filter, Finset.mem_filter, Finset.mem_range,
      Nat.pow_dvd_pow_iff_le_right (le_refl 2), Nat.pow_dvd_pow_iff_le_right (le_refl 2)]
    constructor
    · rintro ⟨h1, h2, h3⟩
      by_cases h : Nat.log2 k - j ≤ v
      · exact .inl ⟨h1, h2, h⟩
      · have : j = Nat.log2 k - (v + 1) := by omega
        rw [this] at h2
        right
        rw [if_pos h2, this]
        exact Finset.mem_singleton_self _
    · rintro (⟨h1, h2, h3⟩ | h)
      · exact ⟨h1, h2, by omega⟩
      · by_cases hb : k.testBit (Nat.log2 k - (v + 1)) = true
        · rw [if_pos hb, Finset.mem_singleton] at h
          subst h
          exact ⟨by omega, hb, by omega⟩
        · rw [if_neg hb] at h
          exact absurd h (Finset.notMem_empty _)
  rw [e, Finset.card_union_of_disjoint]
  · congr 1
    split <;> simp
  · rw [Finset.disjoint_left]
    intro j hj hj'
    by_cases hb : k.testBit (Nat.log2 k - (v + 1)) = true
    · rw [if_pos hb, Finset.mem_singleton] at hj'
      unfold changing at hj
      rw [Finset.mem_filter, Nat.pow_dvd_pow_iff_le_right (le_refl 2)] at hj
      omega
    · rw [if_neg hb] at hj'
      exact absurd hj' (Finset.notMem_empty _)

/-- If the sign never changes at an even edge, the order has one digit or two ones followed by zeros. -/
theorem walsh_sparse {k : ℕ} (hk : k ≠ 0) (hL : 1 ≤ Nat.log2 k)
    (h : ∀ v, 1 ≤ v → v ≤ Nat.log2 k → Even (changing k (2 ^ v)).card) :
    k = 3 * 2 ^ (Nat.log2 k - 1) := by
  have h0 : (changing k (2 ^ 0)).card = 1 := by
    rw [changing_odd hk (by norm_num)]; rfl
  have hb1 : k.testBit (Nat.log2 k - 1) = true := by
    have h1 := changing_pow (k := k) (v := 0) hL
    have h2 := h 1 le_rfl hL
    by_contra hc
    rw [h0] at h1
    simp only [zero_add] at h1
    rw [if_neg hc] at h1
    rw [h1] at h2
    exact absurd h2 (by decide)
  have hb : ∀ j, j + 1 < Nat.log2 k → k.testBit j = false := by
    intro j hj
    have h1 := changing_pow (k := k) (v := Nat.log2 k - j - 1) (by omega)
    have h2 := h (Nat.log2 k - j - 1) (by omega) (by omega)
    have h3 := h (Nat.log2 k - j - 1 + 1) (by omega) (by omega)
    have e : Nat.log2 k - (Nat.log2 k - j - 1 + 1) = j := by omega
    rw [e] at h1
    by_contra hc
    rw [Bool.not_eq_false] at hc
    rw [if_pos hc] at h1
    rw [h1] at h3
    exact absurd h3 (by rw [Nat.even_add_one]; exact fun x => x h2)
  refine Nat.eq_of_testBit_eq fun j => ?_
  obtain ⟨L, hLe⟩ : ∃ L, Nat.log2 k = L + 1 := ⟨Nat.log2 k - 1, by omega⟩
  have hlt : k < 2 ^ (L + 2) := by
    have := Nat.lt_log2_self (n := k)
    rwa [hLe] at this
  rw [hLe] at hb1 hb ⊢
  simp only [Nat.add_sub_cancel] at hb1 ⊢
  rw [Nat.testBit_mul_two_pow]
  have htop : k.testBit (L + 1) = true := by
    have := Nat.testBit_log2 hk
    rwa [hLe] at this
  by_cases hj : L ≤ j
  · obtain ⟨d, rfl⟩ : ∃ d, j = L + d := ⟨j - L, by omega⟩
    have : L + d - L = d := by omega
    rw [this]
    simp only [hj, decide_true, Bool.true_and]
    match d with
    | 0 => rw [Nat.add_zero, hb1]; decide
    | 1 => rw [htop]; decide
    | d + 2 =>
      rw [Nat.testBit_lt_two_pow (lt_of_lt_of_le hlt (Nat.pow_le_pow_right (by norm_num) (by omega))),
        Nat.testBit_lt_two_pow (x := 3) (i := d + 2)
          (lt_of_lt_of_le (by norm_num : 3 < 2 ^ 2) (Nat.pow_le_pow_right (by norm_num) (by omega)))]
  · rw [hb j (by omega)]
    simp [hj]

/-- For these orders the sign changes exactly at the odd edges. -/
theorem changing_sparse {L c : ℕ} (hc : 2 ∣ c) : (changing (3 * 2 ^ L) c).card = 2 := by
  have hlog : Nat.log2 (3 * 2 ^ L) = L + 1 := by
    rw [Nat.log2_eq_iff (by positivity)]
    constructor
    · rw [pow_succ]; have := Nat.two_pow_pos L; omega
    · rw [pow_succ, pow_succ]; have := Nat.two_pow_pos L; omega
  have e : changing (3 * 2 ^ L) c = {L, L + 1} := by
    ext j
    unfold changing
    rw [Finset.mem_filter, Finset.mem_range, hlog, Nat.testBit_mul_two_pow, Finset.mem_insert,
      Finset.mem_singleton]
    constructor
    · rintro ⟨h1, h2, -⟩
      simp only [Bool.and_eq_true, decide_eq_true_eq] at h2
      omega
    · rintro (rfl | rfl)
      · exact ⟨by omega, by simp, by simpa using hc⟩
      · refine ⟨by omega, ?_, by simp⟩
        have : L + 1 - L = 1 := by omega
        rw [this]
        simp
        decide
  rw [e, Finset.card_pair (by omega)]

theorem mem_walsh_changing (T : ℝ) (k : ℕ) (t : ℝ) : t ∈ walshTimes T k ↔
    ∃ c : ℕ, 0 < c ∧ c < 2 ^ (Nat.log2 k + 1) ∧ Odd (changing k c).card ∧
      t = c * (T / 2 ^ (Nat.log2 k + 1)) := by
  rw [mem_walshTimes]
  have e : ∀ c : ℕ, T * ((c : ℝ) / 2 ^ (Nat.log2 k + 1)) = c * (T / 2 ^ (Nat.log2 k + 1)) := by
    intro c; ring
  simp only [e]
  rfl

theorem spaced_walsh {T : ℝ} (hT : 0 < T) {k : ℕ} (hk : k ≠ 0) (E B : ℝ) :
    TimesSpaced T E B (walshTimes T k) ↔
      E ≤ T / 2 ^ (Nat.log2 k + 1) ∧
      (k ≠ 1 → B ≤ if k = 3 * 2 ^ (Nat.log2 k - 1) then 2 * (T / 2 ^ (Nat.log2 k + 1))
        else T / 2 ^ (Nat.log2 k + 1)) := by
  have hu : 0 < T / 2 ^ (Nat.log2 k + 1) := by positivity
  have huN : T / 2 ^ (Nat.log2 k + 1) * ((2 ^ (Nat.log2 k + 1) : ℕ) : ℝ) = T := by push_cast; field_simp
  have hmem := mem_walsh_changing T k
  have hodd : ∀ c : ℕ, ¬ 2 ∣ c → c < 2 ^ (Nat.log2 k + 1) →
      (c : ℝ) * (T / 2 ^ (Nat.log2 k + 1)) ∈ walshTimes T k := by
    intro c hc hlt
    refine (hmem _).mpr ⟨c, Nat.pos_of_ne_zero (by rintro rfl; exact hc (dvd_zero 2)), hlt, ?_, rfl⟩
    rw [changing_odd hk hc, Finset.card_singleton]; exact odd_one
  have hL : k ≠ 1 → 1 ≤ Nat.log2 k := by
    intro h1
    rw [Nat.le_log2 hk]; omega
  have hpow : 1 ≤ Nat.log2 k → 4 ≤ 2 ^ (Nat.log2 k + 1) := by
    intro h
    calc 4 = 2 ^ 2 := by norm_num
      _ ≤ _ := Nat.pow_le_pow_right (by norm_num) (by omega)
  set u := T / 2 ^ (Nat.log2 k + 1) with hudef
  constructor
  · rintro ⟨h1, h2⟩
    refine ⟨?_, fun hk1 => ?_⟩
    · have := (h1 _ (hodd 1 (by norm_num) (by
        have : 1 < 2 ^ (Nat.log2 k + 1) := Nat.one_lt_two_pow (by omega)
        exact this))).1
      push_cast at this; linarith
    · have hL1 := hL hk1
      have h4 := hpow hL1
      have b12 := h2 _ (hodd 1 (by norm_num) (by omega)) _ (hodd 3 (by norm_num) (by omega)) (by
        push_cast; linarith)
      push_cast at b12
      split
      · linarith
      · rename_i hns
        -- some even edge changes
        have : ∃ v, 1 ≤ v ∧ v ≤ Nat.log2 k ∧ Odd (changing k (2 ^ v)).card := by
          by_contra hc
          push Not at hc
          exact hns (walsh_sparse hk hL1 fun v hv1 hv2 => by
            simpa using hc v hv1 hv2)
        obtain ⟨v, hv1, hv2, hv3⟩ := this
        have hlt : 2 ^ v < 2 ^ (Nat.log2 k + 1) := Nat.pow_lt_pow_right (by norm_num) (by omega)
        have m1 : ((2 ^ v : ℕ) : ℝ) * u ∈ walshTimes T k :=
          (hmem _).mpr ⟨2 ^ v, by positivity, hlt, hv3, rfl⟩
        have hdv : 2 ∣ 2 ^ v := dvd_pow_self 2 (by omega)
        have hpos : 2 ≤ 2 ^ v := Nat.le_of_dvd (by positivity) hdv
        have m0 := hodd (2 ^ v - 1) (by omega) (by omega)
        have := h2 _ m0 _ m1 (by
          rw [Nat.cast_sub (by omega)]; push_cast; nlinarith)
        rw [Nat.cast_sub (by omega)] at this
        push_cast at this
        nlinarith
  · rintro ⟨h1, h2⟩
    by_cases hk1 : k = 1
    · subst hk1
      have e1 : ∀ t ∈ walshTimes T 1, t = u := by
        intro t ht
        obtain ⟨c, hc0, hc1, -, rfl⟩ := (hmem t).mp ht
        have : c = 1 := by
          have e : Nat.log2 1 = 0 := by decide
          rw [e] at hc1; omega
        rw [this]; push_cast; ring
      have e2 : u = T / 2 := by
        rw [hudef, show Nat.log2 1 = 0 by decide]; norm_num
      refine ⟨fun a ha => ?_, fun a ha b hb hab => ?_⟩
      · rw [e1 a ha]; constructor
        · exact h1
        · linarith
      · rw [e1 a ha, e1 b hb] at hab; exact absurd hab (lt_irrefl _)
    · have h3 := h2 hk1
      by_cases hs : k = 3 * 2 ^ (Nat.log2 k - 1)
      · rw [if_pos hs] at h3
        have hgrid : ∀ t ∈ walshTimes T k, ∃ c : ℕ, 0 < c ∧ c < 2 ^ (Nat.log2 k + 1) ∧ ¬ 2 ∣ c ∧ t = c * u := by
          intro t ht
          obtain ⟨c, hc0, hc1, hc2, rfl⟩ := (hmem t).mp ht
          refine ⟨c, hc0, hc1, fun hd => ?_, rfl⟩
          rw [hs, changing_sparse hd] at hc2
          exact absurd hc2 (by decide)
        refine ⟨(spaced_grid (B := u) hu huN (fun t ht => ?_) h1 le_rfl).1, fun a ha b hb hab => ?_⟩
        · obtain ⟨c, hc0, hc1, -, rfl⟩ := hgrid t ht
          exact ⟨c, hc0, hc1, rfl⟩
        · obtain ⟨c, -, -, hc, rfl⟩ := hgrid a ha
          obtain ⟨d, -, -, hd, rfl⟩ := hgrid b hb
          have hcd : c < d := by
            by_contra hcc
            have : (d : ℝ) ≤ c := by exact_mod_cast not_lt.mp hcc
            nlinarith
          have : c + 2 ≤ d := by omega
          have g : (c : ℝ) + 2 ≤ d := by exact_mod_cast this
          nlinarith
      · rw [if_neg hs] at h3
        refine spaced_grid hu huN (fun t ht => ?_) h1 h3
        obtain ⟨c, hc0, hc1, -, rfl⟩ := (hmem t).mp ht
        exact ⟨c, hc0, hc1, rfl⟩

end OpenControls
