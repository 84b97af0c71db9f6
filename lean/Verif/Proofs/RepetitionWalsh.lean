import Verif.Proofs.Repetition
import Verif.Proofs.Coincidences
import Verif.Proofs.FiniteWidthFamilies

/-!
# Walsh sequences that are played several times
-/

namespace OpenControls

open Spec RealInst

theorem log2_shifted {k : ℕ} (hk : k ≠ 0) (a : ℕ) : Nat.log2 (2 ^ a * k) = Nat.log2 k + a := by
  rw [Nat.log2_eq_log_two, Nat.log2_eq_log_two, mul_comm]
  induction a with
  | zero => simp
  | succ a ih =>
    rw [pow_succ, ← mul_assoc, Nat.log_mul_base (by norm_num) (by positivity), ih]
    ring

/-- the Rademacher factors that change at an edge, for a shifted order -/
theorem changes_shifted {k : ℕ} (hk : k ≠ 0) (a c : ℕ) :
    ((Finset.range (Nat.log2 (2 ^ a * k) + 1)).filter
      fun j => (2 ^ a * k).testBit j = true ∧ 2 ^ (Nat.log2 (2 ^ a * k) - j) ∣ c).card =
    ((Finset.range (Nat.log2 k + 1)).filter fun j => k.testBit j = true ∧ 2 ^ (Nat.log2 k - j) ∣ c).card := by
  rw [log2_shifted hk]
  symm
  refine Finset.card_bij (fun j _ => j + a) ?_ ?_ ?_
  · intro j hj
    simp only [Finset.mem_filter, Finset.mem_range] at hj ⊢
    refine ⟨by omega, ?_, ?_⟩
    · rw [Nat.testBit_two_pow_mul]
      simp [hj.2.1]
    · rw [show Nat.log2 k + a - (j + a) = Nat.log2 k - j by omega]
      exact hj.2.2
  · intro j _ j' _ h
    exact Nat.add_right_cancel h
  · intro j hj
    simp only [Finset.mem_filter, Finset.mem_range, Nat.testBit_two_pow_mul, Bool.and_eq_true, decide_eq_true_eq] at hj
    refine ⟨j - a, ?_, by omega⟩
    simp only [Finset.mem_filter, Finset.mem_range]
    refine ⟨by omega, hj.2.1.2, ?_⟩
    rw [show Nat.log2 k - (j - a) = Nat.log2 k + a - j by omega]
    exact hj.2.2

theorem changes_end {k : ℕ} (hk : k ≠ 0) (he : Even (Nat.digits 2 k).sum) (q : ℕ) :
    ¬ Odd ((Finset.range (Nat.log2 k + 1)).filter
      fun j => k.testBit j = true ∧ 2 ^ (Nat.log2 k - j) ∣ 2 ^ (Nat.log2 k + 1) * q).card := by
  have hall : ∀ q, ((Finset.range (Nat.log2 k + 1)).filter
      fun j => k.testBit j = true ∧ 2 ^ (Nat.log2 k - j) ∣ 2 ^ (Nat.log2 k + 1) * q) =
      (Finset.range (Nat.log2 k + 1)).filter fun j => k.testBit j = true := by
    intro q
    refine Finset.filter_congr fun j hj => ?_
    simp only [and_iff_left_iff_imp]
    exact fun _ => (pow_dvd_pow 2 (by omega)).mul_right _
  have h1 := cellSign_change k (2 ^ (Nat.log2 k + 1) - 1)
  have hp : 0 < 2 ^ (Nat.log2 k + 1) := by positivity
  rw [Nat.sub_add_cancel hp, cellSign_last hk, he.neg_one_pow] at h1
  have h2 : cellSign k (2 ^ (Nat.log2 k + 1)) = 1 := by
    unfold cellSign
    refine Finset.prod_eq_one fun j hj => ?_
    have hj' := Finset.mem_range.mp hj
    rw [Nat.pow_div (by omega) (by norm_num), show Nat.log2 k + 1 - (Nat.log2 k - j) = j + 1 by omega]
    have : Even (2 ^ (j + 1)) := ⟨2 ^ j, by rw [pow_succ]; ring⟩
    rw [this.neg_one_pow]; split_ifs <;> rfl
  rw [h2] at h1
  have h3 := h1.not.mp (by simp)
  have h4 := hall 1
  rw [mul_one] at h4
  rw [h4] at h3
  rw [hall q]
  exact h3

theorem copies_ordered {T : ℝ} (hT : 0 < T) {l : List ℝ} (h : Ordered T l) (m : ℕ) : Ordered (m * T) (copies m T l) := by
  induction m with
  | zero => simp [copies, Ordered]
  | succ m ih =>
    rw [copies_succ]
    have hm : (0 : ℝ) ≤ m * T := by positivity
    refine ⟨List.pairwise_append.mpr ⟨ih.1, ?_, ?_⟩, ?_⟩
    · rw [List.pairwise_map]
      exact h.1.imp fun h => by linarith
    · intro x hx y hy
      obtain ⟨u, hu, rfl⟩ := List.mem_map.mp hy
      linarith [(ih.2 x hx).2, (h.2 u hu).1]
    · intro x hx
      push_cast
      rcases List.mem_append.mp hx with hx | hx
      · exact ⟨(ih.2 x hx).1, by linarith [(ih.2 x hx).2]⟩
      · obtain ⟨u, hu, rfl⟩ := List.mem_map.mp hx
        exact ⟨by linarith [(h.2 u hu).1], by linarith [(h.2 u hu).2]⟩

theorem walshTimes_copies {T : ℝ} (hT : 0 < T) {k : ℕ} (hk : k ≠ 0) (he : Even (Nat.digits 2 k).sum) (a : ℕ) :
    copies (2 ^ a) T (walshTimes T k) = walshTimes ((2 ^ a : ℕ) * T) (2 ^ a * k) := by
  have hTa : (0 : ℝ) < (2 ^ a : ℕ) * T := by positivity
  refine ordered_ext (copies_ordered hT (walsh_ordered hT k) _) (walsh_ordered hTa _) fun t => ?_
  rw [mem_walshTimes]
  simp only [changes_shifted hk]
  have hN : 2 ^ (Nat.log2 (2 ^ a * k) + 1) = 2 ^ a * 2 ^ (Nat.log2 k + 1) := by
    rw [log2_shifted hk, ← pow_add]; congr 1; omega
  have hNr : (2 : ℝ) ^ (Nat.log2 (2 ^ a * k) + 1) = 2 ^ a * 2 ^ (Nat.log2 k + 1) := by exact_mod_cast hN
  rw [hN, hNr]
  have hmem : t ∈ copies (2 ^ a) T (walshTimes T k) ↔ ∃ i : ℕ, i < 2 ^ a ∧ ∃ u ∈ walshTimes T k, u + i * T = t := by
    simp [copies]
  rw [hmem]
  have hp : 0 < 2 ^ (Nat.log2 k + 1) := by positivity
  have hdvd : ∀ (i c : ℕ), ((Finset.range (Nat.log2 k + 1)).filter
      fun j => k.testBit j = true ∧ 2 ^ (Nat.log2 k - j) ∣ 2 ^ (Nat.log2 k + 1) * i + c) =
      (Finset.range (Nat.log2 k + 1)).filter fun j => k.testBit j = true ∧ 2 ^ (Nat.log2 k - j) ∣ c := by
    intro i c
    refine Finset.filter_congr fun j hj => ?_
    rw [Nat.dvd_add_right ((pow_dvd_pow 2 (by omega)).mul_right _)]
  constructor
  · rintro ⟨i, hi, u, hu, rfl⟩
    obtain ⟨c, h0, h1, h2, rfl⟩ := (mem_walshTimes T k u).mp hu
    refine ⟨2 ^ (Nat.log2 k + 1) * i + c, by omega, ?_, ?_, ?_⟩
    · calc _ < 2 ^ (Nat.log2 k + 1) * i + 2 ^ (Nat.log2 k + 1) := Nat.add_lt_add_left h1 _
        _ = 2 ^ (Nat.log2 k + 1) * (i + 1) := by ring
        _ ≤ 2 ^ (Nat.log2 k + 1) * 2 ^ a := Nat.mul_le_mul_left _ hi
        _ = _ := mul_comm _ _
    · rw [hdvd]; exact h2
    · push_cast
      field_simp
      ring
  · rintro ⟨c, h0, h1, h2, rfl⟩
    have hd := Nat.div_add_mod c (2 ^ (Nat.log2 k + 1))
    have hlt := Nat.mod_lt c hp
    generalize c / 2 ^ (Nat.log2 k + 1) = i at hd
    generalize c % 2 ^ (Nat.log2 k + 1) = c' at hd hlt
    subst hd
    rw [hdvd] at h2
    have hc : c' ≠ 0 := by
      rintro rfl
      exact changes_end hk he 0 (by simpa using h2)
    refine ⟨i, ?_, _, (mem_walshTimes T k _).mpr ⟨c', Nat.pos_of_ne_zero hc, hlt, h2, rfl⟩, ?_⟩
    · by_contra hi
      have : 2 ^ (Nat.log2 k + 1) * 2 ^ a ≤ 2 ^ (Nat.log2 k + 1) * i := Nat.mul_le_mul_left _ (by omega)
      rw [mul_comm (2 ^ a)] at h1
      omega
    · push_cast
      field_simp
      ring

end OpenControls
