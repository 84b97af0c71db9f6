import Verif.Proofs.MirroredNoise

/-!
# C142: noise with a symmetry in time

All predefined sequences but the XY-concatenated ones are the same run backwards (C95). They remove every noise of one
parity about their middle, however fast it varies: the odd ones the symmetric noise, the even ones the antisymmetric noise.
Odd are the spin echo, the Carr-Purcell, CPMG, Uhrig and periodic sequences with an odd count, the Walsh sequences whose Paley
order has an odd number of binary ones, the quadratic sequences with an odd outer count and the X-concatenated
sequences of odd order, those with odd `cancellationOrder` (C72).
-/

namespace OpenControls

open Spec MeasureTheory

/-- **C142** Noise run backwards gives the same phase, up to a sign for an odd number of π-pulses. -/
theorem C142_backwards (family : Family) (hxy : ∀ l, family ≠ .xyConcatenated l) (T : ℝ) (prePost : Bool)
    (name : Option String) (s : Sequence ℝ) (hs : family.call T prePost name = .ok s) (β : ℝ → ℝ) :
    ∫ t in 0..T, sensitivity s t * β (T - t) =
      (-1) ^ s.rabiRotations.count Real.pi * ∫ t in 0..T, sensitivity s t * β t := by
  obtain ⟨⟨hT, hv⟩, -⟩ := (C43_well_formed family T prePost name).ok hs
  have hxy' : ¬ family.IsXY := by
    cases family with
    | xyConcatenated l => exact absurd rfl (hxy l)
    | _ => exact id
  rw [Family.call_eq hv hT] at hs
  injection hs with hs
  subst hs
  simp only [sensitivity_finished, count_finished]
  refine switching_mirror_integral ?_ β
  rw [← flipTimes_mirrorTable, Family.table_mirror hv hxy' hT]

/-- **C142**, the sharp part: the noise `(t - T/2)^k` with `k` the order of cancellation is not removed. -/
theorem C142_not_removed (family : Family) (T : ℝ) (prePost : Bool) (name : Option String) (s : Sequence ℝ)
    (hs : family.call T prePost name = .ok s) :
    ∫ t in 0..T, sensitivity s t * (t - T / 2) ^ family.cancellationOrder ≠ 0 := by
  have hc := C72_cancellation_order family T prePost name s hs
  obtain ⟨⟨hT, hv⟩, hw⟩ := (C43_well_formed family T prePost name).ok hs
  unfold CancelsExactly at hc
  rw [hw.1] at hc
  rw [Family.call_eq hv hT] at hs
  injection hs with hs
  subst hs
  simp only [sensitivity_finished] at hc ⊢
  have hint : ∀ k : ℕ, IntervalIntegrable
      (fun t => switching (flipTimes (family.table T)) t * t ^ k) volume 0 T :=
    fun k => (integral_switching (hasDerivAt_power k) (continuous_pow k) T _ 0 hT.le
      (axisFlips_sorted (Family.table_sorted hv hT) .z) (fun t ht => by
        unfold axisFlips at ht
        obtain ⟨p, hp, rfl⟩ := List.mem_map.mp ht
        have := Family.table_bounds hv hT p (List.mem_of_mem_filter hp)
        exact ⟨this.1.le, this.2⟩)).1
  generalize family.cancellationOrder = m at hc ⊢
  have he : ∀ t, switching (flipTimes (family.table T)) t * (t - T / 2) ^ m =
      ∑ k ∈ Finset.range (m + 1), ((-(T / 2)) ^ (m - k) * m.choose k) *
        (switching (flipTimes (family.table T)) t * t ^ k) := by
    intro t
    rw [sub_eq_add_neg, add_pow, Finset.mul_sum]
    exact Finset.sum_congr rfl fun k _ => by ring
  simp only [he]
  rw [intervalIntegral.integral_finsetSum fun k _ => (hint k).const_mul _, Finset.sum_range_succ,
    Finset.sum_eq_zero fun k hk => ?_]
  · simpa [intervalIntegral.integral_const_mul] using hc.2
  · rw [intervalIntegral.integral_const_mul, hc.1 k (Finset.mem_range.mp hk), mul_zero]

/-- **C142** The number of π-pulses about axes in the XY plane is odd exactly if the order of cancellation is. -/
theorem C142_parity (family : Family) (hxy : ∀ l, family ≠ .xyConcatenated l) (T : ℝ) (prePost : Bool)
    (name : Option String) (s : Sequence ℝ) (hs : family.call T prePost name = .ok s) :
    Odd (s.rabiRotations.count Real.pi) ↔ Odd family.cancellationOrder := by
  have h := C142_backwards family hxy T prePost name s hs fun t => (t - T / 2) ^ family.cancellationOrder
  have hne := C142_not_removed family T prePost name s hs
  have he : ∀ t : ℝ, sensitivity s t * (T - t - T / 2) ^ family.cancellationOrder =
      (-1) ^ family.cancellationOrder * (sensitivity s t * (t - T / 2) ^ family.cancellationOrder) := by
    intro t
    rw [show T - t - T / 2 = -1 * (t - T / 2) by ring, mul_pow]
    ring
  simp only [he] at h
  rw [intervalIntegral.integral_const_mul] at h
  have h := mul_right_cancel₀ hne h
  rw [← Nat.not_even_iff_odd, ← Nat.not_even_iff_odd, not_iff_not]
  constructor
  · intro e
    rw [e.neg_one_pow] at h
    by_contra o
    rw [(Nat.not_even_iff_odd.mp o).neg_one_pow] at h
    norm_num at h
  · intro e
    rw [e.neg_one_pow] at h
    by_contra o
    rw [(Nat.not_even_iff_odd.mp o).neg_one_pow] at h
    norm_num at h

/-- **C142** A noise with the parity that the sequence removes leaves no phase; it need not be continuous. -/
theorem C142_phase (family : Family) (hxy : ∀ l, family ≠ .xyConcatenated l) (T : ℝ) (prePost : Bool)
    (name : Option String) (s : Sequence ℝ) (hs : family.call T prePost name = .ok s) (β : ℝ → ℝ)
    (hβ : (Odd family.cancellationOrder ∧ ∀ t ∈ Set.Icc 0 T, β (T - t) = β t) ∨
      (Even family.cancellationOrder ∧ ∀ t ∈ Set.Icc 0 T, β (T - t) = -β t)) :
    ∫ t in 0..T, sensitivity s t * β t = 0 := by
  have h := C142_backwards family hxy T prePost name s hs β
  have hp := C142_parity family hxy T prePost name s hs
  obtain ⟨⟨hT, hv⟩, -⟩ := (C43_well_formed family T prePost name).ok hs
  rcases hβ with ⟨ho, hβ⟩ | ⟨he, hβ⟩
  · have e : ∫ t in 0..T, sensitivity s t * β (T - t) = ∫ t in 0..T, sensitivity s t * β t :=
      intervalIntegral.integral_congr fun t ht => by
        rw [Set.uIcc_of_le hT.le] at ht
        simp only [hβ t ht]
    rw [e, (hp.mpr ho).neg_one_pow] at h
    linarith
  · have e : ∫ t in 0..T, sensitivity s t * β (T - t) = -∫ t in 0..T, sensitivity s t * β t := by
      rw [← intervalIntegral.integral_neg]
      exact intervalIntegral.integral_congr fun t ht => by
        rw [Set.uIcc_of_le hT.le] at ht
        simp only [hβ t ht, mul_neg]
    have hc : Even (s.rabiRotations.count Real.pi) := by
      rw [← Nat.not_odd_iff_even, hp, Nat.not_odd_iff_even]
      exact he
    rw [e, hc.neg_one_pow] at h
    linarith

/-- **C142** Under such a noise the qubit does what the pulses alone do. -/
theorem C142_evolution (family : Family) (hxy : ∀ l, family ≠ .xyConcatenated l) (T : ℝ) (prePost : Bool)
    (name : Option String) (s : Sequence ℝ) (hs : family.call T prePost name = .ok s) (β : ℝ → ℝ) (hc : Continuous β)
    (hβ : (Odd family.cancellationOrder ∧ ∀ t ∈ Set.Icc 0 T, β (T - t) = β t) ∨
      (Even family.cancellationOrder ∧ ∀ t ∈ Set.Icc 0 T, β (T - t) = -β t)) :
    underNoise (dephasing β) s = pulses s := by
  have hzero := C142_phase family hxy T prePost name s hs β hβ
  obtain ⟨⟨hT, hv⟩, -⟩ := (C43_well_formed family T prePost name).ok hs
  rw [Family.call_eq hv hT] at hs
  injection hs with hs
  subst hs
  simp only [sensitivity_finished] at hzero
  have htab : tableNoise (dephasing β) T 0 (family.table T) = tableProduct (family.table T) := by
    rw [family_dephasing hv hT hc, hzero, zrot_zero, mul_one]
  cases prePost with
  | false =>
    have e : finished T (family.table T) false name = piSequence T (family.table T) name := rfl
    rw [e, underNoise_table, pulses_table, htab]
  | true =>
    have e : finished T (family.table T) true name =
      withPrePost (finalAngle (family.table T)) (piSequence T (family.table T) name) := rfl
    rw [e, underNoise_withPrePost _ (dephasing_refl _), pulses_withPrePost_eq, htab]

/-- The hypotheses are met: a spin echo removes fast noise that is symmetric about its middle, an Uhrig sequence of four pulses
with pre and post rotations fast noise that is antisymmetric; the spin echo leaves a linear drift. -/
example : (∃ s, newSpinEchoSequence (1 : ℝ) false none = .ok s ∧
      underNoise (dephasing fun t => Real.cos (1000 * (t - 1 / 2))) s = pulses s ∧
      ∫ t in (0 : ℝ)..1, sensitivity s t * (t - 1 / 2) ≠ 0) ∧
    ∃ s, newUhrigSequence (1 : ℝ) 4 true none = .ok s ∧
      underNoise (dephasing fun t => Real.sin (1000 * (t - 1 / 2))) s = pulses s := by
  constructor
  · have hs := Family.call_eq (family := .spinEcho) (T := 1) trivial one_pos false none
    refine ⟨_, hs, C142_evolution .spinEcho (by simp) 1 false none _ hs _ (by fun_prop)
      (.inl ⟨by simp [Family.cancellationOrder], fun t _ => ?_⟩), ?_⟩
    · rw [← Real.cos_neg]
      congr 1
      ring
    · simpa [Family.cancellationOrder] using C142_not_removed .spinEcho 1 false none _ hs
  · have hv : (Family.uhrig 4).Valid := by norm_num [Family.Valid]
    have hs := Family.call_eq hv (T := 1) one_pos true none
    refine ⟨_, hs, C142_evolution (.uhrig 4) (by simp) 1 true none _ hs _ (by fun_prop)
      (.inr ⟨?_, fun t _ => ?_⟩)⟩
    · simp only [Family.cancellationOrder, Nat.floor_ofNat]
      decide
    · rw [← Real.sin_neg]
      congr 1
      ring

end OpenControls
