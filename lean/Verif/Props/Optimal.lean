import Verif.Proofs.Optimal
import Verif.Props.CancellationOrder

/-!
# C122: Uhrig sequences are the best, and the only best

`piPulseTimes` and `CancelsOrders` are in `Verif/Spec/Optimal.lean`, `sensitivity` and `CancelsExactly` in
`Verif/Spec/Families.lean`, `uhrigTimes` in `Verif/Spec/Sequences.lean`.
-/

namespace OpenControls

open Spec RealInst

/-- **C122**, the bound: a sequence with `n` π-pulses, wherever they are, cancels at most the `n` lowest orders
of dephasing noise. -/
theorem C122_bound (s : Sequence ℝ) (hT : 0 < s.duration) (n : ℕ) (h : CancelsOrders s n) :
    n ≤ (piPulseTimes s).length := by
  by_contra hn
  refine switching_bound (piPulseTimes s) hT fun k hk => ?_
  have := h k (by omega)
  simpa only [sensitivity_switching] using this

/-- **C122**, uniqueness: a sequence with `n` π-pulses cancels the `n` lowest orders if and only if its pulses
are, in some order, at Uhrig's times `T sin²(iπ/(2n+2))`. -/
theorem C122_unique (s : Sequence ℝ) (hT : 0 < s.duration) :
    CancelsOrders s (piPulseTimes s).length ↔
      (piPulseTimes s).Perm (uhrigTimes s.duration (piPulseTimes s).length) := by
  unfold CancelsOrders
  simp only [sensitivity_switching]
  constructor
  · exact flips_uhrig hT (piPulseTimes s)
  · intro h k hk
    rw [switching_perm h]
    exact uhrig_moment hT hk

/-- **C122**, the times: two sequences of the same duration with `n` π-pulses each, at increasing times inside it,
on which the orders below `n` have the same effect, have their pulses at the same times. -/
theorem C122_determined (s s' : Sequence ℝ) (hd : s.duration = s'.duration)
    (hl : (piPulseTimes s).length = (piPulseTimes s').length)
    (ho : (piPulseTimes s).Pairwise (· < ·)) (ho' : (piPulseTimes s').Pairwise (· < ·))
    (hin : ∀ t ∈ piPulseTimes s, 0 < t ∧ t < s.duration)
    (hin' : ∀ t ∈ piPulseTimes s', 0 < t ∧ t < s'.duration)
    (h : ∀ k < (piPulseTimes s).length, ∫ t in 0..s.duration, sensitivity s t * t ^ k =
      ∫ t in 0..s'.duration, sensitivity s' t * t ^ k) :
    piPulseTimes s = piPulseTimes s' := by
  refine flips_unique (T := s.duration) _ _ _ hl le_rfl ho ho' hin (by rw [hd]; exact hin') fun k hk => ?_
  have := h k hk
  rw [← hd] at this
  simp only [sensitivity_switching] at this
  simp only [sub_mul]
  rw [intervalIntegral.integral_sub (switching_integrable _ (continuous_pow k) _)
    (switching_integrable _ (continuous_pow k) _), this, sub_self]

/-- **C122**, the function: a Uhrig sequence has its pulses at Uhrig's times, as many as asked for, and cancels
as many orders; no sequence of its duration with as many π-pulses cancels more, and those that cancel as many
have the same pulse times. -/
theorem C122_uhrig (T count : ℝ) (prePost : Bool) (name : Option String) (s : Sequence ℝ)
    (hs : newUhrigSequence T count prePost name = .ok s) :
    (piPulseTimes s).length = ⌊count⌋₊ ∧ CancelsOrders s ⌊count⌋₊ ∧
    ∀ s' : Sequence ℝ, s'.duration = T → (piPulseTimes s').length ≤ ⌊count⌋₊ → ∀ n : ℕ, CancelsOrders s' n →
      n ≤ ⌊count⌋₊ ∧ (n = ⌊count⌋₊ → (piPulseTimes s').Perm (piPulseTimes s)) := by
  have hs' : Family.call (.uhrig count) T prePost name = .ok s := hs
  have hc := (C72_cancellation_order (.uhrig count) T prePost name s hs').1
  obtain ⟨⟨hT, hv⟩, hw⟩ := (C43_well_formed (.uhrig count) T prePost name).ok hs'
  rw [Family.call_eq hv hT] at hs'
  injection hs' with hs'
  have ht : piPulseTimes s = uhrigTimes T ⌊count⌋₊ := by
    rw [← hs', piPulseTimes_finished]
    simp only [Family.table, flipTimes_onAxis_y]
  refine ⟨by rw [ht]; simp [uhrigTimes], hc, fun s' hd hl n hn => ?_⟩
  have hb := C122_bound s' (by rw [hd]; exact hT) n hn
  refine ⟨hb.trans hl, fun e => ?_⟩
  have el : (piPulseTimes s').length = n := by omega
  have := (C122_unique s' (by rw [hd]; exact hT)).mp (by rw [el]; exact hn)
  rwa [el, hd, e, ← ht] at this

/-- **C122**, the predefined sequences: none cancels more orders than it has π-pulses, and one that cancels as
many has its pulses at Uhrig's times. -/
theorem C122_predefined (family : Family) (T : ℝ) (prePost : Bool) (name : Option String) (s : Sequence ℝ)
    (hs : family.call T prePost name = .ok s) :
    family.cancellationOrder ≤ (piPulseTimes s).length ∧
    (family.cancellationOrder = (piPulseTimes s).length ↔
      (piPulseTimes s).Perm (uhrigTimes T (piPulseTimes s).length)) := by
  obtain ⟨⟨hT, -⟩, hw⟩ := (C43_well_formed family T prePost name).ok hs
  have hc := C72_cancellation_order family T prePost name s hs
  have hd : s.duration = T := hw.1
  have hT' : 0 < s.duration := by rw [hd]; exact hT
  have hb := C122_bound s hT' _ hc.1
  refine ⟨hb, ?_⟩
  rw [← hd, ← C122_unique s hT']
  constructor
  · intro e
    rw [← e]; exact hc.1
  · intro h
    refine le_antisymm hb ?_
    by_contra hlt
    exact hc.2 (h _ (not_le.mp hlt))

/-- the hypotheses are met: the Uhrig sequence of seven pulses exists and cancels seven orders -/
example : ∃ s, newUhrigSequence (2 : ℝ) 7 true none = .ok s ∧ (piPulseTimes s).length = 7 ∧
    CancelsOrders s 7 ∧ ¬ CancelsOrders s 8 := by
  obtain ⟨s, hs, hw⟩ := (C43_well_formed (.uhrig 7) 2 true none).1
    ⟨by norm_num, show (1 : ℝ) ≤ 7 by norm_num⟩
  have h7 : ⌊(7 : ℝ)⌋₊ = 7 := by norm_num
  have := C122_uhrig 2 7 true none s hs
  rw [h7] at this
  refine ⟨s, hs, this.1, this.2.1, fun h => ?_⟩
  have := C122_bound s (by rw [hw.1]; norm_num) 8 h
  omega

/-- a sequence whose pulses are in another order is also covered: two pulses, the later one first -/
example : CancelsOrders (⟨1, [3 / 4, 1 / 4], [Real.pi, Real.pi], [0, 0], [0, 0], none⟩ : Sequence ℝ) 2 := by
  have h : piPulseTimes (⟨1, [3 / 4, 1 / 4], [Real.pi, Real.pi], [0, 0], [0, 0], none⟩ : Sequence ℝ) =
      [3 / 4, 1 / 4] := by simp [piPulseTimes]
  have := (C122_unique (⟨1, [3 / 4, 1 / 4], [Real.pi, Real.pi], [0, 0], [0, 0], none⟩ : Sequence ℝ)
    (by norm_num)).mpr
  rw [h] at this
  refine this ?_
  have e : uhrigTimes 1 2 = [1 / 4, 3 / 4] := by
    have h1 : ((1 : ℕ) : ℝ) * Real.pi / (2 * ((2 : ℕ) + 1)) = Real.pi / 6 := by push_cast; ring
    have h2 : ((2 : ℕ) : ℝ) * Real.pi / (2 * ((2 : ℕ) + 1)) = Real.pi / 3 := by push_cast; ring
    have h3 : Real.sin (Real.pi / 3) ^ 2 = 3 / 4 := Real.sq_sin_pi_div_three
    have h4 : Real.sin (Real.pi / 6) ^ 2 = 1 / 4 := by rw [Real.sin_pi_div_six]; norm_num
    simp only [uhrigTimes, List.range', List.map_cons, List.map_nil, one_mul, Nat.reduceAdd]
    rw [h1, h2, h3, h4]
  simp only [List.length_cons, List.length_nil, Nat.reduceAdd]
  rw [e]
  exact List.Perm.swap _ _ _

/-- a Carr-Purcell sequence of four pulses cancels fewer orders than it has pulses -/
example : ∃ s, newCarrPurcellSequence (2 : ℝ) 4 false none = .ok s ∧ CancelsExactly s 2 ∧
    ¬ (piPulseTimes s).Perm (uhrigTimes 2 (piPulseTimes s).length) := by
  obtain ⟨s, hs, hw⟩ := (C43_well_formed (.carrPurcell 4) 2 false none).1
    ⟨by norm_num, show (1 : ℝ) ≤ 4 by norm_num⟩
  have h4 : ⌊(4 : ℝ)⌋₊ = 4 := by norm_num
  have ho : Family.cancellationOrder (.carrPurcell 4) = 2 := by
    simp only [Family.cancellationOrder, h4]; decide
  have hc := C72_cancellation_order _ 2 false none s hs
  have hp := C122_predefined _ 2 false none s hs
  rw [ho] at hc hp
  refine ⟨s, hs, hc, fun h => ?_⟩
  have hl := hp.2.mpr h
  rw [Family.call_eq (family := .carrPurcell 4) (show (1 : ℝ) ≤ 4 by norm_num) (by norm_num)] at hs
  injection hs with hs
  rw [← hs, piPulseTimes_finished] at hl
  simp only [Family.table, flipTimes_onAxis_x, h4] at hl
  simp [cpmgTimes] at hl

end OpenControls
