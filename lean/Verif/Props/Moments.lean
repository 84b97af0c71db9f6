import Verif.Proofs.XYIntegral
import Verif.Props.Families

/-!
# C44-C45: cancellation of dephasing
-/

namespace OpenControls

open Spec RealInst

/-- **C44.** Static dephasing is refocused: the sensitivity integrates to zero over the sequence for
spin echo, Carr-Purcell, CPMG, Uhrig, Walsh, quadratic and X-concatenated sequences of every order,
periodic sequences with an odd number of pulses, and XY-concatenated ones of order one and of every
even order, with or without pre and post rotations. -/
theorem C44_refocused (family : Family) (hf : family.Refocuses) (T : ℝ) (prePost : Bool)
    (name : Option String) (s : Sequence ℝ) (hs : family.call T prePost name = .ok s) :
    ∫ t in 0..T, sensitivity s t = 0 := by
  obtain ⟨⟨hT, hv⟩, -⟩ := (C43_well_formed family T prePost name).ok hs
  rw [Family.call_eq hv hT] at hs
  injection hs with hs
  subst hs
  simp only [sensitivity_finished]
  cases family with
  | ramsey => exact absurd hf id
  | spinEcho =>
    have : flipTimes (Family.table .spinEcho T) = [T / 2] := by simp [Family.table, flipTimes]
    rw [this]; exact spinEcho_refocus hT
  | carrPurcell n =>
    simp only [Family.table, flipTimes_onAxis_x]
    exact cpmg_refocus hT (Nat.floor_pos.mpr hv).ne'
  | cpmg n =>
    simp only [Family.table, flipTimes_onAxis_y]
    exact cpmg_refocus hT (Nat.floor_pos.mpr hv).ne'
  | uhrig n =>
    simp only [Family.table, flipTimes_onAxis_y]
    simpa using uhrig_moment hT (Nat.floor_pos.mpr hv)
  | periodic n =>
    simp only [Family.table, flipTimes_onAxis_x]
    exact periodic_refocus hT hf
  | walsh k =>
    simp only [Family.table, flipTimes_onAxis_x]
    exact walsh_refocus hT (Nat.floor_pos.mpr hv.1).ne'
  | quadratic n m =>
    simp only [Family.table, flipTimes_quadratic]
    simpa using uhrig_moment hT (Nat.floor_pos.mpr hv.2)
  | xConcatenated l =>
    simp only [Family.table, flipTimes_onAxis_x]
    exact xConcatenated_refocus hT (Nat.floor_pos.mpr hv).ne'
  | xyConcatenated l =>
    have hl : ⌊l⌋₊ ≠ 0 := (Nat.floor_pos.mpr (show (1 : ℝ) ≤ l from hv)).ne'
    simp only [Family.table]
    rcases hf with h | ⟨k, h⟩
    · rw [h]; simpa using xy_integral_odd hT 0
    · obtain ⟨k, rfl⟩ : ∃ k', k = k' + 1 := ⟨k - 1, by omega⟩
      rw [h, show k + 1 + (k + 1) = 2 * k + 2 by ring]
      exact xy_integral_even hT k

/-- **C44**, the periodic sequence with an even number `n` of pulses does not refocus static
dephasing: the sensitivity integrates to `T/(n+1)`. -/
theorem C44_periodic_even (T count : ℝ) (hn : Even ⌊count⌋₊) (prePost : Bool) (name : Option String)
    (s : Sequence ℝ) (hs : newPeriodicSequence T count prePost name = .ok s) :
    0 < T ∧ ∫ t in 0..T, sensitivity s t = T / (⌊count⌋₊ + 1) := by
  have hs' : Family.call (.periodic count) T prePost name = .ok s := hs
  obtain ⟨⟨hT, hv⟩, -⟩ := (C43_well_formed (.periodic count) T prePost name).ok hs'
  rw [Family.call_eq hv hT] at hs'
  injection hs' with hs'
  subst hs'
  refine ⟨hT, ?_⟩
  simp only [sensitivity_finished, Family.table, flipTimes_onAxis_x]
  exact periodic_even hT hn

/-- **C44**, the Ramsey sequence has no π-pulses, and the sensitivity integrates to `T`. -/
theorem C44_ramsey (T : ℝ) (prePost : Bool) (name : Option String) (s : Sequence ℝ)
    (hs : newRamseySequence T prePost name = .ok s) : ∫ t in 0..T, sensitivity s t = T := by
  have hs' : Family.call .ramsey T prePost name = .ok s := hs
  obtain ⟨⟨hT, hv⟩, -⟩ := (C43_well_formed .ramsey T prePost name).ok hs'
  rw [Family.call_eq hv hT] at hs'
  injection hs' with hs'
  subst hs'
  simp [sensitivity_finished, Family.table, flipTimes, switching]

/-- **C44**, the XY-concatenated sequence of odd order `2k+1` leaves `-T(1 - 16⁻ᵏ)/10`: from order three on
it does not refocus static dephasing. -/
theorem C44_xy_odd (T level : ℝ) (k : ℕ) (hk : ⌊level⌋₊ = 2 * k + 1) (prePost : Bool)
    (name : Option String) (s : Sequence ℝ) (hs : newXYConcatenatedSequence T level prePost name = .ok s) :
    ∫ t in 0..T, sensitivity s t = -(T * (1 - 1 / 16 ^ k) / 10) := by
  have hs' : Family.call (.xyConcatenated level) T prePost name = .ok s := hs
  obtain ⟨⟨hT, hv⟩, -⟩ := (C43_well_formed (.xyConcatenated level) T prePost name).ok hs'
  rw [Family.call_eq hv hT] at hs'
  injection hs' with hs'
  subst hs'
  simp only [sensitivity_finished, Family.table, hk]
  exact xy_integral_odd hT k

/-- **C44**, complete: among all predefined sequences exactly the listed ones refocus static dephasing. -/
theorem C44_iff (family : Family) (T : ℝ) (prePost : Bool) (name : Option String) (s : Sequence ℝ)
    (hs : family.call T prePost name = .ok s) :
    ∫ t in 0..T, sensitivity s t = 0 ↔ family.Refocuses := by
  refine ⟨fun h0 => ?_, fun hf => C44_refocused family hf T prePost name s hs⟩
  obtain ⟨⟨hT, hv⟩, -⟩ := (C43_well_formed family T prePost name).ok hs
  cases family with
  | ramsey => rw [C44_ramsey T prePost name s hs] at h0; exact absurd h0 hT.ne'
  | periodic n =>
    show Odd ⌊n⌋₊
    by_contra hn
    rw [(C44_periodic_even T n (Nat.not_odd_iff_even.mp hn) prePost name s hs).2] at h0
    have : (0 : ℝ) < T / (⌊n⌋₊ + 1) := by positivity
    exact this.ne' h0
  | xyConcatenated l =>
    show ⌊l⌋₊ = 1 ∨ Even ⌊l⌋₊
    by_contra hn
    push Not at hn
    obtain ⟨k, hk⟩ := Nat.not_even_iff_odd.mp hn.2
    rw [C44_xy_odd T l k hk prePost name s hs] at h0
    have hk1 : k ≠ 0 := by rintro rfl; exact hn.1 (by omega)
    have h16 : (1 : ℝ) < 16 ^ k := one_lt_pow₀ (by norm_num) hk1
    have : (1 : ℝ) / 16 ^ k < 1 := by rw [div_lt_one (by positivity)]; exact h16
    have : 0 < T * (1 - 1 / 16 ^ k) / 10 := by
      have : 0 < 1 - (1 : ℝ) / 16 ^ k := by linarith
      positivity
    linarith
  | _ => trivial

/-- the hypotheses are met: an XY-concatenated sequence of order four refocuses, one of order three does
not -/
example : (∃ s, newXYConcatenatedSequence (1 : ℝ) 4 true none = .ok s ∧
      ∫ t in (0 : ℝ)..1, sensitivity s t = 0) ∧
    ∃ s, newXYConcatenatedSequence (1 : ℝ) 3 true none = .ok s ∧
      ∫ t in (0 : ℝ)..1, sensitivity s t = -(3 / 32) := by
  have h4 : ⌊(4 : ℝ)⌋₊ = 4 := by norm_num
  have h3 : ⌊(3 : ℝ)⌋₊ = 2 * 1 + 1 := by norm_num
  obtain ⟨s, hs, -⟩ := (C43_well_formed (.xyConcatenated 4) 1 true none).1
    ⟨by norm_num, show (1 : ℝ) ≤ 4 by norm_num⟩
  obtain ⟨s', hs', -⟩ := (C43_well_formed (.xyConcatenated 3) 1 true none).1
    ⟨by norm_num, show (1 : ℝ) ≤ 3 by norm_num⟩
  refine ⟨⟨s, hs, (C44_iff (.xyConcatenated 4) 1 true none s hs).mpr
    (Or.inr ⟨2, by rw [h4]⟩)⟩, s', hs', ?_⟩
  rw [C44_xy_odd 1 3 1 h3 true none s' hs']
  norm_num

/-- **C45.** The `n`-pulse Uhrig sequence cancels dephasing to order `n`: the sensitivity is orthogonal
to `t^k` for all `k < n`. -/
theorem C45_uhrig_moments (T count : ℝ) (prePost : Bool) (name : Option String) (s : Sequence ℝ)
    (hs : newUhrigSequence T count prePost name = .ok s) (k : ℕ) (hk : k < ⌊count⌋₊) :
    ∫ t in 0..T, sensitivity s t * t ^ k = 0 := by
  have hs' : Family.call (.uhrig count) T prePost name = .ok s := hs
  obtain ⟨⟨hT, hv⟩, -⟩ := (C43_well_formed (.uhrig count) T prePost name).ok hs'
  rw [Family.call_eq hv hT] at hs'
  injection hs' with hs'
  subst hs'
  simp only [sensitivity_finished, Family.table, flipTimes_onAxis_y]
  exact uhrig_moment hT hk

/-- **C45** for the quadratic sequence: with `n₂` outer pulses the sensitivity is orthogonal to `t^k` for
all `k < n₂`, whatever the number of inner pulses. -/
theorem C45_quadratic_moments (T inner outer : ℝ) (prePost : Bool) (name : Option String)
    (s : Sequence ℝ) (hs : newQuadraticSequence T inner outer prePost name = .ok s) (k : ℕ)
    (hk : k < ⌊outer⌋₊) : ∫ t in 0..T, sensitivity s t * t ^ k = 0 := by
  have hs' : Family.call (.quadratic inner outer) T prePost name = .ok s := hs
  obtain ⟨⟨hT, hv⟩, -⟩ := (C43_well_formed (.quadratic inner outer) T prePost name).ok hs'
  rw [Family.call_eq hv hT] at hs'
  injection hs' with hs'
  subst hs'
  simp only [sensitivity_finished, Family.table, flipTimes_quadratic]
  exact uhrig_moment hT hk

/-- the hypotheses are met: a three-pulse Uhrig sequence exists and its second moment vanishes -/
example : ∃ s, newUhrigSequence (1 : ℝ) 3 false none = .ok s ∧
    ∫ t in (0 : ℝ)..1, sensitivity s t * t ^ 2 = 0 := by
  obtain ⟨s, hs, -⟩ := (C37_uhrig 1 3 false none).1 ⟨by norm_num, by norm_num⟩
  have : ⌊(3 : ℝ)⌋₊ = 3 := by norm_num
  exact ⟨s, hs, C45_uhrig_moments 1 3 false none s hs 2 (by omega)⟩

end OpenControls
