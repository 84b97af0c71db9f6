import Verif.Props.Concatenated
import Verif.Proofs.BuiltXY

/-!
# C42: what the XY-concatenated sequence is at every order
-/

namespace OpenControls

open Spec RealInst

/-- **C42**, every order: the pulses of `new_xy_concatenated_sequence` are exactly those of `builtXY`, in units of
`T / 4^l` from time zero. -/
theorem C42_exact (T order : ℝ) (prePost : Bool) (name : Option String) :
    Returns (newXYConcatenatedSequence T order prePost name) (0 < T ∧ 1 ≤ order)
      (Realises T (unitPulses (T / 4 ^ ⌊order⌋₊) 0 (builtXY ⌊order⌋₊)) prePost name) := by
  unfold newXYConcatenatedSequence checkDuration
  refine Returns.congr (Returns.check (Q := 0 < T) (by simp) fun hT =>
    Returns.check (P := True) (Q := 1 ≤ order) (by simp) fun hc => Returns.last ?_) (by simp)
  have hl : ⌊order⌋₊ ≠ 0 := (Nat.floor_pos.mpr hc).ne'
  rw [pyInt_of_nonneg (by linarith), except_ok_bind]
  obtain ⟨n, h⟩ := Nat.exists_eq_succ_of_ne_zero hl
  rw [h, Nat.succ_eq_add_one, xyConcatenatedPulses_eq hT n]
  obtain ⟨s, hs, hr⟩ := finishSequence_table hT (xyTable T (n + 1))
    (fun p hp => ⟨(xyTable_bounds hT n p hp).1.le, (xyTable_bounds hT n p hp).2⟩) prePost name
  exact ⟨s, hs, by rw [← xyTable_built hT n]; exact hr⟩

/-- the call has a result, at an order where it differs from the documented recursion -/
example : ∃ s, newXYConcatenatedSequence 64 3 false none = .ok s ∧
    Realises 64 (unitPulses (64 / 4 ^ 3) 0 (builtXY 3)) false none s := by
  have h := (C42_exact 64 3 false none).1 ⟨by norm_num, by norm_num⟩
  have e : ⌊(3 : ℝ)⌋₊ = 3 := by norm_num
  rwa [e] at h

/-- the first quarter of order three: fifteen units instead of sixteen, and Z instead of X at the end -/
example : (builtXY 3).take 15 =
    [[.x], [.y], [.x], [.z], [.x], [.y], [.x], [], [.x], [.y], [.x], [.z], [.x], [.y], [.x, .z]] := rfl

/-- **C42**, the end of odd orders: the last pulse, about Y, is at `T(19/20 + 1/(20·16^k))` for order `2k + 1`, not
at `T` as documented unless `k = 0`: towards high orders a twentieth of the duration is left without pulses. -/
theorem C42_odd_end (T order : ℝ) (k : ℕ) (hk : ⌊order⌋₊ = 2 * k + 1) (name : Option String) (s : Sequence ℝ)
    (hs : newXYConcatenatedSequence T order false name = .ok s) :
    s.offsets.getLast? = some (T * (19 / 20 + 1 / (20 * 16 ^ k))) ∧
      s.rabiRotations.getLast? = some Real.pi ∧ s.azimuthalAngles.getLast? = some (Real.pi / 2) ∧
      s.detuningRotations.getLast? = some 0 := by
  have hr := ((C42_exact T order false name).ok hs).2
  rw [hk] at hr
  have hr' : s = piSequence T (unitPulses (T / 4 ^ (2 * k + 1)) 0 (builtXY (2 * k + 1))) name := hr
  have hlen : (5 : ℝ) * (builtXY (2 * k + 1)).length = 19 * 16 ^ k + 1 := by exact_mod_cast builtXY_length k
  have h16 : (4 : ℝ) ^ (2 * k + 1) = 4 * 16 ^ k := by rw [pow_succ, pow_mul]; norm_num; ring
  have hl : ((builtXY (2 * k + 1)).length : ℝ) * (T / 4 ^ (2 * k + 1)) = T * (19 / 20 + 1 / (20 * 16 ^ k)) := by
    have : ((builtXY (2 * k + 1)).length : ℝ) = (19 * 16 ^ k + 1) / 5 := by linarith
    rw [this, h16]
    field_simp
    ring
  have hlast := built_last_odd (T / 4 ^ (2 * k + 1)) k
  rw [hl] at hlast
  subst hr'
  simp [piSequence, hlast, Axis.rabi, Axis.azimuthal, Axis.detuning]

/-- **C42**, the end of even orders: the last pulse, about X, is one unit before `T(19/20 + 1/(20·16^k))` for order
`2k + 2`; documented is one unit before `T` (`C42_recursion_last`). -/
theorem C42_even_end (T order : ℝ) (k : ℕ) (hk : ⌊order⌋₊ = 2 * k + 2) (name : Option String) (s : Sequence ℝ)
    (hs : newXYConcatenatedSequence T order false name = .ok s) :
    s.offsets.getLast? = some (T * (19 / 20 + 1 / (20 * 16 ^ k) - 1 / 4 ^ (2 * k + 2))) ∧
      s.rabiRotations.getLast? = some Real.pi ∧ s.azimuthalAngles.getLast? = some 0 ∧
      s.detuningRotations.getLast? = some 0 := by
  have hr := ((C42_exact T order false name).ok hs).2
  rw [hk] at hr
  have hr' : s = piSequence T (unitPulses (T / 4 ^ (2 * k + 2)) 0 (builtXY (2 * k + 2))) name := hr
  have hlen : (5 : ℝ) * (builtXY (2 * k + 1)).length = 19 * 16 ^ k + 1 := by exact_mod_cast builtXY_length k
  have hstep := builtXY_length_step (2 * k)
  rw [if_pos (by omega)] at hstep
  have h16 : (4 : ℝ) ^ (2 * k + 2) = 16 * 16 ^ k := by rw [pow_add, pow_mul]; norm_num; ring
  have hl : (((builtXY (2 * k + 2)).length : ℝ) - 1) * (T / 4 ^ (2 * k + 2)) =
      T * (19 / 20 + 1 / (20 * 16 ^ k) - 1 / 4 ^ (2 * k + 2)) := by
    have : ((builtXY (2 * k + 1)).length : ℝ) = (19 * 16 ^ k + 1) / 5 := by linarith
    rw [hstep, h16]
    push_cast
    rw [this]
    field_simp
    ring
  have hlast := built_last_even (T / 4 ^ (2 * k + 2)) k
  rw [hl] at hlast
  subst hr'
  simp [piSequence, hlast, Axis.rabi, Axis.azimuthal, Axis.detuning]

/-- an order with either end -/
example : (∃ s, newXYConcatenatedSequence (1 : ℝ) 5 false none = .ok s ∧ ⌊(5 : ℝ)⌋₊ = 2 * 2 + 1) ∧
    ∃ s, newXYConcatenatedSequence (1 : ℝ) 4 false none = .ok s ∧ ⌊(4 : ℝ)⌋₊ = 2 * 1 + 2 := by
  constructor
  · obtain ⟨s, hs, -⟩ := (C42_exact 1 5 false none).1 ⟨by norm_num, by norm_num⟩
    exact ⟨s, hs, by norm_num⟩
  · obtain ⟨s, hs, -⟩ := (C42_exact 1 4 false none).1 ⟨by norm_num, by norm_num⟩
    exact ⟨s, hs, by norm_num⟩

end OpenControls
