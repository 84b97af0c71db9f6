import Verif.Rounding
import Verif.Spec.Extended
import Verif.Spec.Composite

/-!
# Specification: changing the unit of time

Times become `k` times as large, rates `k` times as small.  In floating-point arithmetic `k` is a power of two.
-/

namespace OpenControls

theorem Rounding.rnd_two_zpow (r : Rounding) (n : ℤ) (x : ℝ) : r.rnd (2 ^ n * x) = 2 ^ n * r.rnd x := by
  have h : ∀ (m : ℕ) (x : ℝ), r.rnd (x / 2 ^ m) = r.rnd x / 2 ^ m := by
    intro m
    induction m with
    | zero => intro x; simp
    | succ m ih =>
      intro x
      rw [pow_succ, ← div_div, r.half, ih, div_div]
  rcases Int.eq_nat_or_neg n with ⟨m, rfl | rfl⟩
  · have h2 : (2 : ℝ) ^ m ≠ 0 := by positivity
    have := h m (2 ^ m * x)
    rw [mul_div_cancel_left₀ _ h2] at this
    rw [zpow_natCast, this, mul_div_cancel₀ _ h2]
  · rw [zpow_neg, zpow_natCast, inv_mul_eq_div, h, inv_mul_eq_div]

namespace Spec

variable {r : Rounding}

/-- the floating-point number multiplied by `2ⁿ`, without rounding -/
noncomputable def timesTwoPow (n : ℤ) (x : Fl r) : Fl r :=
  ⟨2 ^ n * x.val, by rw [r.rnd_two_zpow, x.rnd_val]⟩

/-- the control with all times multiplied by `2ⁿ` and all rates divided by it -/
noncomputable def slowerControl (n : ℤ) (c : DrivenControl (Fl r)) : DrivenControl (Fl r) where
  rabiRates := c.rabiRates.map (timesTwoPow (-n))
  azimuthalAngles := c.azimuthalAngles
  detunings := c.detunings.map (timesTwoPow (-n))
  durations := c.durations.map (timesTwoPow n)
  name := c.name

/-- the sequence with the duration and the times of the pulses multiplied by `2ⁿ` -/
noncomputable def longerSequence (n : ℤ) (s : Sequence (Fl r)) : Sequence (Fl r) :=
  { s with duration := timesTwoPow n s.duration, offsets := s.offsets.map (timesTwoPow n) }

/-- An entry of the exported dictionary when rates are changed by `rate` and times by `time`; amplitudes are exported relative to the maximum Rabi
rate. -/
def inUnits {α : Type} (rate time : α → α) (e : String × Val α) : String × Val α :=
  if e.1 = "maximum_rabi_rate" ∨ e.1 = "detuning" then
    (e.1, match e.2 with | .num x => .num (rate x) | .arr l => .arr (l.map rate) | v => v)
  else if e.1 = "duration" then (e.1, match e.2 with | .arr l => .arr (l.map time) | v => v)
  else e

end Spec

end OpenControls
