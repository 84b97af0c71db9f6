import Verif.Spec.Families

/-!
# Specification: how many pulses the predefined sequences have
-/

namespace OpenControls.Spec

/-- the Gray code of a number: consecutive numbers have codes that differ in one binary digit -/
def grayCode (n : ℕ) : ℕ := n ^^^ (n / 2)

/-- The number of π-pulses of each family.

* Walsh: the Paley order is the Gray code of the number of pulses.
* X-concatenated: a third of `2^(order + 1)`, rounded down.
* XY-concatenated: about 11/12 of `4^order`. -/
def Family.HasPulses : Family → ℕ → Prop
  | .ramsey, N => N = 0
  | .spinEcho, N => N = 1
  | .carrPurcell n, N | .cpmg n, N | .uhrig n, N | .periodic n, N => N = ⌊n⌋₊
  | .walsh k, N => grayCode N = ⌊k⌋₊
  | .quadratic inner outer, N => N = ⌊outer⌋₊ + (⌊outer⌋₊ + 1) * ⌊inner⌋₊
  | .xConcatenated l, N => N = 2 ^ (⌊l⌋₊ + 1) / 3
  | .xyConcatenated l, N =>
    if Even ⌊l⌋₊ then 12 * N + 8 = 11 * 4 ^ ⌊l⌋₊ else 12 * N = 11 * 4 ^ ⌊l⌋₊ + 4

end OpenControls.Spec
