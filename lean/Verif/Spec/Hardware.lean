import Verif.Spec.Optimal
import Verif.Spec.Conversion

/-!
# Specification: what the conversion of a predefined sequence asks of the hardware

`R` is the maximum Rabi rate, `m` the minimum segment duration.
-/

namespace OpenControls.Spec

/-- the shortest gap between two pulses that is accepted: the minimum segment duration less the tolerance
of `numpy` -/
noncomputable def shortestGap (m : ℝ) : ℝ := m - (1 / 10 ^ 8 + 1 / 10 ^ 5 * m)

/-- the time of a π-pulse about an axis in the XY plane -/
noncomputable def piTime (R m : ℝ) : ℝ := max (Real.pi / R) m

/-- the time of a π-pulse about Z on hardware with maximum detuning rate `D` -/
noncomputable def zTime (D m : ℝ) : ℝ := max (Real.pi / D) m

/-- the time of the rotation by π/2 at either end, if there is one -/
noncomputable def endTime (R m : ℝ) (prePost : Bool) : ℝ :=
  if prePost then max (Real.pi / 2 / R) m else 0

/-- the families whose pulses are all about axes in the XY plane, and which have a pulse -/
def Family.InPlane : Family → Prop
  | .ramsey => False
  | .quadratic _ _ => False
  | .xyConcatenated _ => False
  | _ => True

/-- All π-pulses are at least `atEnds` away from the start and the end of the sequence, and at least
`between` away from each other. -/
def Spaced (atEnds between : ℝ) (s : Sequence ℝ) : Prop :=
  (∀ t ∈ piPulseTimes s, atEnds ≤ t ∧ atEnds ≤ s.duration - t) ∧
    ∀ a ∈ piPulseTimes s, ∀ b ∈ piPulseTimes s, a < b → between ≤ b - a

end OpenControls.Spec
