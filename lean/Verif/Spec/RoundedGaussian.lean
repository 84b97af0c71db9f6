import Verif.Spec.Gaussian
import Verif.Spec.RoundedComposite

/-!
# The modulated Gaussian control in floating-point arithmetic: specification

The arguments and the entries of the control are floating-point numbers; they are compared with the
exact samples of `Spec/Gaussian.lean` at the same arguments.
-/

namespace OpenControls.Spec

variable {r : Rounding}

/-- the exact total rotation angle of the computed segments, regardless of the axes -/
noncomputable def accumulatedAngle (c : DrivenControl (Fl r)) : ℝ :=
  (List.zipWith (fun w t => w.val * t.val) c.rabiRates c.durations).sum

/-- How far a computed sample of the modulated Gaussian may be from the exact one; the number of
periods of the modulation enters through the argument of the sine. -/
noncomputable def sampleTolerance (r : Rounding) (f T : ℝ) : ℝ := (1300 + 80 * (|f| * T)) * r.u

end OpenControls.Spec
