import Verif.Spec.RoundedPipeline
import Verif.Spec.NoisyControl
import Verif.Spec.EndToEnd

/-!
# Specification: floating-point errors and the time of the pulses, on a noisy qubit
-/

namespace OpenControls.Spec

variable {r : Rounding}

/-- What a sequence of `n` pulses of duration `T`, computed and converted in floating point, may do to a qubit under noise
of strength `M` beyond what the ideal sequence does, when every pulse takes at most the time `w`: the angles of the pulses
are rounded; their times are those of the exact sequence up to `error * T` (C63), and up to `29 u T` those of the
control; and the pulses take time. -/
noncomputable def RoundedFamily.defect (family : RoundedFamily r) (T M w : ℝ) (n : ℕ) : ℝ :=
  n * (7 * r.u + M * family.error * T) + M * (n * w + 29 * (n + 2) * r.u * T)

end OpenControls.Spec
