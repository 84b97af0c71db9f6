import Verif.Spec.Robustness

/-!
# Specification: how large the effect of a systematic error can be
-/

namespace OpenControls.Spec

/-- the angle swept by the drive: the sum of `|Rabi rate × duration|` over the segments -/
noncomputable def sweptAngle (c : DrivenControl ℝ) : ℝ :=
  (List.zipWith (fun Ω t => |Ω * t|) c.rabiRates c.durations).sum

/-- the time the segments take: the sum of `|duration|` -/
noncomputable def elapsedTime (c : DrivenControl ℝ) : ℝ := (c.durations.map fun t => |t|).sum

end OpenControls.Spec
