import Verif.Spec.RoundedComposite
import Verif.Spec.RoundedAccessors
import Verif.Spec.Robustness

/-!
# Composite pulses that are computed in floating-point arithmetic and performed with systematic errors: specification
-/

namespace OpenControls.Spec

/-- both systematic errors at once -/
def withErrors (e d : ℝ) (c : DrivenControl ℝ) : DrivenControl ℝ := withDetuningError d (withAmplitudeError e c)

/-- the segments `(Rabi rate, azimuthal angle, detuning, duration)` of a control, in time order -/
def segmentList (c : DrivenControl ℝ) : List (ℝ × ℝ × ℝ × ℝ) :=
  cartesianSegments c.rabiRates c.azimuthalAngles c.detunings c.durations

/-- Two resonant segments whose rotation angles and azimuthal angles differ by at most `δ` and whose durations differ
by at most the time in which the Rabi rate `Ω` turns by `δ`. -/
def SegmentNear (δ Ω : ℝ) : ℝ × ℝ × ℝ × ℝ → ℝ × ℝ × ℝ × ℝ → Prop
  | (w, φ, Δ, t), (w', φ', Δ', t') =>
    |w * t - w' * t'| ≤ δ ∧ |φ - φ'| ≤ δ ∧ Δ = 0 ∧ Δ' = 0 ∧ Ω * |t - t'| ≤ δ

/-- the same number of segments, and each near its counterpart -/
def NearSegments (δ Ω : ℝ) (c c' : DrivenControl ℝ) : Prop :=
  List.Forall₂ (SegmentNear δ Ω) (segmentList c) (segmentList c')

/-- how many unit roundoffs a computed segment of a composite pulse is off at most -/
def Scheme.roundoffs (θ φ : ℝ) : Scheme → ℝ
  | .primitive => θ
  | .bb1 => |φ| + 75
  | .sk1 => |φ| + 25
  | .corpse => 2 * θ + |φ| + 35
  | .corpseInBB1 => 2 * θ + |φ| + 75
  | .corpseInSK1 => 2 * θ + |φ| + 35
  | .scrofulous => |φ| + 415
  | .corpseInScrofulous => 3 * |φ| + 440
  | .wamf1 => 30

/-- the schemes with the angle `arccos(-θ/4π)` -/
def Scheme.usesWimperis : Scheme → Prop
  | .bb1 | .sk1 | .corpseInBB1 | .corpseInSK1 => True
  | _ => False

open Classical in
/-- How far a computed segment of a composite pulse is off at most, with unit roundoff `u`. Beyond 3π the angle
`arccos(-θ/4π)` is close to the vertical tangent of `arccos`, which turns `u` into `√u`. -/
noncomputable def Scheme.deviation (u θ φ : ℝ) (s : Scheme) : ℝ :=
  s.roundoffs θ φ * u + if s.usesWimperis ∧ 3 * Real.pi < θ then 14 * Real.sqrt u else 0

end OpenControls.Spec
