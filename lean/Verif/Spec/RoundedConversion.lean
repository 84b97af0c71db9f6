import Verif.Spec.Conversion
import Verif.Spec.RoundedComposite

/-!
# The conversion computed in floating-point arithmetic: specification
-/

namespace OpenControls.Spec

/-- A rotation that is not within a rounding error of the tolerance below which `numpy` takes it
to be zero. -/
def Clear (u x : ℝ) : Prop := |x| ≤ (1 - u) / 10 ^ 8 ∨ (1 + u) / 10 ^ 8 < |x|

/-- both rotations of a pulse are clear -/
def ClearPulse (u : ℝ) (p : Pulse) : Prop := Clear u p.rabi ∧ Clear u p.detuning

/-- The sum of the angles by which the pulses, as the conversion takes them, rotate. -/
noncomputable def turning (ps : List Pulse) : ℝ :=
  (ps.map fun p => |(effective p).rabi| + |(effective p).detuning|).sum

/-- The pulse rotates by an angle that is not negligible. -/
def Rotates (p : Pulse) : Prop := ¬ (Negligible p.rabi ∧ Negligible p.detuning)

/-- The sequence can be carried out on the hardware with time `ε` to spare: as `Convertible`, but the
gaps between the pulses exceed the minimum by more than `ε`. -/
def ConvertibleWith (ε R D m : ℝ) (s : Sequence ℝ) : Prop :=
  0 < R ∧ 0 < D ∧ 0 ≤ m ∧
  (∀ p ∈ pulseList s, 0 ≤ p.rabi) ∧
  (∀ p ∈ pulseList s, ¬ (0 < p.rabi ∧ 0 < p.detuning)) ∧
  s.offsets.Pairwise (· < ·) ∧
  EachGap (fun g => m + ε < g) (windows R D m s)

end OpenControls.Spec
