import Verif.Spec.Families

/-!
# Specification: π-pulses of a sequence and cancelled orders of dephasing
-/

namespace OpenControls.Spec

open Classical in
/-- the times of the π-pulses about axes in the XY plane -/
noncomputable def piPulseTimes (s : Sequence ℝ) : List ℝ :=
  ((s.offsets.zip s.rabiRotations).filter fun p => p.2 = Real.pi).map fun p => p.1

/-- Dephasing noise that is a polynomial of degree below `n` in time has no effect. -/
def CancelsOrders (s : Sequence ℝ) (n : ℕ) : Prop :=
  ∀ k < n, ∫ t in 0..s.duration, sensitivity s t * t ^ k = 0

end OpenControls.Spec
