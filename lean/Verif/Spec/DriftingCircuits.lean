import Verif.Spec.DriftingErrors
import Verif.Spec.Circuits

/-!
# Specification: a list of controls played on hardware whose errors change
-/

namespace OpenControls.Spec

/-- the errors as seen by a control that starts at the time `s` -/
def DriftingErrors.later (e : DriftingErrors) (s : ℝ) : DriftingErrors :=
  ⟨fun t => e.amplitude (s + t), fun t => e.phase (s + t), fun t => e.detuning (s + t)⟩

/-- The controls are played one after another without a break, the first one from the time `s` on; each of them performs the operation of the
list `Us` in its place. -/
inductive PlayedInTurn (e : DriftingErrors) : ℝ → List (DrivenControl ℝ) → List M2 → Prop
  | nil (s : ℝ) : PlayedInTurn e s [] []
  | cons {s : ℝ} {c : DrivenControl ℝ} {cs : List (DrivenControl ℝ)} {V : ℝ → M2} {Us : List M2} :
    ErrantEvolution c (e.later s) V → PlayedInTurn e (s + c.durations.sum) cs Us →
      PlayedInTurn e s (c :: cs) (V c.durations.sum :: Us)

end OpenControls.Spec
