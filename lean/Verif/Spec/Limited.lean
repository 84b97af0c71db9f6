import Verif.Limited
import Verif.Model.DrivenPredefined
import Verif.Model.Sequence

/-!
# Specification: the same result with and without limits of the range of numbers
-/

namespace OpenControls.Spec

variable {r : Rounding} {L : Limits r}

/-- a number of an arithmetic of limited range has the value of a number of the arithmetic without limits -/
def SameValue (a : Lim L) (b : Fl r) : Prop := a.val = .fin b.val

/-- two controls have the same name, equally many segments and the same numbers in them -/
def SameControl (c : DrivenControl (Lim L)) (d : DrivenControl (Fl r)) : Prop :=
  List.Forall₂ SameValue c.rabiRates d.rabiRates ∧ List.Forall₂ SameValue c.azimuthalAngles d.azimuthalAngles ∧
    List.Forall₂ SameValue c.detunings d.detunings ∧ List.Forall₂ SameValue c.durations d.durations ∧ c.name = d.name

/-- both calls return the same control or both raise the same exception -/
def SameOutcome (x : Except PyErr (DrivenControl (Lim L))) (y : Except PyErr (DrivenControl (Fl r))) : Prop :=
  (∃ c d, x = .ok c ∧ y = .ok d ∧ SameControl c d) ∨ ∃ e, x = .error e ∧ y = .error e

/-- two sequences have the same name, equally many pulses and the same numbers in them -/
def SameSequence (s : Sequence (Lim L)) (t : Sequence (Fl r)) : Prop :=
  SameValue s.duration t.duration ∧ List.Forall₂ SameValue s.offsets t.offsets ∧
    List.Forall₂ SameValue s.rabiRotations t.rabiRotations ∧
    List.Forall₂ SameValue s.azimuthalAngles t.azimuthalAngles ∧
    List.Forall₂ SameValue s.detuningRotations t.detuningRotations ∧ s.name = t.name

/-- both calls return the same sequence or both raise the same exception -/
def SameSequenceOutcome (x : Except PyErr (Sequence (Lim L))) (y : Except PyErr (Sequence (Fl r))) : Prop :=
  (∃ s t, x = .ok s ∧ y = .ok t ∧ SameSequence s t) ∨ ∃ e, x = .error e ∧ y = .error e

end OpenControls.Spec
