import Verif.Spec.RoundedErrors

/-!
# Specification: one control for a list of gates
-/

namespace OpenControls.Spec

variable {α : Type} [Add α] [Sub α] [Mul α] [Div α] [Neg α] [PyFloat α]

/-- What a user writes to play a list of controls one after another: all arrays are concatenated. -/
def circuit (cs : List (DrivenControl α)) (name : Option String) : Except PyErr (DrivenControl α) :=
  DrivenControl.new (cs.flatMap fun c => c.durations) (some (cs.flatMap fun c => c.rabiRates))
    (some (cs.flatMap fun c => c.azimuthalAngles)) (some (cs.flatMap fun c => c.detunings)) name

/-- What is done if operations are performed in turn: the first one is the rightmost factor. -/
noncomputable def inTurn : List M2 → M2
  | [] => 1
  | U :: l => inTurn l * U

/-- A gate: a composite pulse scheme with the rotation angle and the azimuthal angle. -/
structure Gate (α : Type) where
  scheme : Scheme
  angle : α
  azimuth : α

/-- `cs` are the controls that the schemes of the gates return for the maximum Rabi rate `Ω`. -/
def Compiled (Ω : α) (gates : List (Gate α)) (cs : List (DrivenControl α)) : Prop :=
  List.Forall₂ (fun g c => g.scheme.call g.angle Ω g.azimuth none = .ok c) gates cs

/-- the rotations that are requested -/
noncomputable def requested (gates : List (Gate ℝ)) : M2 := inTurn (gates.map fun g => rotation g.angle g.azimuth)

/-- the schemes that perform every rotation they accept exactly (C16-C19, C21, C22) -/
def Scheme.Exact : Scheme → Prop
  | .primitive | .bb1 | .sk1 | .corpse | .corpseInBB1 | .corpseInSK1 => True
  | .scrofulous | .corpseInScrofulous | .wamf1 => False

end OpenControls.Spec
