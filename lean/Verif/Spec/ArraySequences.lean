import Verif.Model.ArraySequences
import Verif.Spec.Extended
import Verif.Spec.Families
import Verif.Spec.Shapes

/-!
# Specification: predefined sequences called with an array as duration
-/

namespace OpenControls.Spec

open PyFloat

variable {α : Type} [Add α] [Sub α] [Mul α] [Div α] [Neg α] [PyFloat α]

/-- The nine functions with their argument other than the duration. -/
inductive PlainSequence (α : Type) where
  | ramsey
  | spinEcho
  | carrPurcell (count : α)
  | cpmg (count : α)
  | uhrig (count : α)
  | periodic (count : α)
  | walsh (order : α)
  | xConcatenated (order : α)
  | xyConcatenated (order : α)

/-- among the ten predefined sequences -/
def PlainSequence.predefined : PlainSequence α → Predefined α
  | .ramsey => .ramsey
  | .spinEcho => .spinEcho
  | .carrPurcell n => .carrPurcell n
  | .cpmg n => .cpmg n
  | .uhrig n => .uhrig n
  | .periodic n => .periodic n
  | .walsh k => .walsh k
  | .xConcatenated l => .xConcatenated l
  | .xyConcatenated l => .xyConcatenated l

/-- in the reals, among the families of predefined sequences -/
def PlainSequence.family : PlainSequence ℝ → Family
  | .ramsey => .ramsey
  | .spinEcho => .spinEcho
  | .carrPurcell n => .carrPurcell n
  | .cpmg n => .cpmg n
  | .uhrig n => .uhrig n
  | .periodic n => .periodic n
  | .walsh k => .walsh k
  | .xConcatenated l => .xConcatenated l
  | .xyConcatenated l => .xyConcatenated l

/-- the call of the public function with an array as duration and without pre and post rotation -/
def PlainSequence.callArray (p : PlainSequence α) (T : NdArray α) (name : Option String) :
    Except PyErr (ArraySequence α) :=
  match p with
  | .ramsey => newRamseyArray T name
  | .spinEcho => newSpinEchoArray T name
  | .carrPurcell n => newCarrPurcellArray T n name
  | .cpmg n => newCPMGArray T n name
  | .uhrig n => newUhrigArray T n name
  | .periodic n => newPeriodicArray T n name
  | .walsh k => newWalshArray T k name
  | .xConcatenated l => newXConcatenatedArray T l name
  | .xyConcatenated l => newXYConcatenatedArray T l name

/-- The shape of the offsets, for a duration with the given shape (axes of length 1 only) and `n` pulses: the spin echo has the shape of the
duration behind an axis for the only pulse; for sequences that are computed as products, the last axis of the duration becomes the axis of
the pulses; otherwise there is the axis of the pulses only. -/
def PlainSequence.offsetShape (p : PlainSequence α) (shape : List ℕ) (n : ℕ) : List ℕ :=
  match p with
  | .spinEcho => n :: shape
  | .ramsey | .xConcatenated _ | .xyConcatenated _ => [n]
  | .carrPurcell _ | .cpmg _ | .uhrig _ | .periodic _ | .walsh _ => shape.dropLast ++ [n]

/-- the shape of the rotations: that of the offsets, except for the spin echo -/
def PlainSequence.rotationShape (p : PlainSequence α) (shape : List ℕ) (n : ℕ) : List ℕ :=
  match p with
  | .spinEcho => [n]
  | _ => p.offsetShape shape n

/-- the sequence `s` with an array as duration and its values in arrays with the shapes above -/
def PlainSequence.shaped (p : PlainSequence α) (T : NdArray α) (s : Sequence α) : ArraySequence α where
  duration := T
  offsets := ⟨p.offsetShape T.shape s.offsets.length, s.offsets⟩
  rabiRotations := ⟨p.rotationShape T.shape s.offsets.length, s.rabiRotations⟩
  azimuthalAngles := ⟨p.rotationShape T.shape s.offsets.length, s.azimuthalAngles⟩
  detuningRotations := ⟨p.rotationShape T.shape s.offsets.length, s.detuningRotations⟩
  name := s.name

end OpenControls.Spec
