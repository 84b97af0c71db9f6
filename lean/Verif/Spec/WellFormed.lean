import Verif.Py

/-!
# Specification: well-formed constructor arguments

Stated for any arithmetic: `0 < x` and `0 <= x` are the comparisons of the number type, so for IEEE
doubles a NaN is neither positive nor non-negative.
-/

namespace OpenControls.Spec

variable {α : Type} [PyFloat α]

/-- The documented requirements on the arguments of `DrivenControl`: positive durations; supplied
arrays as long as `durations`; supplied Rabi rates non-negative. -/
def ControlArgsOk (durations : List α) (rabiRates azimuthalAngles detunings : Option (List α)) :
    Prop :=
  (∀ t ∈ durations, PyFloat.lt (PyFloat.lit 0) t = true) ∧
  (∀ l, rabiRates = some l → l.length = durations.length) ∧
  (∀ l, azimuthalAngles = some l → l.length = durations.length) ∧
  (∀ l, detunings = some l → l.length = durations.length) ∧
  (∀ l, rabiRates = some l → ∀ x ∈ l, PyFloat.le (PyFloat.lit 0) x = true)

/-- The documented requirements on the arguments of `DynamicDecouplingSequence`. -/
def SequenceArgsOk (duration : α) (offsets rabiRotations azimuthalAngles detuningRotations : List α) :
    Prop :=
  PyFloat.lt (PyFloat.lit 0) duration = true ∧
  (∀ t ∈ offsets, PyFloat.le (PyFloat.lit 0) t = true ∧ PyFloat.le t duration = true) ∧
  rabiRotations.length = offsets.length ∧
  azimuthalAngles.length = offsets.length ∧
  detuningRotations.length = offsets.length

/-- What an argument reads back as: itself, or `n` zeros when omitted. -/
def orZeros (n : Nat) : Option (List α) → List α
  | some l => l
  | none => List.replicate n (PyFloat.lit 0)

end OpenControls.Spec
