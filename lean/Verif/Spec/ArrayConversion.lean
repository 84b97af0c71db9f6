import Verif.Model.ArrayConversion
import Verif.Spec.Shapes
import Verif.Spec.ShapesConversion
import Verif.Spec.ArraySequences

/-!
# Specification: conversion of a sequence whose duration is an array
-/

namespace OpenControls.Spec

variable {α : Type}

/-- the same sequence with a number as duration -/
def withNumber (s : ArraySequence α) (d : α) : NdSequence α :=
  ⟨d, s.offsets, s.rabiRotations, s.azimuthalAngles, s.detuningRotations, s.name⟩

/-- `c'` has the numbers of `c`; all its arrays are 1-D, except that the durations of a single segment as long as the sequence may have
the shape of the duration of the sequence behind the axis of the segments -/
def SameNumbers (T : NdArray α) (c : DrivenControl α) (c' : NdControl α) : Prop :=
  c'.rabiRates = .vec c.rabiRates ∧ c'.azimuthalAngles = .vec c.azimuthalAngles ∧ c'.detunings = .vec c.detunings ∧
    c'.name = c.name ∧ c'.durations.data = c.durations ∧
    (c'.durations.shape = [c.durations.length] ∨ (c.durations = T.data ∧ c'.durations.shape = 1 :: T.shape))

end OpenControls.Spec
