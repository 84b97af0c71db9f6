import Verif.Spec.Shapes

/-!
# Specification: broadcasting

Shapes and multi-indices have the first axis first; shapes of different lengths are aligned at the last axis.
-/

namespace OpenControls.Spec

variable {α : Type}

/-- an array of shape `s` can be stretched to shape `S`: aligned at the last axis, every axis has the same length or is
of length 1 -/
def Fits (s S : List ℕ) : Prop :=
  ∃ extra t, S = extra ++ t ∧ List.Forall₂ (fun a b => a = b ∨ a = 1) s t

/-- the smallest shape to which all the given shapes can be stretched -/
def IsBroadcast (shapes : List (List ℕ)) (S : List ℕ) : Prop :=
  (∀ s ∈ shapes, Fits s S) ∧ ∀ S', (∀ s ∈ shapes, Fits s S') → Fits S S'

/-- the multi-indices of an array of shape `S`, in row-major order -/
def indices : List ℕ → List (List ℕ)
  | [] => [[]]
  | n :: rest => (List.range n).flatMap fun i => (indices rest).map (i :: ·)

/-- the place of a multi-index in an array of shape `s`; along an axis of length 1 there is one place only -/
def place : List ℕ → List ℕ → ℕ
  | a :: s, i :: j => (if a = 1 then 0 else i) * s.prod + place s j
  | _, _ => 0

/-- the item of an array at a multi-index of a shape to which the array is stretched -/
def itemAt (a : NdArray α) (index : List ℕ) : Option α :=
  a.data[place a.shape (index.drop (index.length - a.shape.length))]?

/-- the items of an array stretched to shape `S`, in row-major order -/
def stretchTo (a : NdArray α) (S : List ℕ) : List α := (indices S).filterMap (itemAt a)

/-- a control with one segment for every place of the shape `S` to which its arrays are stretched -/
def stretched (c : NdControl α) (S : List ℕ) : DrivenControl α :=
  ⟨stretchTo c.rabiRates S, stretchTo c.azimuthalAngles S, stretchTo c.detunings S, stretchTo c.durations S, c.name⟩

end OpenControls.Spec
