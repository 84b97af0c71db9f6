import Verif.Model.Heap

/-!
# Specification: what the objects on a heap look like
-/

namespace OpenControls

variable {α : Type}

/-- the items of the array at an address -/
def Heap.items (h : Heap α) (r : Ref) : List α := h[r]?.getD []

/-- the items of an array argument -/
def Arg.items (h : Heap α) : Arg α → List α
  | .array r => h.items r
  | .list xs => xs

/-- the address of an array argument that is already on the heap -/
def Arg.ref? : Arg α → Option Ref
  | .array r => some r
  | .list _ => none

/-- an argument refers to an existing array, if to any -/
def Arg.Valid (h : Heap α) (a : Arg α) : Prop := ∀ r, a.ref? = some r → r < h.length

/-- the control as seen through its attributes, on a given heap -/
def ControlObj.value (h : Heap α) (o : ControlObj) : DrivenControl α where
  rabiRates := h.items o.rabiRates
  azimuthalAngles := h.items o.azimuthalAngles
  detunings := h.items o.detunings
  durations := h.items o.durations
  name := o.name

/-- the arrays of a control -/
def ControlObj.refs (o : ControlObj) : List Ref :=
  [o.rabiRates, o.azimuthalAngles, o.detunings, o.durations]

/-- the sequence as seen through its attributes, on a given heap -/
def SequenceObj.value (h : Heap α) (o : SequenceObj α) : Sequence α where
  duration := o.duration
  offsets := h.items o.offsets
  rabiRotations := h.items o.rabiRotations
  azimuthalAngles := h.items o.azimuthalAngles
  detuningRotations := h.items o.detuningRotations
  name := o.name

/-- the arrays of a sequence -/
def SequenceObj.refs (o : SequenceObj α) : List Ref :=
  [o.offsets, o.rabiRotations, o.azimuthalAngles, o.detuningRotations]

/-- a list of item assignments `a[i] = v`, performed one after the other (an assignment out of range
raises and changes nothing) -/
def Heap.writes : List (Ref × Nat × α) → Heap α → Heap α
  | [], h => h
  | (r, i, v) :: ws, h => Heap.writes ws (PyM.setItem r i v h).2

/-- a sequence object as the constructor leaves it: its arrays exist and have equal lengths -/
structure SequenceObj.WellFormed (h : Heap α) (s : SequenceObj α) : Prop where
  exist : ∀ r ∈ s.refs, r < h.length
  rabi : (h.items s.rabiRotations).length = (h.items s.offsets).length
  azimuthal : (h.items s.azimuthalAngles).length = (h.items s.offsets).length
  detuning : (h.items s.detuningRotations).length = (h.items s.offsets).length

end OpenControls
