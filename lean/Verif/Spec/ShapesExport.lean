import Verif.Model.ShapesExport

/-!
# Specification: which arrays an export writes
-/

namespace OpenControls.Spec

variable {α : Type} [Mul α] [Div α] [PyFloat α]

/-- The titles and arrays an export writes; `m` is the maximum Rabi rate. -/
def Exported (c : NdControl α) (m : α) (coordinates : String) (arrays : List (String × NdArray α)) : Prop :=
  (coordinates = "cylindrical" ∧
    arrays = [("azimuthal_angles", c.azimuthalAngles), ("detuning", c.detunings), ("duration", c.durations),
      ("rabi_rates", c.rabiRates.un fun v => v / m)]) ∨
  (coordinates = "cartesian" ∧ ∃ x y, c.amplitudeX = .ok x ∧ c.amplitudeY = .ok y ∧
    arrays = [("amplitude_x", x.un fun v => v / m), ("amplitude_y", y.un fun v => v / m),
      ("detuning", c.detunings), ("duration", c.durations)])

/-- The text in a CSV file for the item of an array at a place along its first axis: a number, or an array if there are
more axes.  `fmt` and `fmtArray` print numbers and arrays. -/
def itemText (fmt : α → String) (fmtArray : NdArray α → String) (a : NdArray α) (i : ℕ) : Option (List Char) :=
  match a.shape with
  | [] => none
  | [_] => (a.data[i]?).map fun x => (fmt x).toList
  | n :: rest => if i < n then
      some (fmtArray ⟨rest, (a.data.drop (i * rest.prod)).take rest.prod⟩).toList else none

/-- an operating system in which nothing fails -/
def reliable : Os := ⟨true, fun _ => none⟩

end OpenControls.Spec
