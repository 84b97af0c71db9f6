import Verif.Model.Disk

/-!
# Specification: what an interrupted export may do
-/

namespace OpenControls.Spec

variable {α : Type}

/-- What an export on a failing operating system may do (`r'`), compared with the outcome and the files of the same
export without failures, started without any files (`r`). -/
structure Interrupted (fmt : α → String) (os : Os) (disk : Disk) (filename : String)
    (r : Except PyErr Unit × FileSystem α) (r' : Outcome × Disk) : Prop where
  /-- no other file is touched -/
  others : ∀ f, f ≠ filename → r'.2 f = disk f
  /-- if there is nothing to write, the operating system does not matter -/
  nothing : r.2 filename = none → r' = (.of r.1, disk)
  /-- if the file cannot be opened, it is unchanged -/
  refused : r.2 filename ≠ none → os.opens = false → r' = (.osError, disk)
  /-- if it can be opened, then afterwards it contains the beginning of the text, and all of it unless `OSError` was
  raised -/
  opened : ∀ content, r.2 filename = some content → os.opens = true →
    ∃ text, text <+: fileText fmt content ∧ r'.2 filename = some text ∧
      (r'.1 = .osError ∨ r'.1 = .of r.1 ∧ text = fileText fmt content)
  /-- without failures there is no `OSError` -/
  noFailure : os.opens = true → (∀ k, os.fails k = none) → r'.1 = .of r.1

/-- the control that consists of the first `j` segments -/
def leadingSegments (c : DrivenControl α) (j : ℕ) : DrivenControl α :=
  ⟨c.rabiRates.take j, c.azimuthalAngles.take j, c.detunings.take j, c.durations.take j, c.name⟩

end OpenControls.Spec
