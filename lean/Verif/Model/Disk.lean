import Verif.Model.FileText
import Verif.Model.Sequence

/-!
# Writing files when the operating system fails

`export_to_file` at the level of the characters on the disk.  Any call into the operating system can fail: `open`,
each write, and the flush when the file is closed.
-/

namespace OpenControls

open Py

variable {α : Type} [Add α] [Sub α] [Mul α] [Div α] [Neg α] [PyFloat α]

/-- The disk: the characters of each file, by name. Used at `driven_control.py:401, 409` -/
abbrev Disk := String → Option (List Char)

/-- the disk after the contents of one file were replaced; used at `driven_control.py:401, 409` -/
def Disk.put (disk : Disk) (filename : String) (text : List Char) : Disk :=
  fun f => if f == filename then some text else disk f

/-- What the operating system does during one export.  `opens`: does `open(filename, "w")` succeed.  `fails k = some n`:
the `k`-th call after that (a write, or the flush when the file is closed) raises `OSError`, and once the file is closed
the first `n` of the characters written so far are on the disk (the rest was still in a buffer).
Used at `driven_control.py:401-410` -/
structure Os where
  opens : Bool
  fails : ℕ → Option ℕ

/-- how a call ends: it returns, it raises an exception of the package or of Python, or it raises `OSError`;
used at `driven_control.py:401-410` -/
inductive Outcome where
  | returned
  | raised (e : PyErr)
  | osError
  deriving DecidableEq

/-- the outcome of a call that did not meet a failure of the operating system;
used at `driven_control.py:401-410` -/
def Outcome.of : Except PyErr Unit → Outcome
  | .ok () => .returned
  | .error e => .raised e

/-- The body of `with open(filename, ...) as file` (`driven_control.py:401-407` and `409-410`): the pieces are written one
after the other; a piece that cannot be computed raises.  In the end, also after an exception, the file is closed.
The arguments are the number of calls so far and the characters written so far; the result is the outcome and the
characters of the file on the disk. -/
def writePieces (os : Os) : ℕ → List Char → List (Except PyErr (List Char)) → Outcome × List Char
  | k, written, [] => match os.fails k with
    | none => (.returned, written)
    | some n => (.osError, written.take n)
  | k, written, .error e :: _ => match os.fails k with
    | none => (.raised e, written)
    | some n => (.osError, written.take n)
  | k, written, .ok piece :: pieces => match os.fails k with
    | none => writePieces os (k + 1) (written ++ piece) pieces
    | some n => (.osError, (written ++ piece).take n)

/-- `with open(filename, "w") as file: ...`: if `open` fails nothing is changed, otherwise the old contents are gone.
Used at `driven_control.py:401-410` -/
def writeFile (os : Os) (disk : Disk) (filename : String) (pieces : List (Except PyErr (List Char))) :
    Outcome × Disk :=
  if os.opens then
    let r := writePieces os 0 [] pieces
    (r.1, disk.put filename r.2)
  else (.osError, disk)

/-- `driven_control.py:371-410` `_export_to_qctrl_expanded_format` on the disk.  `fmt` prints a number; `json.dump` writes
its text in pieces, `divide` is how it divides the text. -/
def DrivenControl.exportExpandedDisk (fmt : α → String) (divide : List Char → List (List Char)) (os : Os)
    (c : DrivenControl α) (disk : Disk) (filename fileType coordinates : String) : Outcome × Disk :=
  match c.exportContent coordinates with
  | .error e => (.raised e, disk)
  | .ok info =>
    if fileType == "CSV" then
      -- line 393: control_info.pop("name")
      match dictGet "name" info with
      | none => (.raised (.keyError "name"), disk)
      | some _ =>
        let info := dictErase "name" info
        -- lines 394-396
        match c.maximumRabiRate with
        | .error e => (.raised e, disk)
        | .ok m =>
          let info := dictSet "maximum_rabi_rate"
            (.arr (List.replicate c.numberOfSegments m)) info
          -- line 397
          let fieldNames := sortStrings (info.map Prod.fst)
          -- lines 401-407: the header and one piece per row
          writeFile os disk filename (.ok (csvLine (fieldNames.map String.toList)) ::
            (List.range c.numberOfSegments).map fun index =>
              (csvRow info fieldNames index).map fun row => csvLine (row.map fun x => (fmt x).toList))
    else
      -- lines 409-410
      writeFile os disk filename ((divide (fileText fmt (.json (sortedItems info)))).map .ok)

/-- `driven_control.py:412-507` `export_to_file` on the disk -/
def DrivenControl.exportToDisk (fmt : α → String) (divide : List Char → List (List Char)) (os : Os)
    (c : DrivenControl α) (disk : Disk) (filename fileFormat fileType coordinates : String) : Outcome × Disk :=
  -- lines 483-488
  if !fileFormats.contains fileFormat then
    (.raised (.arguments "Requested file format is not supported."), disk)
  -- lines 490-495
  else if !fileTypes.contains fileType then
    (.raised (.arguments "Requested file type is not supported."), disk)
  -- lines 497-502
  else if !coordinateSystems.contains coordinates then
    (.raised (.arguments "Requested coordinate type is not supported."), disk)
  -- lines 504-507
  else if fileFormat == "Q-CTRL expanded" then
    c.exportExpandedDisk fmt divide os disk filename fileType coordinates
  else (.returned, disk)

/-- `dynamic_decoupling_sequence.py:211-264` `DynamicDecouplingSequence.export_to_file` on the disk -/
def Sequence.exportToDisk (fmt : α → String) (divide : List Char → List (List Char)) (os : Os)
    (s : Sequence α) (disk : Disk) (filename fileFormat fileType coordinates : String)
    (maximumRabiRate maximumDetuningRate : α) : Outcome × Disk :=
  match convertDDS s maximumRabiRate maximumDetuningRate (PyFloat.lit 0) s.name with
  | .error e => (.raised e, disk)
  | .ok c => c.exportToDisk fmt divide os disk filename fileFormat fileType coordinates

end OpenControls
