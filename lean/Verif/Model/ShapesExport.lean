import Verif.Model.Shapes
import Verif.Model.Disk

/-!
# Exporting controls whose arrays have any shape

`export_to_file` on the disk of `Verif/Model/Disk.lean`, for the controls of `Verif/Model/Shapes.lean`.
-/

namespace OpenControls

open PyFloat Py NdArray

variable {α : Type} [Add α] [Sub α] [Mul α] [Div α] [Neg α] [PyFloat α]

/-- an item of `list(array)`: a number, or an array if there are more axes;
used at `driven_control.py:351-367` -/
inductive Cell (α : Type) where
  | num (x : α)
  | sub (a : NdArray α)
  deriving DecidableEq

/-- `list(a)`: the items along the first axis; used at `driven_control.py:351-367` -/
def NdArray.toList (a : NdArray α) : Except PyErr (List (Cell α)) :=
  match a.shape with
  | [] => .error (.typeError "iteration over a 0-d array")
  | [_] => .ok (a.data.map .num)
  | n :: rest => .ok ((List.range n).map fun i => .sub ⟨rest, (a.data.drop (i * rest.prod)).take rest.prod⟩)

/-- a value of the exported dictionary; used at `driven_control.py:349-367` -/
inductive NdVal (α : Type) where
  | num (x : α)
  | cells (l : List (Cell α))
  | str (s : String)

/-- `driven_control.py:333-369` `_qctrl_expanded_export_content` -/
def NdControl.exportContent (c : NdControl α) (coordinates : String) : Except PyErr (List (String × NdVal α)) := do
  -- lines 348-352
  let m ← npAmax c.rabiRates.data
  let detunings ← c.detunings.toList
  let durations ← c.durations.toList
  let info : List (String × NdVal α) :=
    [("maximum_rabi_rate", .num m), ("detuning", .cells detunings), ("duration", .cells durations)]
  -- lines 354-355
  let info := match c.name with
    | some n => dictSet "name" (.str n) info
    | none => info
  -- lines 357-367
  if coordinates == "cartesian" then
    let x ← c.amplitudeX
    let x ← (x.un fun v => v / m).toList
    let info := dictSet "amplitude_x" (.cells x) info
    let y ← c.amplitudeY
    let y ← (y.un fun v => v / m).toList
    return dictSet "amplitude_y" (.cells y) info
  else
    let r ← (c.rabiRates.un fun v => v / m).toList
    let info := dictSet "rabi_rates" (.cells r) info
    let a ← c.azimuthalAngles.toList
    return dictSet "azimuthal_angles" (.cells a) info

/-- The text of an item in a CSV file; `fmt` and `fmtArray` are `str` of a number and of an array.
Used at `driven_control.py:404-407` -/
def cellText (fmt : α → String) (fmtArray : NdArray α → String) : Cell α → List Char
  | .num x => (fmt x).toList
  | .sub a => (fmtArray a).toList

/-- `driven_control.py:405-407`: the fields of one CSV row -/
def ndCsvRow (fmt : α → String) (fmtArray : NdArray α → String) (info : List (String × NdVal α))
    (fieldNames : List String) (index : Nat) : Except PyErr (List (List Char)) :=
  fieldNames.mapM fun k =>
    match dictGet k info with
    | some (.cells l) => match l[index]? with
      | some x => .ok (cellText fmt fmtArray x)
      | none => .error .indexError
    | some _ => .error (.valueError "not subscriptable")
    | none => .error (.keyError k)

/-- `json.dump` on the remaining items of a list: arrays cannot be written.  `before` is what precedes the next item.
Used at `driven_control.py:410` -/
def cellPieces (fmt : α → String) (before : List Char) : List (Cell α) → List (Except PyErr (List Char))
  | [] => [.ok (newline 1 ++ [']'])]
  | .num x :: l => .ok (before ++ (fmt x).toList) :: cellPieces fmt (',' :: newline 2) l
  | .sub _ :: _ => [.ok before, .error (.typeError "Object of type ndarray is not JSON serializable")]

/-- `json.dump` on a value of the dictionary; used at `driven_control.py:410` -/
def valPieces (fmt : α → String) : NdVal α → List (Except PyErr (List Char))
  | .num x => [.ok (fmt x).toList]
  | .str s => [.ok (jsonString s)]
  | .cells [] => [.ok ['[', ']']]
  | .cells (x :: l) => cellPieces fmt ('[' :: newline 2) (x :: l)

/-- `json.dump` on the remaining members of the dictionary; a member is preceded by `before`;
used at `driven_control.py:410` -/
def memberPieces (fmt : α → String) (before : List Char) :
    List (String × NdVal α) → List (Except PyErr (List Char))
  | [] => [.ok (newline 0 ++ ['}'])]
  | (k, v) :: l => .ok (before ++ jsonString k ++ [':', ' ']) :: valPieces fmt v ++
      memberPieces fmt (',' :: newline 1) l

/-- `driven_control.py:410` `json.dump(control_info, handle, sort_keys=True, indent=4)`: the pieces it writes -/
def jsonPieces (fmt : α → String) (info : List (String × NdVal α)) : List (Except PyErr (List Char)) :=
  match (sortStrings (info.map Prod.fst)).filterMap fun k => (dictGet k info).map fun v => (k, v) with
  | [] => [.ok ['{', '}']]
  | kv :: l => memberPieces fmt ('{' :: newline 1) (kv :: l)

/-- `driven_control.py:371-410` `_export_to_qctrl_expanded_format` -/
def NdControl.exportExpandedDisk (fmt : α → String) (fmtArray : NdArray α → String) (os : Os) (c : NdControl α)
    (disk : Disk) (filename fileType coordinates : String) : Outcome × Disk :=
  match c.exportContent coordinates with
  | .error e => (.raised e, disk)
  | .ok info =>
    if fileType == "CSV" then
      -- line 393: control_info.pop("name")
      match dictGet "name" info with
      | none => (.raised (.keyError "name"), disk)
      | some _ =>
        let info := dictErase "name" info
        -- lines 394-396; `number_of_segments` is `rabi_rates.shape[0]`
        match npAmax c.rabiRates.data, c.rabiRates.shape with
        | .error e, _ => (.raised e, disk)
        | .ok _, [] => (.raised .indexError, disk)
        | .ok m, n :: _ =>
          let info := dictSet "maximum_rabi_rate" (.cells (List.replicate n (.num m))) info
          -- line 397
          let fieldNames := sortStrings (info.map Prod.fst)
          -- lines 401-407
          writeFile os disk filename (.ok (csvLine (fieldNames.map String.toList)) ::
            (List.range n).map fun index => (ndCsvRow fmt fmtArray info fieldNames index).map csvLine)
    else
      -- lines 409-410
      writeFile os disk filename (jsonPieces fmt info)

/-- `driven_control.py:412-507` `export_to_file` -/
def NdControl.exportToDisk (fmt : α → String) (fmtArray : NdArray α → String) (os : Os) (c : NdControl α)
    (disk : Disk) (filename fileFormat fileType coordinates : String) : Outcome × Disk :=
  -- lines 483-488
  if !fileFormats.contains fileFormat then
    (.raised (.arguments "Requested file format is not supported."), disk)
  -- lines 490-495
  else if !fileTypes.contains fileType then
    (.raised (.arguments "Requested file type is not supported."), disk)
  -- lines 497-502
  else if !coordinateSystems.contains coordinates then
    (.raised (.arguments "Requested coordinate type is not supported."), disk)
  -- lines 504-507
  else if fileFormat == "Q-CTRL expanded" then
    c.exportExpandedDisk fmt fmtArray os disk filename fileType coordinates
  else (.returned, disk)

end OpenControls
