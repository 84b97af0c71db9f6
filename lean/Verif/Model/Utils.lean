import Verif.Py

/-!
# Model of `qctrlopencontrols/utils.py` and `qctrlopencontrols/exceptions.py`
-/

namespace OpenControls

open PyFloat Py

/-- `utils.py:84-115` `check_arguments`: does nothing if the condition holds, raises
`ArgumentsValueError` otherwise.  Simplification: the `arguments`/`extras` dictionaries only feed
the message text, which is modelled by `argumentsMessage`. -/
def checkArguments (condition : Bool) (description : String) : Except PyErr Unit :=
  if condition then .ok () else .error (.arguments description)

/-- `exceptions.py:46-56` `ArgumentsValueError.__init__`: the message.  Arguments and extras are
given as `(key, repr(value))` pairs in dictionary order. -/
def argumentsMessage (description : String) (arguments : List (String × String))
    (extras : Option (List (String × String))) : String :=
  let message := arguments.foldl (fun m kv => m ++ ("\n" ++ kv.1 ++ "=" ++ kv.2)) description
  match extras with
  | none => message
  | some ex => ex.foldl (fun m kv => m ++ ("\n" ++ kv.1 ++ "=" ++ kv.2)) message

/-- `",".join(l)` / `"\n".join(l)`; used at `utils.py:74-77` -/
def joinWith (sep : String) : List String → String
  | [] => ""
  | [x] => x
  | x :: y :: r => x ++ sep ++ joinWith sep (y :: r)

/-- A Python value passed as an attribute name: a string, or something else. Used at `utils.py:65-71` -/
inductive AttrName where
  | str (s : String)
  | other
  deriving DecidableEq, Repr

/-- `utils.py:23-81` `create_repr_from_attributes`.  An object is given by its class name and the
function `getattr` followed by `repr`; `none` models the argument `None`. -/
def createRepr (inst : Option (String × (String → String)))
    (attributes : Option (List AttrName)) : Except PyErr String :=
  match inst with
  | none => .error (.arguments "Class instance must be a valid object.")
  | some (className, getRepr) =>
    match attributes with
    | none => .error (.arguments "Attributes must be a list of string")
    | some [] => .ok ("No attributes provided for object of class " ++ className)
    | some attrs =>
      if attrs.any (fun a => decide (a = AttrName.other)) then
        .error (.arguments "Each attribute name must be a string.")
      else
        .ok (className ++ "(" ++
          joinWith "," (attrs.map fun a =>
            match a with
            | .str s => s ++ "=" ++ getRepr s
            | .other => "") ++ ")")

/-- `utils.py:118-126` `FileFormat` -/
def fileFormats : List String := ["Q-CTRL expanded"]
/-- `utils.py:129-135` `FileType` -/
def fileTypes : List String := ["JSON", "CSV"]
/-- `utils.py:138-144` `Coordinate` -/
def coordinateSystems : List String := ["cartesian", "cylindrical"]

end OpenControls
