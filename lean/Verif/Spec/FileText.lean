/-!
# Specification: readers of CSV (RFC 4180) and JSON (RFC 8259) files

Nothing here mentions the model.
-/

namespace OpenControls.Spec

/-- where a CSV reader is -/
inductive CsvState where
  | start | plain | quoted | closing | cr
  deriving DecidableEq

/-- CSV reader, RFC 4180: records end with CR LF (optional after the last one), fields are separated by commas,
a field that starts with a quote ends at the next quote that is not doubled. The arguments are the state, the
current field and the current record. -/
def readCsvFrom : CsvState → List Char → List (List Char) → List Char → Option (List (List (List Char)))
  | .start, _, row, [] => if row.isEmpty then some [] else some [row ++ [[]]]
  | .plain, field, row, [] => some [row ++ [field]]
  | .closing, field, row, [] => some [row ++ [field]]
  | .quoted, _, _, [] => none
  | .cr, _, _, [] => none
  | .start, field, row, c :: cs =>
    if c = '"' then readCsvFrom .quoted [] row cs
    else if c = ',' then readCsvFrom .start [] (row ++ [field]) cs
    else if c = '\r' then readCsvFrom .cr field row cs
    else if c = '\n' then none
    else readCsvFrom .plain [c] row cs
  | .plain, field, row, c :: cs =>
    if c = '"' then none
    else if c = ',' then readCsvFrom .start [] (row ++ [field]) cs
    else if c = '\r' then readCsvFrom .cr field row cs
    else if c = '\n' then none
    else readCsvFrom .plain (field ++ [c]) row cs
  | .quoted, field, row, c :: cs =>
    if c = '"' then readCsvFrom .closing field row cs
    else readCsvFrom .quoted (field ++ [c]) row cs
  | .closing, field, row, c :: cs =>
    if c = '"' then readCsvFrom .quoted (field ++ ['"']) row cs
    else if c = ',' then readCsvFrom .start [] (row ++ [field]) cs
    else if c = '\r' then readCsvFrom .cr field row cs
    else none
  | .cr, field, row, c :: cs =>
    if c = '\n' then (readCsvFrom .start [] [] cs).map fun rows => (row ++ [field]) :: rows else none

/-- the records of a CSV text -/
def readCsv (text : List Char) : Option (List (List (List Char))) := readCsvFrom .start [] [] text

/-- A JSON value. Numbers are kept as the text that denotes them. -/
inductive Json where
  | null
  | bool (b : Bool)
  | num (text : List Char)
  | str (s : List Char)
  | arr (l : List Json)
  | obj (l : List (List Char × Json))

/-- JSON white space -/
def isSpace (c : Char) : Bool := c == ' ' || c == '\n' || c == '\r' || c == '\t'

/-- a decimal digit -/
def isDigit (c : Char) : Bool := '0' ≤ c && c ≤ '9'

/-- digits, at least one -/
def isDigits (cs : List Char) : Bool := !cs.isEmpty && cs.all isDigit

/-- `[ (e|E) [+|-] digits ]` -/
def isExponent : List Char → Bool
  | [] => true
  | c :: cs => (c == 'e' || c == 'E') && match cs with
    | '+' :: cs => isDigits cs
    | '-' :: cs => isDigits cs
    | cs => isDigits cs

/-- `[ . digits ] exponent` -/
def isFraction : List Char → Bool
  | '.' :: cs => !(cs.takeWhile isDigit).isEmpty && isExponent (cs.dropWhile isDigit)
  | cs => isExponent cs

/-- an integer part without leading zeros, then fraction and exponent -/
def isUnsigned : List Char → Bool
  | '0' :: cs => isFraction cs
  | c :: cs => isDigit c && isFraction (cs.dropWhile isDigit)
  | [] => false

/-- a number in JSON -/
def isNumber : List Char → Bool
  | '-' :: cs => isUnsigned cs
  | cs => isUnsigned cs

/-- the characters numbers consist of -/
def isNumberChar (c : Char) : Bool := isDigit c || c == '+' || c == '-' || c == '.' || c == 'e' || c == 'E'

/-- the value of a hexadecimal digit -/
def hexValue (c : Char) : Option Nat :=
  if '0' ≤ c ∧ c ≤ '9' then some (c.toNat - 48)
  else if 'a' ≤ c ∧ c ≤ 'f' then some (c.toNat - 87)
  else if 'A' ≤ c ∧ c ≤ 'F' then some (c.toNat - 55)
  else none

/-- the code unit written with four hexadecimal digits -/
def readHex4 : List Char → Option (Nat × List Char)
  | a :: b :: c :: d :: cs => do
    let a ← hexValue a
    let b ← hexValue b
    let c ← hexValue c
    let d ← hexValue d
    return (((a * 16 + b) * 16 + c) * 16 + d, cs)
  | _ => none

/-- One possibly escaped character of a JSON string; characters outside the basic plane are escaped as a pair of
surrogates. -/
def readChar : List Char → Option (Char × List Char)
  | '\\' :: c :: cs =>
    if c = '"' then some ('"', cs)
    else if c = '\\' then some ('\\', cs)
    else if c = '/' then some ('/', cs)
    else if c = 'b' then some ('\x08', cs)
    else if c = 'f' then some ('\x0c', cs)
    else if c = 'n' then some ('\n', cs)
    else if c = 'r' then some ('\r', cs)
    else if c = 't' then some ('\t', cs)
    else if c = 'u' then
      match readHex4 cs with
      | none => none
      | some (n, cs) =>
        if n < 0xd800 ∨ 0xe000 ≤ n then some (Char.ofNat n, cs)
        else if n < 0xdc00 then
          match cs with
          | '\\' :: 'u' :: cs => match readHex4 cs with
            | some (m, cs) => if 0xdc00 ≤ m ∧ m < 0xe000 then
                some (Char.ofNat (0x10000 + (n - 0xd800) * 0x400 + (m - 0xdc00)), cs) else none
            | none => none
          | _ => none
        else none
    else none
  | c :: cs => if c.toNat < 32 ∨ c = '"' ∨ c = '\\' then none else some (c, cs)
  | [] => none

/-- the rest of a JSON string after the opening quote -/
def readString : Nat → List Char → Option (List Char × List Char)
  | 0, _ => none
  | fuel + 1, cs =>
    match cs with
    | '"' :: cs => some ([], cs)
    | cs => match readChar cs with
      | none => none
      | some (c, cs) => (readString fuel cs).map fun r => (c :: r.1, r.2)

mutual
/-- JSON reader, RFC 8259: a value, and what follows it. -/
def readValue : Nat → List Char → Option (Json × List Char)
  | 0, _ => none
  | fuel + 1, cs =>
    match cs.dropWhile isSpace with
    | [] => none
    | c :: cs =>
      if c = '{' then
        match cs.dropWhile isSpace with
        | '}' :: cs => some (.obj [], cs)
        | cs => (readMembers fuel cs).map fun r => (.obj r.1, r.2)
      else if c = '[' then
        match cs.dropWhile isSpace with
        | ']' :: cs => some (.arr [], cs)
        | cs => (readElements fuel cs).map fun r => (.arr r.1, r.2)
      else if c = '"' then (readString (fuel + 1) cs).map fun r => (.str r.1, r.2)
      else if c :: cs.take 3 = ['t', 'r', 'u', 'e'] then some (.bool true, cs.drop 3)
      else if c :: cs.take 4 = ['f', 'a', 'l', 's', 'e'] then some (.bool false, cs.drop 4)
      else if c :: cs.take 3 = ['n', 'u', 'l', 'l'] then some (.null, cs.drop 3)
      else if isNumber ((c :: cs).takeWhile isNumberChar) then
        some (.num ((c :: cs).takeWhile isNumberChar), (c :: cs).dropWhile isNumberChar)
      else none

/-- the rest of an array, from its next element -/
def readElements : Nat → List Char → Option (List Json × List Char)
  | 0, _ => none
  | fuel + 1, cs =>
    match readValue fuel cs with
    | none => none
    | some (v, cs) => match cs.dropWhile isSpace with
      | ',' :: cs => (readElements fuel cs).map fun r => (v :: r.1, r.2)
      | ']' :: cs => some ([v], cs)
      | _ => none

/-- the rest of an object, from its next member -/
def readMembers : Nat → List Char → Option (List (List Char × Json) × List Char)
  | 0, _ => none
  | fuel + 1, cs =>
    match cs.dropWhile isSpace with
    | '"' :: cs => match readString (fuel + 1) cs with
      | none => none
      | some (k, cs) => match cs.dropWhile isSpace with
        | ':' :: cs => match readValue fuel cs with
          | none => none
          | some (v, cs) => match cs.dropWhile isSpace with
            | ',' :: cs => (readMembers fuel cs).map fun r => ((k, v) :: r.1, r.2)
            | '}' :: cs => some ([(k, v)], cs)
            | _ => none
        | _ => none
    | _ => none
end

/-- the JSON value of a text, if it is one; the reader is given enough fuel for any text of its length -/
def readJson (text : List Char) : Option Json :=
  match readValue (4 * text.length + 4) text with
  | some (v, rest) => if rest.all isSpace then some v else none
  | none => none

/-- the texts in the column of a CSV file with a title -/
def column (records : List (List (List Char))) (title : String) : Option (List (List Char)) :=
  match records with
  | [] => none
  | header :: rows => rows.mapM fun row => (header.zip row).lookup title.toList

/-- the value of a key of a JSON object -/
def member (object : List (List Char × Json)) (key : String) : Option Json := object.lookup key.toList

/-- The texts Python's `json` module uses for NaN and the infinities; they are not in RFC 8259. -/
def isNonFinite (tok : List Char) : Prop :=
  tok = "NaN".toList ∨ tok = "Infinity".toList ∨ tok = "-Infinity".toList

/-- only ASCII characters -/
def Ascii (text : List Char) : Prop := ∀ c ∈ text, c.toNat < 128

end OpenControls.Spec
