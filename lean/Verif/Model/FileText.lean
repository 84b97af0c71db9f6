import Verif.Model.DrivenControl

/-!
# The characters of exported files

What `csv.DictWriter` and `json.dump` write for the header, rows and objects of `FileContent`. The formatting of a
single number (`str`/`repr` of a float) is the parameter `fmt`. Texts are lists of characters.
-/

namespace OpenControls

/-- One field of a CSV file as `driven_control.py:402` `csv.DictWriter` (default dialect `excel`, `QUOTE_MINIMAL`)
writes it: quoted if it contains the delimiter, the quote character or a line break, with quotes doubled. -/
def csvField (s : List Char) : List Char :=
  if s.any fun c => c == ',' || c == '"' || c == '\r' || c == '\n' then
    '"' :: (s.flatMap fun c => if c == '"' then ['"', '"'] else [c]) ++ ['"']
  else s

/-- fields separated by commas; used at `driven_control.py:402-407` -/
def csvJoin : List (List Char) → List Char
  | [] => []
  | [x] => csvField x
  | x :: y :: l => csvField x ++ ',' :: csvJoin (y :: l)

/-- `driven_control.py:403`, `405-407`: one line, ended by `\r\n` (the file is opened with `newline=""`). -/
def csvLine (fields : List (List Char)) : List Char := csvJoin fields ++ ['\r', '\n']

/-- hexadecimal digit, lower case; used at `driven_control.py:410` -/
def hexDigit (n : Nat) : Char := if n < 10 then Char.ofNat (48 + n) else Char.ofNat (87 + n)

/-- the four digits of `"{:04x}".format(n)` -/
def hex4 (n : Nat) : List Char :=
  [hexDigit (n / 4096 % 16), hexDigit (n / 256 % 16), hexDigit (n / 16 % 16), hexDigit (n % 16)]

/-- `driven_control.py:410` `json.dump` with the default `ensure_ascii=True`: a character inside a JSON string. -/
def jsonChar (c : Char) : List Char :=
  if c == '"' then ['\\', '"']
  else if c == '\\' then ['\\', '\\']
  else if c == '\n' then ['\\', 'n']
  else if c == '\r' then ['\\', 'r']
  else if c == '\t' then ['\\', 't']
  else if c == '\x0c' then ['\\', 'f']
  else if c == '\x08' then ['\\', 'b']
  else if 32 ≤ c.toNat ∧ c.toNat ≤ 126 then [c]
  else if c.toNat < 65536 then '\\' :: 'u' :: hex4 c.toNat
  else
    '\\' :: 'u' :: hex4 (0xd800 + (c.toNat - 65536) / 1024) ++
      '\\' :: 'u' :: hex4 (0xdc00 + (c.toNat - 65536) % 1024)

/-- `driven_control.py:410`: a JSON string -/
def jsonString (s : String) : List Char := '"' :: s.toList.flatMap jsonChar ++ ['"']

/-- texts joined by a separator; used at `driven_control.py:402-410` -/
def joinChars (sep : List Char) : List (List Char) → List Char
  | [] => []
  | [x] => x
  | x :: y :: l => x ++ sep ++ joinChars sep (y :: l)

/-- a line break and `4 * level` spaces; used at `driven_control.py:410` -/
def newline (level : Nat) : List Char := '\n' :: List.replicate (4 * level) ' '

/-- `driven_control.py:410` `json.dump(..., indent=4)`: a value of the object, one level deep -/
def jsonVal (fmt : α → String) : Val α → List Char
  | .num x => (fmt x).toList
  | .str s => jsonString s
  | .arr [] => ['[', ']']
  | .arr (x :: l) => '[' :: newline 2 ++
      joinChars (',' :: newline 2) ((x :: l).map fun x => (fmt x).toList) ++ newline 1 ++ [']']

/-- `driven_control.py:410` `json.dump(..., indent=4)`: one member of the object -/
def jsonMember (fmt : α → String) (kv : String × Val α) : List Char :=
  jsonString kv.1 ++ ':' :: ' ' :: jsonVal fmt kv.2

/-- `driven_control.py:401-410`: the characters of the file. -/
def fileText (fmt : α → String) : FileContent α → List Char
  | .csv header rows => csvLine (header.map String.toList) ++
      rows.flatMap fun row => csvLine (row.map fun x => (fmt x).toList)
  | .json [] => ['{', '}']
  | .json (kv :: l) => '{' :: newline 1 ++
      joinChars (',' :: newline 1) ((kv :: l).map (jsonMember fmt)) ++ newline 0 ++ ['}']

end OpenControls
