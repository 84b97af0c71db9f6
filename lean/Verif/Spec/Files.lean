/-!
# Specification: reading an exported file back

A CSV file is read by column title, a JSON object by key.
-/

namespace OpenControls.Spec

/-- The entry of a CSV row under a column title. -/
def cell {β : Type} (header : List String) (row : List β) (title : String) : Option β :=
  (header.zip row).lookup title

/-- The value of a key of a JSON object. -/
def field {β : Type} (object : List (String × β)) (key : String) : Option β :=
  object.lookup key

end OpenControls.Spec
