import Verif.Py

/-!
# Specification: outcome of a call that validates its arguments
-/

namespace OpenControls.Spec

/-- The call returns `c` if `P` holds and raises `ArgumentsValueError` if `P` does not hold. -/
def AcceptsExactly {β : Type} (call : Except PyErr β) (P : Prop) (c : β) : Prop :=
  (P → call = .ok c) ∧ (¬P → ∃ description, call = .error (.arguments description))

end OpenControls.Spec
