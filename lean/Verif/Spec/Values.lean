import Verif.Model.Values
import Verif.Spec.Shapes

/-!
# Specification: which array an object stands for
-/

namespace OpenControls.Spec

variable {α β : Type}

/-- `Denotes item v a`: `v` is a single item or nested lists of equal lengths of items, and `a` is the array
with these items.  `item v x` says that the object `v` is an item with value `x`. -/
inductive Denotes (item : PyValue α → β → Prop) : PyValue α → NdArray β → Prop
  /-- a single item: no axis -/
  | single {v x} : item v x → Denotes item v ⟨[], [x]⟩
  /-- the empty list: one axis of length 0 -/
  | empty : Denotes item (.list []) ⟨[0], []⟩
  /-- a list of one object -/
  | one {v s d} : Denotes item v ⟨s, d⟩ → Denotes item (.list [v]) ⟨1 :: s, d⟩
  /-- a list of several objects, all of the same shape -/
  | more {v w l n s d e} : Denotes item v ⟨s, d⟩ → Denotes item (.list (w :: l)) ⟨n :: s, e⟩ →
      Denotes item (.list (v :: w :: l)) ⟨(n + 1) :: s, d ++ e⟩

/-- the real numbers of Python: booleans, integers and floats -/
inductive IsReal [PyFloat α] : PyValue α → α → Prop
  | true : IsReal (.bool true) (PyFloat.lit 1)
  | false : IsReal (.bool false) (PyFloat.lit 0)
  | int (n : ℤ) : IsReal (.int n) (PyFloat.lit n)
  | float (x : α) : IsReal (.float x) x

/-- what can be an item of an array of floats: real numbers, `None` (NaN) and strings that show a number -/
inductive IsFloat [PyFloat α] (np : Numpy α) : PyValue α → α → Prop
  | real {v x} : IsReal v x → IsFloat np v x
  | none : IsFloat np .none np.nan
  | str {s x} : np.ofStr s = some x → IsFloat np (.str s) x

/-- numbers, real or complex -/
inductive IsNumber [PyFloat α] : PyValue α → PyNumber α → Prop
  | real {v x} : IsReal v x → IsNumber v (.real x)
  | complex (re im : α) : IsNumber (.complex re im) (.complex re im)

/-- an optional argument: `None`, or an object that stands for an array of floats -/
inductive DenotesOptional [PyFloat α] (np : Numpy α) : PyValue α → Option (NdArray α) → Prop
  | omitted : DenotesOptional np .none none
  | given {v a} : v ≠ .none → Denotes (IsFloat np) v a → DenotesOptional np v (some a)

/-- `n` items according to Python's `len`, and an array of floats: a list, or a string of `n` characters that
shows a single number -/
def SizedFloats [PyFloat α] (np : Numpy α) (n : ℕ) (v : PyValue α) (a : NdArray α) : Prop :=
  Denotes (IsFloat np) v a ∧ ((∃ l, v = .list l ∧ l.length = n) ∨ ∃ s, v = .str s ∧ s.length = n)

end OpenControls.Spec
