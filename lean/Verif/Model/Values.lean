import Verif.Model.Shapes

/-!
# Constructors on arbitrary Python objects

`Model/Shapes.lean` has the constructors on numpy arrays.  Here the arguments are the objects a caller can
write down: numbers, booleans, `None`, strings, complex numbers, nested lists and other objects.  What numpy
(1.16 to 1.23, the versions with `np.float` the repository can run with) makes of them is modelled with the
constructors.

Simplifications: tuples and arrays count as the lists of their items; nesting has no limit (numpy: 32);
integers have no upper limit; if several items cannot be converted the first one decides which exception is
raised; other objects have no comparisons and no conversion to numbers.
-/

namespace OpenControls

open PyFloat Py NdArray

variable {α : Type} [Add α] [Sub α] [Mul α] [Div α] [Neg α] [PyFloat α]

/-- A Python object given as an argument.  `other` is an object that is none of the rest, such as a
dictionary (with its `len`) or a function (without). Used at `driven_control.py:94-101` -/
inductive PyValue (α : Type) where
  | none
  | bool (b : Bool)
  | int (n : Int)
  | float (x : α)
  | str (s : String)
  | complex (re im : α)
  | other (len : Option Nat)
  | list (l : List (PyValue α))

/-- What is needed to know about numpy's numbers besides arithmetic: NaN and `float(s)` for a string (`none`
if `ValueError` is raised). Used at `driven_control.py:105, 142-144` -/
structure Numpy (α : Type) where
  nan : α
  ofStr : String → Option α

namespace PyValue

/-- `v is None`; used at `driven_control.py:118, 135-140` -/
def isNone : PyValue α → Bool
  | .none => true
  | _ => false

/-- `len(v)`; used at `dynamic_decoupling_sequence.py:100-116` -/
def len : PyValue α → Except PyErr Nat
  | .list l => .ok l.length
  | .str s => .ok s.length
  | .other (some n) => .ok n
  | _ => .error (.typeError "object has no len()")

/-- longest common beginning of two shapes; used at `driven_control.py:105, 116` -/
def commonPrefix : List Nat → List Nat → List Nat
  | a :: s, b :: t => if a = b then a :: commonPrefix s t else []
  | _, _ => []

mutual
/-- `np.array(v).shape`: lists are axes as long as they agree in length; everything else is an item;
used at `driven_control.py:105, 116` -/
def shape : PyValue α → List Nat
  | .list l => l.length :: commonShape l
  | _ => []
/-- the axes the items of a list have in common; used at `driven_control.py:105, 116` -/
def commonShape : List (PyValue α) → List Nat
  | [] => []
  | v :: l => match l with
    | [] => v.shape
    | _ :: _ => commonPrefix v.shape (commonShape l)
end

/-- `np.array(v).size`; a ragged list gives an array of lists; used at `driven_control.py:116` -/
def size (v : PyValue α) : Nat := v.shape.prod

/-- the items `k` axes down, in row-major order; used at `driven_control.py:105` -/
def items : Nat → PyValue α → List (PyValue α)
  | 0, v => [v]
  | k + 1, .list l => l.flatMap (items k)
  | _ + 1, v => [v]

/-- all items converted, or the exception of the first one that cannot be;
used at `driven_control.py:105, 142-144` -/
def convertAll {β : Type} (item : PyValue α → Except PyErr β) : List (PyValue α) → Except PyErr (List β)
  | [] => .ok []
  | v :: l => do
    let x ← item v
    let xs ← convertAll item l
    return x :: xs

/-- an array with the discovered shape and the items converted; used at `driven_control.py:105, 142-144` -/
def toArray {β : Type} (item : PyValue α → Except PyErr β) (v : PyValue α) :
    Except PyErr (NdArray β) := do
  let data ← convertAll item (v.items v.shape.length)
  return ⟨v.shape, data⟩

end PyValue

/-- one item of `np.asarray(..., dtype=float)`: `None` becomes NaN, strings are parsed;
used at `driven_control.py:105, 142-144` -/
def Numpy.item (np : Numpy α) : PyValue α → Except PyErr α
  | .none => .ok np.nan
  | .bool b => .ok (lit (if b then 1 else 0))
  | .int n => .ok (lit n)
  | .float x => .ok x
  | .str s => match np.ofStr s with
    | some x => .ok x
    | none => .error (.valueError "could not convert string to float")
  | .complex _ _ => .error (.typeError "can't convert complex to float")
  | .other _ => .error (.typeError "float() argument must be a string or a number")
  | .list _ => .error (.valueError "setting an array element with a sequence.")

/-- `np.asarray(v, dtype=float)`; used at `driven_control.py:105, 142-144` -/
def Numpy.asFloat (np : Numpy α) (v : PyValue α) : Except PyErr (NdArray α) := v.toArray np.item

/-- an optional argument after lines 135-144: zeros, or the argument as array;
used at `driven_control.py:135-144` -/
def Numpy.orZeros (np : Numpy α) (count : Nat) (v : PyValue α) : Except PyErr (NdArray α) :=
  if v.isNone then .ok (vec (List.replicate count (lit 0))) else np.asFloat v

/-- `driven_control.py:94-156` `DrivenControl.__init__` -/
def NdControl.ofValues (np : Numpy α) (durations rabiRates azimuthalAngles detunings : PyValue α)
    (name : Option String) : Except PyErr (NdControl α) := do
  -- line 105
  let durations ← np.asFloat durations
  -- lines 107-112
  let positive ← durations.pyAll fun d => gt d (lit 0)
  checkArguments positive "Duration of driven control segments must all be greater than zero."
  -- lines 114-119: the arguments before conversion
  let inputLengths := pySet
    ((([rabiRates, azimuthalAngles, detunings].filter fun v => !v.isNone).map PyValue.size) ++
      [durations.size])
  -- lines 121-131
  checkArguments (inputLengths.length == 1)
    "If set, rabi rates, azimuthal angles, detunings and durations must be of same length"
  -- line 133
  let durationCount ← durations.len
  -- lines 135-144
  let rabiRates ← np.orZeros durationCount rabiRates
  let azimuthalAngles ← np.orZeros durationCount azimuthalAngles
  let detunings ← np.orZeros durationCount detunings
  -- lines 146-151
  let nonnegative ← rabiRates.pyAll fun r => ge r (lit 0)
  checkArguments nonnegative "All rabi rates must be greater than zero."
  -- lines 153-156
  return { rabiRates, azimuthalAngles, detunings, durations, name }

/-- A number of an array without prescribed type. Used at `dynamic_decoupling_sequence.py:84-96` -/
inductive PyNumber (α : Type) where
  | real (x : α)
  | complex (re im : α)

namespace PyNumber

/-- `z >= 0`; numpy orders complex numbers by real part, then imaginary part;
used at `dynamic_decoupling_sequence.py:84-96` -/
def geZero : PyNumber α → Bool
  | .real x => ge x (lit 0)
  | .complex re im => (gt re (lit 0) && eq im im) || (eq re (lit 0) && ge im (lit 0))

/-- `t >= z`; used at `dynamic_decoupling_sequence.py:84-96` -/
def leReal (t : α) : PyNumber α → Bool
  | .real x => ge t x
  | .complex re im => (gt t re && eq im im) || (eq t re && ge (lit 0) im)

end PyNumber

/-- one item of `np.asarray(...)` without prescribed type that numpy can compare with a number; an array with
anything else in it has strings or objects as items, whose comparison raises `TypeError`;
used at `dynamic_decoupling_sequence.py:84-96` -/
def PyValue.number : PyValue α → Except PyErr (PyNumber α)
  | .bool b => .ok (.real (lit (if b then 1 else 0)))
  | .int n => .ok (.real (lit n))
  | .float x => .ok (.real x)
  | .complex re im => .ok (.complex re im)
  | _ => .error (.typeError "'>=' not supported")

/-- `duration > 0` asks for a real number; used at `dynamic_decoupling_sequence.py:84-96` -/
def PyValue.real : PyValue α → Except PyErr α
  | .bool b => .ok (lit (if b then 1 else 0))
  | .int n => .ok (lit n)
  | .float x => .ok x
  | _ => .error (.typeError "'>' not supported")

/-- The attributes of a `DynamicDecouplingSequence` instance
(`dynamic_decoupling_sequence.py:118-123`). -/
structure ValueSequence (α : Type) where
  duration : α
  offsets : NdArray (PyNumber α)
  rabiRotations : NdArray α
  azimuthalAngles : NdArray α
  detuningRotations : NdArray α
  name : Option String

/-- `dynamic_decoupling_sequence.py:74-123` `DynamicDecouplingSequence.__init__` -/
def ValueSequence.ofValues (np : Numpy α)
    (duration offsets rabiRotations azimuthalAngles detuningRotations : PyValue α)
    (name : Option String) : Except PyErr (ValueSequence α) := do
  -- lines 84-88
  let duration ← duration.real
  checkArguments (gt duration (lit 0)) "Sequence duration must be above zero."
  -- lines 90-96
  let offsets ← offsets.toArray PyValue.number
  checkArguments (offsets.data.all fun t => t.geZero && t.leReal duration)
    "Offsets for dynamic decoupling sequence must be between 0 and the sequence duration (inclusive). "
  -- line 98
  let offsetCount ← offsets.len
  -- lines 100-116: `len` of the arguments before conversion
  let n ← rabiRotations.len
  checkArguments (n == offsetCount) "rabi rotations must have the same length as offsets. "
  let n ← azimuthalAngles.len
  checkArguments (n == offsetCount) "azimuthal angles must have the same length as offsets. "
  let n ← detuningRotations.len
  checkArguments (n == offsetCount) "detuning rotations must have the same length as offsets. "
  -- lines 118-123
  let rabiRotations ← np.asFloat rabiRotations
  let azimuthalAngles ← np.asFloat azimuthalAngles
  let detuningRotations ← np.asFloat detuningRotations
  return { duration, offsets, rabiRotations, azimuthalAngles, detuningRotations, name }

end OpenControls
