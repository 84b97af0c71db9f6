import Verif.Model.Sequence

/-!
# Constructors and accessors on arrays of any shape

The rest of the model has 1-D arrays only.  Here the two constructors are modelled once more, on numpy
arrays of any number of dimensions (0-d included), with the accessors whose result depends on
broadcasting.

Simplification: arguments are numeric arrays already (`np.asarray(..., dtype=float)` does not change shape
or items); lists, tuples and Python numbers count as the array numpy makes of them.
-/

namespace OpenControls

open PyFloat Py

variable {α : Type} [Add α] [Sub α] [Mul α] [Div α] [Neg α] [PyFloat α]

/-- A numpy array: its shape and its items in row-major order. Used at `driven_control.py:105, 142-144` -/
structure NdArray (α : Type) where
  shape : List Nat
  data : List α
  deriving DecidableEq, Repr

namespace NdArray

/-- a 1-D array; used at `driven_control.py:136-140` -/
def vec (xs : List α) : NdArray α := ⟨[xs.length], xs⟩

/-- `a.size`; used at `driven_control.py:116` -/
def size (a : NdArray α) : Nat := a.shape.prod

/-- `len(a)`: the first dimension; used at `driven_control.py:133` -/
def len (a : NdArray α) : Except PyErr Nat :=
  match a.shape with
  | [] => .error (.typeError "len() of unsized object")
  | n :: _ => .ok n

/-- Python's `all(...)` on the array of the comparisons `p x`: iterates over the first axis and takes the
truth value of each item; that of an array with several elements is ambiguous, that of an empty array
is false. Used at `driven_control.py:109, 148` -/
def pyAll (p : α → Bool) (a : NdArray α) : Except PyErr Bool :=
  match a.shape with
  | [] => .error (.typeError "'numpy.bool_' object is not iterable")
  | n :: rest =>
    if n = 0 then .ok true
    else if rest.prod = 1 then .ok (a.data.all p)
    else if rest.prod = 0 then .ok false
    else .error (.valueError "The truth value of an array with more than one element is ambiguous.")

/-- numpy's broadcasting of shapes (here with the last axis first); used at `driven_control.py:197-279` -/
def broadcast : List Nat → List Nat → Option (List Nat)
  | [], t => some t
  | s, [] => some s
  | a :: s, b :: t =>
    if a = b then (broadcast s t).map (a :: ·)
    else if a = 1 then (broadcast s t).map (b :: ·)
    else if b = 1 then (broadcast s t).map (a :: ·)
    else none

/-- the multi-index (last axis first) of the `m`-th item; used at `driven_control.py:197-279` -/
def unravel : List Nat → Nat → List Nat
  | [], _ => []
  | s :: t, m => m % s :: unravel t (m / s)

/-- position of a multi-index (last axis first) of the broadcast shape; axes of length 1 are repeated;
used at `driven_control.py:197-279` -/
def ravel : List Nat → List Nat → Nat
  | s :: t, i :: j => (if s = 1 then 0 else i) + s * ravel t j
  | _, _ => 0

/-- an elementwise binary operation; used at `driven_control.py:197-279` -/
def bin (f : α → α → α) (a b : NdArray α) : Except PyErr (NdArray α) :=
  match broadcast a.shape.reverse b.shape.reverse with
  | none => .error (.valueError "operands could not be broadcast together")
  | some s => .ok ⟨s.reverse, (List.range s.prod).filterMap fun m =>
      (a.data[ravel a.shape.reverse (unravel s m)]?).bind fun x =>
        (b.data[ravel b.shape.reverse (unravel s m)]?).map fun y => f x y⟩

/-- an elementwise function; used at `driven_control.py:197-279` -/
def un (f : α → α) (a : NdArray α) : NdArray α := ⟨a.shape, a.data.map f⟩

end NdArray

open NdArray

/-- The attributes of a `DrivenControl` instance (`driven_control.py:103,153-156`). -/
structure NdControl (α : Type) where
  rabiRates : NdArray α
  azimuthalAngles : NdArray α
  detunings : NdArray α
  durations : NdArray α
  name : Option String
  deriving DecidableEq, Repr

namespace NdControl

/-- `driven_control.py:94-156` `DrivenControl.__init__` -/
def new (durations : NdArray α) (rabiRates azimuthalAngles detunings : Option (NdArray α))
    (name : Option String) : Except PyErr (NdControl α) := do
  -- lines 107-112
  let positive ← durations.pyAll fun d => gt d (lit 0)
  checkArguments positive "Duration of driven control segments must all be greater than zero."
  -- lines 114-119
  let inputLengths := pySet
    ([rabiRates, azimuthalAngles, detunings, some durations].filterMap (Option.map NdArray.size))
  -- lines 121-131
  checkArguments (inputLengths.length == 1)
    "If set, rabi rates, azimuthal angles, detunings and durations must be of same length"
  -- lines 133-144
  let durationCount ← durations.len
  let rabiRates := rabiRates.getD (vec (List.replicate durationCount (lit 0)))
  let azimuthalAngles := azimuthalAngles.getD (vec (List.replicate durationCount (lit 0)))
  let detunings := detunings.getD (vec (List.replicate durationCount (lit 0)))
  -- lines 146-151
  let nonnegative ← rabiRates.pyAll fun r => ge r (lit 0)
  checkArguments nonnegative "All rabi rates must be greater than zero."
  -- lines 153-156
  return { rabiRates, azimuthalAngles, detunings, durations, name }

/-- `driven_control.py:196-207` `amplitude_x` -/
def amplitudeX (c : NdControl α) : Except PyErr (NdArray α) :=
  bin (· * ·) c.rabiRates (c.azimuthalAngles.un cos)

/-- `driven_control.py:209-220` `amplitude_y` -/
def amplitudeY (c : NdControl α) : Except PyErr (NdArray α) :=
  bin (· * ·) c.rabiRates (c.azimuthalAngles.un sin)

/-- `driven_control.py:222-239` `angles` -/
def angles (c : NdControl α) : Except PyErr (NdArray α) := do
  -- lines 234-236
  let x ← c.amplitudeX
  let y ← c.amplitudeY
  let xy ← bin (· + ·) (x.un fun v => v * v) (y.un fun v => v * v)
  let xyz ← bin (· + ·) xy (c.detunings.un fun v => v * v)
  -- line 237
  bin (· * ·) (xyz.un sqrt) c.durations

/-- `driven_control.py:280-292` `times`: `np.cumsum` flattens -/
def times (c : NdControl α) : List α := lit 0 :: npCumsum c.durations.data

/-- `driven_control.py:320-331` `duration` -/
def duration (c : NdControl α) : α := PyFloat.sum c.durations.data

end NdControl

/-- The attributes of a `DynamicDecouplingSequence` instance
(`dynamic_decoupling_sequence.py:118-123`). -/
structure NdSequence (α : Type) where
  duration : α
  offsets : NdArray α
  rabiRotations : NdArray α
  azimuthalAngles : NdArray α
  detuningRotations : NdArray α
  name : Option String
  deriving DecidableEq, Repr

/-- `dynamic_decoupling_sequence.py:74-123` `DynamicDecouplingSequence.__init__`; `np.all` (line 92), unlike
`all`, takes arrays of any shape. -/
def NdSequence.new (duration : α)
    (offsets rabiRotations azimuthalAngles detuningRotations : NdArray α) (name : Option String) :
    Except PyErr (NdSequence α) := do
  -- lines 84-88
  checkArguments (gt duration (lit 0)) "Sequence duration must be above zero."
  -- lines 91-96
  checkArguments (offsets.data.all fun t => ge t (lit 0) && ge duration t)
    "Offsets for dynamic decoupling sequence must be between 0 and the sequence duration (inclusive). "
  -- line 98
  let offsetCount ← offsets.len
  -- lines 100-116
  let n ← rabiRotations.len
  checkArguments (n == offsetCount) "rabi rotations must have the same length as offsets. "
  let n ← azimuthalAngles.len
  checkArguments (n == offsetCount) "azimuthal angles must have the same length as offsets. "
  let n ← detuningRotations.len
  checkArguments (n == offsetCount) "detuning rotations must have the same length as offsets. "
  -- lines 118-123
  return { duration, offsets, rabiRotations, azimuthalAngles, detuningRotations, name }

end OpenControls
