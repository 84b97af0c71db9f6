import Mathlib.Data.Rat.Defs

/-!
# Python / numpy primitives used by the model

The model is polymorphic in the number type `α`.  The five arithmetic operators come from the core
classes `Add`, `Sub`, `Mul`, `Div`, `Neg`; everything else the repository asks of Python floats
and numpy is collected in `PyFloat`.  No law is assumed here.
-/

namespace OpenControls

/-- Primitives of Python floats / numpy used by the repository, without any assumed law. -/
class PyFloat (α : Type) where
  /-- a numeric literal of the source, or an `int` used as a float -/
  lit : Rat → α
  /-- `np.pi` -/
  pi : α
  /-- `a < b` -/
  lt : α → α → Bool
  /-- `a <= b` -/
  le : α → α → Bool
  /-- `a == b` -/
  eq : α → α → Bool
  /-- `np.isfinite(a)` -/
  isFinite : α → Bool
  /-- `np.abs` -/
  abs : α → α
  /-- `np.sqrt` -/
  sqrt : α → α
  /-- `np.sin` -/
  sin : α → α
  /-- `np.cos` -/
  cos : α → α
  /-- `np.exp` (real argument) -/
  exp : α → α
  /-- `np.log2` -/
  log2 : α → α
  /-- `np.arcsin` -/
  arcsin : α → α
  /-- `np.arccos` -/
  arccos : α → α
  /-- `np.sign` -/
  sign : α → α
  /-- Python's float `%` -/
  mod : α → α → α
  /-- `int(a)`; `none` when Python raises (NaN, infinity) -/
  toInt : α → Option Int
  /-- `int(np.ceil(a))`; `none` when Python raises (NaN, infinity) -/
  ceilInt : α → Option Int
  /-- `np.sum` of a 1-D array (the order of summation is numpy's business) -/
  sum : List α → α

/-- Exceptions the modelled code can raise.  `arguments` is `ArgumentsValueError`
(`exceptions.py:26-56`), of which only the description is kept here; the message text is modelled
separately in `Model/Utils.lean`. -/
inductive PyErr where
  | arguments (description : String)
  | keyError (key : String)
  | indexError
  | valueError (message : String)
  | overflowError
  | typeError (message : String)
  deriving DecidableEq, Repr

/-- Does the exception derive from `ArgumentsValueError`? -/
def PyErr.isArguments : PyErr → Bool
  | .arguments _ => true
  | _ => false

namespace Py

variable {α : Type} [Add α] [Sub α] [Mul α] [Div α] [Neg α] [PyFloat α]

open PyFloat

/-- an integer used as a float -/
def nat (n : Nat) : α := lit (n : Rat)

/-- `a > b` -/
def gt (a b : α) : Bool := lt b a
/-- `a >= b` -/
def ge (a b : α) : Bool := le b a
/-- `a != b` -/
def ne (a b : α) : Bool := !eq a b

/-- Python's builtin `max(a, b)`: the first argument unless the second is larger. -/
def pyMax (a b : α) : α := if lt a b then b else a

/-- Python's builtin `min(a, b)`: the first argument unless the second is smaller. -/
def pyMin (a b : α) : α := if lt b a then b else a

/-- binary `np.maximum`: NaN-propagating maximum -/
def npMaximum (a b : α) : α :=
  if !eq a a then a else if !eq b b then b else if lt a b then b else a

/-- binary `np.minimum`: NaN-propagating minimum -/
def npMinimum (a b : α) : α :=
  if !eq a a then a else if !eq b b then b else if lt b a then b else a

/-- `np.amax` / `np.max` of a 1-D array: `ValueError` on an empty array. -/
def npAmax : List α → Except PyErr α
  | [] => .error (.valueError "zero-size array to reduction operation maximum which has no identity")
  | x :: xs => .ok (xs.foldl npMaximum x)

/-- `np.amin` of a 1-D array: `ValueError` on an empty array. -/
def npAmin : List α → Except PyErr α
  | [] => .error (.valueError "zero-size array to reduction operation minimum which has no identity")
  | x :: xs => .ok (xs.foldl npMinimum x)

/-- `np.isclose(a, b, rtol=1e-05, atol=atol)` on scalars: `|a-b| <= atol + rtol*|b|` for finite
values, equality otherwise (numpy 1.19 `isclose`). -/
def isCloseAtol (atol a b : α) : Bool :=
  if isFinite a && isFinite b then le (abs (a - b)) (atol + lit (1 / 100000) * abs b) else eq a b

/-- `np.isclose(a, b)` with the default tolerances `rtol=1e-05`, `atol=1e-08`. -/
def isClose (a b : α) : Bool := isCloseAtol (lit (1 / 100000000)) a b

/-- running sums after an accumulated value -/
def cumsumFrom (acc : α) : List α → List α
  | [] => []
  | x :: xs => (acc + x) :: cumsumFrom (acc + x) xs

/-- `np.cumsum` of a 1-D array. -/
def npCumsum : List α → List α
  | [] => []
  | x :: xs => x :: cumsumFrom x xs

/-- `np.diff` of a 1-D array. -/
def npDiff : List α → List α
  | x :: y :: r => (y - x) :: npDiff (y :: r)
  | _ => []

/-- insertion of one element in the sorted association list built by `npUnique` -/
def insertCount (x : α) : List (α × Nat) → List (α × Nat)
  | [] => [(x, 1)]
  | (y, c) :: r =>
    if lt x y then (x, 1) :: (y, c) :: r
    else if eq x y then (y, c + 1) :: r
    else (y, c) :: insertCount x r

/-- `np.unique(l, return_counts=True)` as a list of `(value, count)`: the distinct values in
increasing order with their multiplicities. -/
def npUnique (l : List α) : List (α × Nat) := l.foldl (fun acc x => insertCount x acc) []

/-- `int(x)` for a value already known to be non-negative; Python raises on NaN/infinity. -/
def pyInt (x : α) : Except PyErr Nat :=
  match toInt x with
  | some n => .ok n.toNat
  | none => .error .overflowError

/-- `int(np.ceil(x))` for a value already known to be non-negative. -/
def pyCeil (x : α) : Except PyErr Nat :=
  match ceilInt x with
  | some n => .ok n.toNat
  | none => .error .overflowError

/-- `np.arange(start, stop, step)` on floats: `start + i * step` for
`i < ceil((stop - start) / step)`. -/
def npArange (start stop step : α) : Except PyErr (List α) := do
  let n ← pyCeil ((stop - start) / step)
  return (List.range n).map fun i => start + nat i * step

/-- The set `{...}` of natural numbers, as a duplicate-free list. -/
def pySet : List Nat → List Nat
  | [] => []
  | x :: xs => if (pySet xs).contains x then pySet xs else x :: pySet xs

/-- Python `dict` item assignment `d[k] = v` on an insertion-ordered association list. -/
def dictSet {β : Type} (k : String) (v : β) : List (String × β) → List (String × β)
  | [] => [(k, v)]
  | (k', v') :: r => if k' == k then (k, v) :: r else (k', v') :: dictSet k v r

/-- `d[k]` -/
def dictGet {β : Type} (k : String) : List (String × β) → Option β
  | [] => none
  | (k', v') :: r => if k' == k then some v' else dictGet k r

/-- `d.pop(k)` on a present key: the dictionary without `k` -/
def dictErase {β : Type} (k : String) : List (String × β) → List (String × β)
  | [] => []
  | (k', v') :: r => if k' == k then r else (k', v') :: dictErase k r

/-- insertion in a list of strings sorted by `<=` -/
def insertSorted (k : String) : List String → List String
  | [] => [k]
  | x :: xs => if k ≤ x then k :: x :: xs else x :: insertSorted k xs

/-- `sorted(keys)` -/
def sortStrings : List String → List String
  | [] => []
  | x :: xs => insertSorted x (sortStrings xs)

end Py

end OpenControls
