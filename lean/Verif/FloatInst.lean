import Verif.Py

/-!
# IEEE doubles (Lean's `Float`), used only to run tests of the model

Nothing is proved about this instance.
-/

namespace OpenControls

/-- `Float` as an instance of the Python primitives.  `np.sum` is a left fold here (numpy sums
pairwise). -/
instance instPyFloatFloat : PyFloat Float where
  lit q := Float.ofInt q.num / Float.ofNat q.den
  pi := 3.141592653589793
  lt a b := a < b
  le a b := a ≤ b
  eq a b := a == b
  isFinite := Float.isFinite
  abs := Float.abs
  sqrt := Float.sqrt
  sin := Float.sin
  cos := Float.cos
  exp := Float.exp
  log2 := Float.log2
  arcsin := Float.asin
  arccos := Float.acos
  sign a := if a < 0 then -1 else if 0 < a then 1 else a
  mod a b := a - b * Float.floor (a / b)
  toInt a := if a.isFinite then some (if 0 ≤ a then Int.ofNat a.floor.toUInt64.toNat
    else -Int.ofNat (-a).floor.toUInt64.toNat) else none
  ceilInt a := if a.isFinite then some (if 0 ≤ a then Int.ofNat a.ceil.toUInt64.toNat
    else -Int.ofNat (-a).floor.toUInt64.toNat) else none
  sum l := l.foldl (· + ·) 0

end OpenControls
