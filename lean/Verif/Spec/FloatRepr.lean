import Verif.Spec.FileText
import Mathlib.Data.Rat.Defs
import Mathlib.Algebra.Order.Field.Rat
import Mathlib.Data.Real.Basic
import Verif.Limited

/-!
# Specification: the number a text denotes

For texts that are numbers in JSON (`isNumber`), which are also those that Python's `float` reads in CSV files.  Nothing
here mentions the model.
-/

namespace OpenControls.Spec

/-- the number written by a list of digits -/
def digitsValue (cs : List Char) : ℕ := cs.foldl (fun n c => 10 * n + (c.toNat - 48)) 0

/-- the parts of an unsigned number: digits before and after the point, and exponent -/
def numberParts (cs : List Char) : List Char × List Char × ℤ :=
  let rest := cs.dropWhile isDigit
  let fraction := match rest with | '.' :: r => r.takeWhile isDigit | _ => []
  let tail := match rest with | '.' :: r => r.dropWhile isDigit | r => r
  let exponent : ℤ := match tail with
    | _ :: '+' :: ds => digitsValue ds
    | _ :: '-' :: ds => -digitsValue ds
    | _ :: ds => digitsValue ds
    | [] => 0
  (cs.takeWhile isDigit, fraction, exponent)

/-- the value of an unsigned number -/
def unsignedValue (cs : List Char) : ℚ :=
  let (whole, fraction, exponent) := numberParts cs
  digitsValue (whole ++ fraction) * 10 ^ (exponent - fraction.length)

/-- the text without its sign -/
def unsign : List Char → List Char
  | '-' :: cs => cs
  | cs => cs

/-- the value of a number -/
def numberValue : List Char → ℚ
  | '-' :: cs => -unsignedValue cs
  | cs => unsignedValue cs

/-- how many significant digits a text has: without zeros at the beginning and at the end -/
def significantDigits (cs : List Char) : ℕ :=
  let (whole, fraction, _) := numberParts (unsign cs)
  ((((whole ++ fraction).dropWhile (· == '0')).reverse).dropWhile (· == '0')).length

/-- the number that a reader of a text gets which rounds what the text denotes -/
noncomputable def readFloat (round : ℝ → ℝ) (cs : List Char) : Option ℝ :=
  if isNumber cs then some (round (numberValue cs)) else none

/-- what is needed of a rounding to print and read its numbers: it is symmetric and monotone, its numbers are decimal
numbers, and nothing is rounded to a number that is less than half of it -/
structure Decimal (rnd : ℝ → ℝ) : Prop where
  neg : ∀ x, rnd (-x) = -rnd x
  mono : Monotone rnd
  decimal : ∀ x, 0 < x → rnd x = x → ∃ (D : ℕ) (k : ℤ), x = D * 10 ^ k
  near : ∀ x y, 0 < x → 0 < y → rnd y = x → |y - x| < x

/-- reading a number of a rounded arithmetic: what the text denotes, rounded -/
noncomputable def readFl (r : Rounding) (cs : List Char) : Option (Fl r) :=
  if isNumber cs then some (Fl.round r (numberValue cs)) else none

/-- reading a number of an arithmetic of limited range: what the text denotes, rounded, and infinite if it is too large -/
noncomputable def readLim {r : Rounding} (L : Limits r) (cs : List Char) : Option (Lim L) :=
  if isNumber cs then some (Lim.round L (.fin (numberValue cs))) else none

end OpenControls.Spec
