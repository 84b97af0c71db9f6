import Verif.Model.FileText
import Verif.Limited
import Mathlib.Data.Nat.Digits.Defs

/-!
# The text of a float

`csv` and `json` write a number as `float.__repr__` (and numpy's `str` of a `float64`) does: the decimal number with the
fewest digits that is rounded to the float when it is read, and the nearest one of these; in positional notation if the
exponent is between -4 and 15.
-/

namespace OpenControls

/-- the decimal digits of a number, most significant first; used at `driven_control.py:402-410, 583-607` -/
def decimalDigits (n : Nat) : List Char := (Nat.digits 10 n).reverse.map Nat.digitChar

/-- the digits of an exponent, at least two; used at `driven_control.py:402-410, 583-607` -/
def exponentDigits (n : Nat) : List Char := List.replicate (2 - (decimalDigits n).length) '0' ++ decimalDigits n

/-- `driven_control.py:405-410`: how `float.__repr__` lays out the decimal number `D * 10 ^ k` -/
def layout (D : Nat) (k : Int) : List Char :=
  let ds := decimalDigits D
  let point : Int := ds.length + k
  if -4 < point ∧ point ≤ 16 then
    if point ≤ 0 then '0' :: '.' :: (List.replicate (-point).toNat '0' ++ ds)
    else if ds.length ≤ point then ds ++ List.replicate k.toNat '0' ++ ['.', '0']
    else ds.take point.toNat ++ '.' :: ds.drop point.toNat
  else
    ds.take 1 ++ (if ds.length ≤ 1 then [] else '.' :: ds.drop 1) ++
      'e' :: (if point - 1 < 0 then '-' else '+') :: exponentDigits (point - 1).natAbs

/-- `D * 10 ^ k` has `n` significant digits and is rounded to `x` when it is read;
used at `driven_control.py:402-410, 583-607` -/
def Denotes (rnd : ℝ → ℝ) (x : ℝ) (n D : ℕ) (k : ℤ) : Prop :=
  1 ≤ n ∧ 10 ^ (n - 1) ≤ D ∧ D < 10 ^ n ∧ rnd (D * 10 ^ k) = x

/-- The decimal number that `float.__repr__` chooses for a positive float: fewest digits, then nearest.  (Two may be
equally near; the choice is left open.); used at `driven_control.py:402-410, 583-607` -/
def Chosen (rnd : ℝ → ℝ) (x : ℝ) (D : ℕ) (k : ℤ) : Prop :=
  ∃ n, Denotes rnd x n D k ∧ (∀ n' < n, ∀ D' k', ¬ Denotes rnd x n' D' k') ∧
    ∀ D' k', Denotes rnd x n D' k' → |(D * 10 ^ k : ℝ) - x| ≤ |(D' * 10 ^ k' : ℝ) - x|

/-- `choose` gives the decimal number that `float.__repr__` chooses for each positive float;
used at `driven_control.py:402-410, 583-607` -/
def Prints (rnd : ℝ → ℝ) (choose : ℝ → ℕ × ℤ) : Prop :=
  ∀ x, 0 < x → rnd x = x → Chosen rnd x (choose x).1 (choose x).2

open Classical in
/-- `driven_control.py:405-410`: the text of the number `x`, where `choose` gives the decimal number for its absolute value -/
noncomputable def floatText (choose : ℝ → ℕ × ℤ) (x : ℝ) : List Char :=
  if x = 0 then ['0', '.', '0']
  else if x < 0 then '-' :: layout (choose (-x)).1 (choose (-x)).2
  else layout (choose x).1 (choose x).2

section

variable {r : Rounding}

/-- `driven_control.py:402-410`: the text of a number of a rounded arithmetic -/
noncomputable def flText (choose : ℝ → ℕ × ℤ) (x : Fl r) : String := String.ofList (floatText choose x.val)

/-- `driven_control.py:405`: the text of a number of an arithmetic of limited range that `json` writes -/
noncomputable def limText {L : Limits r} (choose : ℝ → ℕ × ℤ) (x : Lim L) : String :=
  match x.val with
  | .fin x => String.ofList (floatText choose x)
  | .inf => "Infinity"
  | .negInf => "-Infinity"
  | .nan => "NaN"

end

end OpenControls
