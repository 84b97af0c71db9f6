import Verif.Py
import Mathlib.Analysis.SpecialFunctions.Trigonometric.Inverse
import Mathlib.Analysis.SpecialFunctions.Exp
import Mathlib.Analysis.SpecialFunctions.Log.Base
import Mathlib.Data.Real.Sign

/-!
# Exact arithmetic: the number type `ℝ`

Rounding, NaN and infinities are abstracted away at this instance.  Lean's total `x / 0 = 0` and
`arccos` outside `[-1, 1]` do not agree with numpy; theorems that could meet these cases either
exclude them by hypothesis or prove they do not occur.
-/

namespace OpenControls

open Classical in
/-- exact real arithmetic as an instance of the Python primitives -/
noncomputable instance instPyFloatReal : PyFloat ℝ where
  lit q := (q : ℝ)
  pi := Real.pi
  lt a b := decide (a < b)
  le a b := decide (a ≤ b)
  eq a b := decide (a = b)
  isFinite _ := true
  abs a := |a|
  sqrt := Real.sqrt
  sin := Real.sin
  cos := Real.cos
  exp := Real.exp
  log2 := Real.logb 2
  arcsin := Real.arcsin
  arccos := Real.arccos
  sign := Real.sign
  mod a b := a - b * ⌊a / b⌋
  toInt a := some (if 0 ≤ a then ⌊a⌋ else ⌈a⌉)
  ceilInt a := some ⌈a⌉
  sum := List.sum

namespace RealInst

open PyFloat Py

@[simp] theorem lit_eq (q : Rat) : (lit q : ℝ) = (q : ℝ) := rfl
@[simp] theorem pi_eq : (PyFloat.pi : ℝ) = Real.pi := rfl
@[simp] theorem lt_iff (a b : ℝ) : PyFloat.lt a b = true ↔ a < b := by simp [PyFloat.lt]
@[simp] theorem le_iff (a b : ℝ) : PyFloat.le a b = true ↔ a ≤ b := by simp [PyFloat.le]
@[simp] theorem eq_iff (a b : ℝ) : PyFloat.eq a b = true ↔ a = b := by simp [PyFloat.eq]
@[simp] theorem lt_false_iff (a b : ℝ) : PyFloat.lt a b = false ↔ b ≤ a := by simp [PyFloat.lt]
@[simp] theorem le_false_iff (a b : ℝ) : PyFloat.le a b = false ↔ b < a := by simp [PyFloat.le]
@[simp] theorem eq_false_iff (a b : ℝ) : PyFloat.eq a b = false ↔ a ≠ b := by simp [PyFloat.eq]
@[simp] theorem isFinite_eq (a : ℝ) : PyFloat.isFinite a = true := rfl
@[simp] theorem abs_eq (a : ℝ) : PyFloat.abs a = |a| := rfl
@[simp] theorem sqrt_eq (a : ℝ) : PyFloat.sqrt a = Real.sqrt a := rfl
@[simp] theorem sin_eq (a : ℝ) : PyFloat.sin a = Real.sin a := rfl
@[simp] theorem cos_eq (a : ℝ) : PyFloat.cos a = Real.cos a := rfl
@[simp] theorem exp_eq (a : ℝ) : PyFloat.exp a = Real.exp a := rfl
@[simp] theorem log2_eq (a : ℝ) : PyFloat.log2 a = Real.logb 2 a := rfl
@[simp] theorem arcsin_eq (a : ℝ) : PyFloat.arcsin a = Real.arcsin a := rfl
@[simp] theorem arccos_eq (a : ℝ) : PyFloat.arccos a = Real.arccos a := rfl
@[simp] theorem sign_eq (a : ℝ) : PyFloat.sign a = Real.sign a := rfl
@[simp] theorem mod_eq (a b : ℝ) : PyFloat.mod a b = a - b * ⌊a / b⌋ := rfl
@[simp] theorem sum_eq (l : List ℝ) : PyFloat.sum l = l.sum := rfl
@[simp] theorem ceilInt_eq (a : ℝ) : PyFloat.ceilInt a = some ⌈a⌉ := rfl

@[simp] theorem nat_eq (n : ℕ) : (Py.nat n : ℝ) = (n : ℝ) := by simp [Py.nat]
@[simp] theorem gt_iff (a b : ℝ) : Py.gt a b = true ↔ b < a := by simp [Py.gt]
@[simp] theorem ge_iff (a b : ℝ) : Py.ge a b = true ↔ b ≤ a := by simp [Py.ge]
@[simp] theorem ne_iff (a b : ℝ) : Py.ne a b = true ↔ a ≠ b := by simp [Py.ne]
@[simp] theorem gt_false_iff (a b : ℝ) : Py.gt a b = false ↔ a ≤ b := by simp [Py.gt]
@[simp] theorem ge_false_iff (a b : ℝ) : Py.ge a b = false ↔ a < b := by simp [Py.ge]
@[simp] theorem ne_false_iff (a b : ℝ) : Py.ne a b = false ↔ a = b := by simp [Py.ne]

@[simp] theorem pyMax_eq (a b : ℝ) : pyMax a b = max a b := by
  unfold pyMax
  by_cases h : a < b
  · simp [h, h.le]
  · simp [h, not_lt.mp h]

@[simp] theorem pyMin_eq (a b : ℝ) : pyMin a b = min a b := by
  unfold pyMin
  by_cases h : b < a
  · simp [h, h.le]
  · simp [h, not_lt.mp h]

@[simp] theorem npMaximum_eq (a b : ℝ) : npMaximum a b = max a b := by
  unfold npMaximum
  by_cases h : a < b
  · simp [h, h.le]
  · simp [h, not_lt.mp h]

@[simp] theorem npMinimum_eq (a b : ℝ) : npMinimum a b = min a b := by
  unfold npMinimum
  by_cases h : b < a
  · simp [h, h.le]
  · simp [h, not_lt.mp h]

/-- `np.isclose` with explicit absolute tolerance on exact numbers -/
theorem isCloseAtol_iff (t a b : ℝ) :
    isCloseAtol t a b = true ↔ |a - b| ≤ t + 1 / 100000 * |b| := by
  simp [isCloseAtol]

/-- `np.isclose` on exact numbers -/
theorem isClose_iff (a b : ℝ) :
    isClose a b = true ↔ |a - b| ≤ 1 / 100000000 + 1 / 100000 * |b| := by
  simp [isClose, isCloseAtol]

theorem isClose_zero_iff (a : ℝ) : isClose a 0 = true ↔ |a| ≤ 1 / 100000000 := by
  simp [isClose_iff]

theorem isClose_self (a : ℝ) : isClose a a = true := by
  rw [isClose_iff, sub_self, abs_zero]; positivity

theorem pyInt_of_nonneg {x : ℝ} (h : 0 ≤ x) : pyInt x = .ok ⌊x⌋₊ := by
  simp [pyInt, PyFloat.toInt, h, Int.floor_toNat]

theorem pyCeil_eq (x : ℝ) : pyCeil x = .ok ⌈x⌉₊ := by
  simp [pyCeil, Int.ceil_toNat]

end RealInst

end OpenControls
