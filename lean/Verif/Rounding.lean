import Verif.RealInst

/-!
# Rounded arithmetic: floating-point numbers as a number type

`Rounding` collects what is assumed about floating-point arithmetic: every operation returns the
rounded exact result, rounding is monotone, exact on representable numbers, on halves and on moderate
integers, and has relative error at most `u`; the library functions return representable numbers
with relative error at most `2u`.  IEEE-754 doubles satisfy this with `u = 2⁻⁵³` as long as no
overflow, underflow or NaN occurs (`quarters` is the only assumption in which the way ties are
broken matters).
`Verif/Proofs/RoundingInst.lean` constructs such an arithmetic with `p` bits for every `p ≥ 20`.
-/

namespace OpenControls

/-- a function of a mathematical library: representable results with relative error at most `2u` -/
structure LibraryFunction (rnd : ℝ → ℝ) (u : ℝ) (exact : ℝ → ℝ) where
  /-- the computed function -/
  f : ℝ → ℝ
  representable : ∀ x, rnd (f x) = f x
  close : ∀ x, |f x - exact x| ≤ 2 * u * |exact x|

/-- floating-point arithmetic without overflow and underflow -/
structure Rounding where
  /-- rounding to a representable number -/
  rnd : ℝ → ℝ
  /-- unit roundoff -/
  u : ℝ
  u_nonneg : 0 ≤ u
  u_le : u ≤ 1 / 2 ^ 20
  mono : Monotone rnd
  idem : ∀ x, rnd (rnd x) = rnd x
  neg : ∀ x, rnd (-x) = -rnd x
  close : ∀ x, |rnd x - x| ≤ u * |x|
  half : ∀ x, rnd (x / 2) = rnd x / 2
  nat : ∀ n : ℕ, n * u ≤ 1 → rnd n = n
  /-- four equal steps are exact (because of the way ties are broken) -/
  quarters : ∀ x, rnd x = x → rnd (rnd (3 * x) + x) = 4 * x
  sin : LibraryFunction rnd u Real.sin
  cos : LibraryFunction rnd u Real.cos
  exp : LibraryFunction rnd u Real.exp
  arcsin : LibraryFunction rnd u Real.arcsin
  arccos : LibraryFunction rnd u Real.arccos
  log2 : LibraryFunction rnd u (Real.logb 2)
  log2_mono : ∀ x y, 0 < x → x ≤ y → log2.f x ≤ log2.f y
  log2_pow : ∀ n : ℕ, n * u ≤ 1 → log2.f (2 ^ n) = n
  /-- sum of an array, in any order -/
  sum : List ℝ → ℝ
  sum_representable : ∀ l, rnd (sum l) = sum l
  sum_close : ∀ l : List ℝ, l.length * u ≤ 1 / 2 →
    |sum l - l.sum| ≤ 2 * l.length * u * (l.map fun x => |x|).sum

/-- the representable numbers of an arithmetic -/
def Fl (r : Rounding) : Type := { x : ℝ // r.rnd x = x }

namespace Fl

variable {r : Rounding}

/-- the real number a representable number stands for -/
def val (x : Fl r) : ℝ := x.1

/-- rounding of a real number -/
def round (r : Rounding) (x : ℝ) : Fl r := ⟨r.rnd x, r.idem x⟩

theorem ext {x y : Fl r} (h : x.val = y.val) : x = y := Subtype.ext h

theorem rnd_val (x : Fl r) : r.rnd x.val = x.val := x.2

noncomputable instance : Add (Fl r) := ⟨fun a b => round r (a.val + b.val)⟩
noncomputable instance : Sub (Fl r) := ⟨fun a b => round r (a.val - b.val)⟩
noncomputable instance : Mul (Fl r) := ⟨fun a b => round r (a.val * b.val)⟩
noncomputable instance : Div (Fl r) := ⟨fun a b => round r (a.val / b.val)⟩
noncomputable instance : Neg (Fl r) := ⟨fun a => ⟨-a.val, by rw [r.neg, a.rnd_val]⟩⟩

open Classical in
noncomputable instance : PyFloat (Fl r) where
  lit q := round r (q : ℝ)
  pi := round r Real.pi
  lt a b := decide (a.val < b.val)
  le a b := decide (a.val ≤ b.val)
  eq a b := decide (a.val = b.val)
  isFinite _ := true
  abs a := if 0 ≤ a.val then a else -a
  sqrt a := round r (Real.sqrt a.val)
  sin a := ⟨r.sin.f a.val, r.sin.representable _⟩
  cos a := ⟨r.cos.f a.val, r.cos.representable _⟩
  exp a := ⟨r.exp.f a.val, r.exp.representable _⟩
  log2 a := ⟨r.log2.f a.val, r.log2.representable _⟩
  arcsin a := ⟨r.arcsin.f a.val, r.arcsin.representable _⟩
  arccos a := ⟨r.arccos.f a.val, r.arccos.representable _⟩
  sign a := round r (Real.sign a.val)
  mod a b := round r (a.val - b.val * ⌊a.val / b.val⌋)
  toInt a := some (if 0 ≤ a.val then ⌊a.val⌋ else ⌈a.val⌉)
  ceilInt a := some ⌈a.val⌉
  sum l := ⟨r.sum (l.map val), r.sum_representable _⟩

open PyFloat Py

@[simp] theorem val_add (a b : Fl r) : (a + b).val = r.rnd (a.val + b.val) := rfl
@[simp] theorem val_sub (a b : Fl r) : (a - b).val = r.rnd (a.val - b.val) := rfl
@[simp] theorem val_mul (a b : Fl r) : (a * b).val = r.rnd (a.val * b.val) := rfl
@[simp] theorem val_div (a b : Fl r) : (a / b).val = r.rnd (a.val / b.val) := rfl
@[simp] theorem val_neg (a : Fl r) : (-a).val = -a.val := rfl
@[simp] theorem val_lit (q : Rat) : (lit q : Fl r).val = r.rnd (q : ℝ) := rfl
@[simp] theorem val_pi : (PyFloat.pi : Fl r).val = r.rnd Real.pi := rfl
@[simp] theorem val_sqrt (a : Fl r) : (PyFloat.sqrt a).val = r.rnd (Real.sqrt a.val) := rfl
@[simp] theorem val_sin (a : Fl r) : (PyFloat.sin a).val = r.sin.f a.val := rfl
@[simp] theorem val_cos (a : Fl r) : (PyFloat.cos a).val = r.cos.f a.val := rfl
@[simp] theorem val_exp (a : Fl r) : (PyFloat.exp a).val = r.exp.f a.val := rfl
@[simp] theorem val_log2 (a : Fl r) : (PyFloat.log2 a).val = r.log2.f a.val := rfl
@[simp] theorem val_arcsin (a : Fl r) : (PyFloat.arcsin a).val = r.arcsin.f a.val := rfl
@[simp] theorem val_arccos (a : Fl r) : (PyFloat.arccos a).val = r.arccos.f a.val := rfl
@[simp] theorem val_sign (a : Fl r) : (PyFloat.sign a).val = r.rnd (Real.sign a.val) := rfl
@[simp] theorem val_sum (l : List (Fl r)) : (PyFloat.sum l).val = r.sum (l.map val) := rfl

@[simp] theorem val_abs (a : Fl r) : (PyFloat.abs a).val = |a.val| := by
  by_cases h : 0 ≤ a.val
  · simp [PyFloat.abs, h, abs_of_nonneg h]
  · simp [PyFloat.abs, h, abs_of_neg (not_le.mp h)]

@[simp] theorem lt_iff (a b : Fl r) : PyFloat.lt a b = true ↔ a.val < b.val := by
  simp [PyFloat.lt]
@[simp] theorem le_iff (a b : Fl r) : PyFloat.le a b = true ↔ a.val ≤ b.val := by
  simp [PyFloat.le]
@[simp] theorem eq_iff (a b : Fl r) : PyFloat.eq a b = true ↔ a.val = b.val := by
  simp [PyFloat.eq]
@[simp] theorem gt_iff (a b : Fl r) : Py.gt a b = true ↔ b.val < a.val := by simp [Py.gt]
@[simp] theorem ge_iff (a b : Fl r) : Py.ge a b = true ↔ b.val ≤ a.val := by simp [Py.ge]
@[simp] theorem ne_iff (a b : Fl r) : Py.ne a b = true ↔ a.val ≠ b.val := by simp [Py.ne, PyFloat.eq]
@[simp] theorem isFinite_eq (a : Fl r) : PyFloat.isFinite a = true := rfl

end Fl

namespace Rounding

variable (r : Rounding)

@[simp] theorem rnd_zero : r.rnd 0 = 0 := by simpa using r.nat 0 (by simp)
@[simp] theorem rnd_one : r.rnd 1 = 1 := by
  have := r.nat 1 (by have := r.u_le; norm_num at this ⊢; linarith)
  simpa using this

theorem rnd_nat {n : ℕ} (h : n ≤ 2 ^ 20) : r.rnd n = n := by
  apply r.nat
  have h1 : (n : ℝ) ≤ 2 ^ 20 := by exact_mod_cast h
  have := r.u_le
  have h0 := r.u_nonneg
  calc (n : ℝ) * r.u ≤ 2 ^ 20 * (1 / 2 ^ 20) := by gcongr
    _ = 1 := by norm_num

theorem rnd_two : r.rnd 2 = 2 := by simpa using r.rnd_nat (n := 2) (by norm_num)

theorem rnd_div_pow (x : ℝ) (k : ℕ) : r.rnd (x / 2 ^ k) = r.rnd x / 2 ^ k := by
  induction k with
  | zero => simp
  | succ k ih => rw [pow_succ, ← div_div, r.half, ih, div_div]

theorem rnd_mul_pow (x : ℝ) (k : ℕ) : r.rnd (x * 2 ^ k) = r.rnd x * 2 ^ k := by
  have h := r.rnd_div_pow (x * 2 ^ k) k
  have h2 : (2 : ℝ) ^ k ≠ 0 := by positivity
  rw [mul_div_cancel_right₀ _ h2] at h
  rw [h, div_mul_cancel₀ _ h2]

theorem rnd_nonneg {x : ℝ} (h : 0 ≤ x) : 0 ≤ r.rnd x := by
  have := r.mono h
  rwa [rnd_zero] at this

end Rounding

end OpenControls
