import Verif.RealInst

/-!
# Exact arithmetic with infinities and NaN: the number type `XR`

The real numbers together with `inf`, `-inf` and NaN and the rules of IEEE-754 for them: an operation without a
meaningful value yields NaN, a division by zero an infinity or NaN, comparisons with NaN are
false.  Simplifications: no rounding and no overflow of finite values (see `Rounding.lean` for the
first), and one unsigned zero, so that `x / 0` has the sign of `x`.
-/

namespace OpenControls

/-- a real number, an infinity or NaN -/
inductive XR where
  | fin (x : ℝ)
  | inf
  | negInf
  | nan

namespace XR

open Classical

/-- `-a` -/
noncomputable def neg : XR → XR
  | fin x => fin (-x)
  | inf => negInf
  | negInf => inf
  | nan => nan

/-- `a + b` -/
noncomputable def add : XR → XR → XR
  | fin x, fin y => fin (x + y)
  | nan, _ => nan
  | _, nan => nan
  | inf, negInf => nan
  | negInf, inf => nan
  | inf, _ => inf
  | _, inf => inf
  | negInf, _ => negInf
  | _, negInf => negInf

/-- an infinity with the sign of `x`, NaN if `x` is zero -/
noncomputable def infOf (x : ℝ) : XR := if 0 < x then inf else if x < 0 then negInf else nan

/-- `a * b` -/
noncomputable def mul : XR → XR → XR
  | fin x, fin y => fin (x * y)
  | nan, _ => nan
  | _, nan => nan
  | fin x, inf => infOf x
  | fin x, negInf => infOf (-x)
  | inf, fin y => infOf y
  | negInf, fin y => infOf (-y)
  | inf, inf => inf
  | inf, negInf => negInf
  | negInf, inf => negInf
  | negInf, negInf => inf

/-- `a / b` -/
noncomputable def div : XR → XR → XR
  | fin x, fin y => if y = 0 then infOf x else fin (x / y)
  | nan, _ => nan
  | _, nan => nan
  | fin _, inf => fin 0
  | fin _, negInf => fin 0
  | inf, fin y => if 0 ≤ y then inf else negInf
  | negInf, fin y => if 0 ≤ y then negInf else inf
  | inf, _ => nan
  | negInf, _ => nan

noncomputable instance : Neg XR := ⟨neg⟩
noncomputable instance : Add XR := ⟨add⟩
noncomputable instance : Sub XR := ⟨fun a b => add a (neg b)⟩
noncomputable instance : Mul XR := ⟨mul⟩
noncomputable instance : Div XR := ⟨div⟩

/-- `a < b` -/
def Lt : XR → XR → Prop
  | fin x, fin y => x < y
  | fin _, inf => True
  | negInf, fin _ => True
  | negInf, inf => True
  | _, _ => False

/-- `a <= b` -/
def Le : XR → XR → Prop
  | fin x, fin y => x ≤ y
  | fin _, inf => True
  | negInf, fin _ => True
  | negInf, inf => True
  | inf, inf => True
  | negInf, negInf => True
  | _, _ => False

/-- `a == b` -/
def Eq' : XR → XR → Prop
  | fin x, fin y => x = y
  | inf, inf => True
  | negInf, negInf => True
  | _, _ => False

/-- a function that is defined for the finite numbers satisfying `P`, and NaN elsewhere -/
noncomputable def onDomain (P : ℝ → Prop) (f : ℝ → ℝ) : XR → XR
  | fin x => if P x then fin (f x) else nan
  | _ => nan

/-- the arithmetic of numpy, as far as infinities and NaN are concerned -/
noncomputable instance instPyFloatXR : PyFloat XR where
  lit q := fin (q : ℝ)
  pi := fin Real.pi
  lt a b := decide (Lt a b)
  le a b := decide (Le a b)
  eq a b := decide (Eq' a b)
  isFinite a := match a with
    | fin _ => true
    | _ => false
  abs a := match a with
    | fin x => fin |x|
    | inf => inf
    | negInf => inf
    | nan => nan
  sqrt a := match a with
    | inf => inf
    | a => onDomain (0 ≤ ·) Real.sqrt a
  sin := onDomain (fun _ => True) Real.sin
  cos := onDomain (fun _ => True) Real.cos
  exp a := match a with
    | fin x => fin (Real.exp x)
    | inf => inf
    | negInf => fin 0
    | nan => nan
  log2 a := match a with
    | fin x => if 0 < x then fin (Real.logb 2 x) else if x = 0 then negInf else nan
    | inf => inf
    | negInf => nan
    | nan => nan
  arcsin := onDomain (fun x => -1 ≤ x ∧ x ≤ 1) Real.arcsin
  arccos := onDomain (fun x => -1 ≤ x ∧ x ≤ 1) Real.arccos
  sign a := match a with
    | fin x => fin (Real.sign x)
    | inf => fin 1
    | negInf => fin (-1)
    | nan => nan
  mod a b := match a, b with
    | fin x, fin y => if y = 0 then nan else fin (x - y * ⌊x / y⌋)
    | fin x, inf => if 0 ≤ x then fin x else inf
    | fin x, negInf => if x ≤ 0 then fin x else negInf
    | _, _ => nan
  toInt a := match a with
    | fin x => some (if 0 ≤ x then ⌊x⌋ else ⌈x⌉)
    | _ => none
  ceilInt a := match a with
    | fin x => some ⌈x⌉
    | _ => none
  sum l := l.foldr (· + ·) (fin 0)

/-! Operations on finite numbers -/

open PyFloat Py

@[simp] theorem fin_inj (a b : ℝ) : fin a = fin b ↔ a = b := by
  constructor
  · intro h; injection h
  · rintro rfl; rfl

@[simp] theorem fin_neg (a : ℝ) : -fin a = fin (-a) := rfl
@[simp] theorem fin_add (a b : ℝ) : fin a + fin b = fin (a + b) := rfl
@[simp] theorem fin_sub (a b : ℝ) : fin a - fin b = fin (a - b) := by
  show fin (a + -b) = _
  rw [sub_eq_add_neg]
@[simp] theorem fin_mul (a b : ℝ) : fin a * fin b = fin (a * b) := rfl
theorem fin_div {b : ℝ} (a : ℝ) (h : b ≠ 0) : fin a / fin b = fin (a / b) := by
  show (if b = 0 then _ else _) = _
  rw [if_neg h]
theorem fin_div_zero (a : ℝ) : fin a / fin 0 = infOf a := by
  show (if (0 : ℝ) = 0 then _ else _) = _
  rw [if_pos rfl]
@[simp] theorem lit_eq (q : Rat) : (lit q : XR) = fin (q : ℝ) := rfl
@[simp] theorem nat_eq (n : ℕ) : (Py.nat n : XR) = fin (n : ℝ) := by simp [Py.nat]
@[simp] theorem pi_eq : (PyFloat.pi : XR) = fin Real.pi := rfl
@[simp] theorem lt_eq (a b : XR) : PyFloat.lt a b = decide (Lt a b) := rfl
@[simp] theorem le_eq (a b : XR) : PyFloat.le a b = decide (Le a b) := rfl
@[simp] theorem eq_eq (a b : XR) : PyFloat.eq a b = decide (Eq' a b) := rfl
@[simp] theorem gt_eq (a b : XR) : Py.gt a b = decide (Lt b a) := rfl
@[simp] theorem ge_eq (a b : XR) : Py.ge a b = decide (Le b a) := rfl
@[simp] theorem ne_eq (a b : XR) : Py.ne a b = decide (¬Eq' a b) := by simp [Py.ne]
@[simp] theorem lt_fin (a b : ℝ) : Lt (fin a) (fin b) ↔ a < b := Iff.rfl
@[simp] theorem le_fin (a b : ℝ) : Le (fin a) (fin b) ↔ a ≤ b := Iff.rfl
@[simp] theorem eq_fin (a b : ℝ) : Eq' (fin a) (fin b) ↔ a = b := Iff.rfl
@[simp] theorem not_lt_nan (a : XR) : ¬Lt a nan := by cases a <;> exact id
@[simp] theorem not_nan_lt (a : XR) : ¬Lt nan a := by cases a <;> exact id
@[simp] theorem not_le_nan (a : XR) : ¬Le a nan := by cases a <;> exact id
@[simp] theorem not_nan_le (a : XR) : ¬Le nan a := by cases a <;> exact id
@[simp] theorem not_eq_nan (a : XR) : ¬Eq' a nan := by cases a <;> exact id
@[simp] theorem not_nan_eq (a : XR) : ¬Eq' nan a := by cases a <;> exact id
@[simp] theorem fin_lt_inf (a : ℝ) : Lt (fin a) inf := trivial
@[simp] theorem fin_le_inf (a : ℝ) : Le (fin a) inf := trivial
@[simp] theorem not_inf_lt (a : XR) : ¬Lt inf a := by cases a <;> exact id
@[simp] theorem not_inf_le_fin (a : ℝ) : ¬Le inf (fin a) := id
@[simp] theorem inf_le_inf : Le inf inf := trivial
@[simp] theorem not_lt_negInf (a : XR) : ¬Lt a negInf := by cases a <;> exact id
@[simp] theorem not_fin_le_negInf (a : ℝ) : ¬Le (fin a) negInf := id
@[simp] theorem not_inf_eq_fin (a : ℝ) : ¬Eq' inf (fin a) := id
@[simp] theorem not_negInf_eq_fin (a : ℝ) : ¬Eq' negInf (fin a) := id
@[simp] theorem isFinite_inf : PyFloat.isFinite inf = false := rfl
@[simp] theorem isFinite_negInf : PyFloat.isFinite negInf = false := rfl
@[simp] theorem isFinite_nan : PyFloat.isFinite nan = false := rfl
@[simp] theorem isFinite_fin (a : ℝ) : PyFloat.isFinite (fin a) = true := rfl
@[simp] theorem abs_fin (a : ℝ) : PyFloat.abs (fin a) = fin |a| := rfl
@[simp] theorem sin_fin (a : ℝ) : PyFloat.sin (fin a) = fin (Real.sin a) := by
  show onDomain _ _ (fin a) = _
  simp [onDomain]
@[simp] theorem cos_fin (a : ℝ) : PyFloat.cos (fin a) = fin (Real.cos a) := by
  show onDomain _ _ (fin a) = _
  simp [onDomain]
@[simp] theorem exp_fin (a : ℝ) : PyFloat.exp (fin a) = fin (Real.exp a) := rfl
@[simp] theorem sign_fin (a : ℝ) : PyFloat.sign (fin a) = fin (Real.sign a) := rfl
@[simp] theorem toInt_fin (a : ℝ) : PyFloat.toInt (fin a) = PyFloat.toInt a := rfl
@[simp] theorem ceilInt_fin (a : ℝ) : PyFloat.ceilInt (fin a) = PyFloat.ceilInt a := rfl
theorem sqrt_fin {a : ℝ} (h : 0 ≤ a) : PyFloat.sqrt (fin a) = fin (Real.sqrt a) := by
  show (if 0 ≤ a then _ else _) = _
  rw [if_pos h]
theorem log2_fin {a : ℝ} (h : 0 < a) : PyFloat.log2 (fin a) = fin (Real.logb 2 a) := by
  show (if 0 < a then _ else _) = _
  rw [if_pos h]
theorem arcsin_fin {a : ℝ} (h : -1 ≤ a) (h' : a ≤ 1) :
    PyFloat.arcsin (fin a) = fin (Real.arcsin a) := by
  show onDomain _ _ (fin a) = _
  simp [onDomain, h, h']
theorem arccos_fin {a : ℝ} (h : -1 ≤ a) (h' : a ≤ 1) :
    PyFloat.arccos (fin a) = fin (Real.arccos a) := by
  show onDomain _ _ (fin a) = _
  simp [onDomain, h, h']
theorem mod_fin {b : ℝ} (a : ℝ) (h : b ≠ 0) :
    PyFloat.mod (fin a) (fin b) = fin (PyFloat.mod a b) := by
  show (if b = 0 then _ else _) = _
  rw [if_neg h]; rfl
@[simp] theorem sum_fin (l : List ℝ) : PyFloat.sum (l.map fin) = fin (PyFloat.sum l) := by
  show (l.map fin).foldr (· + ·) (fin 0) = fin l.sum
  induction l with
  | nil => rfl
  | cons x l ih => rw [List.map_cons, List.foldr_cons, ih, List.sum_cons, fin_add]

end XR

end OpenControls
