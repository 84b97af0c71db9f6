import Verif.Rounding
import Verif.Extended

/-!
# Floating-point numbers of limited range: rounding, overflow, underflow, infinities and NaN

`Limits r` adds to a rounded arithmetic (`Rounding.lean`) a largest number, beyond which results are infinite, and a
smallest normal number, below which results are rounded to multiples of the smallest positive number.  The number type
`Lim L` has all values of IEEE-754 arithmetic apart from the sign of zero, and its operations are those of the
extended reals (`Extended.lean`), rounded.  `Verif/Proofs/LimitedInst.lean` constructs double precision.
Simplification: a sum of an array of numbers overflows only if its result does.
-/

namespace OpenControls

/-- the range of a floating-point arithmetic -/
structure Limits (r : Rounding) where
  /-- rounding to a representable number, without overflow -/
  rnd : ℝ → ℝ
  /-- the largest number -/
  biggest : ℝ
  /-- the smallest normal number -/
  smallest : ℝ
  /-- the smallest positive number -/
  tiny : ℝ
  tiny_pos : 0 < tiny
  tiny_le : tiny ≤ smallest
  smallest_le : smallest ≤ 1 / 2 ^ 250
  le_biggest : 2 ^ 250 ≤ biggest
  mono : Monotone rnd
  idem : ∀ x, rnd (rnd x) = rnd x
  neg : ∀ x, rnd (-x) = -rnd x
  /-- normal numbers are rounded as without limits -/
  normal : ∀ x, smallest ≤ |x| → rnd x = r.rnd x
  /-- what is rounded to zero -/
  underflow : ∀ x, 0 ≤ x → (rnd x = 0 ↔ x ≤ tiny / 2)
  tiny_rep : rnd tiny = tiny
  biggest_rep : rnd biggest = biggest
  /-- representable numbers are so without limits -/
  rep : ∀ x, rnd x = x → r.rnd x = x
  /-- sums do not underflow -/
  add : ∀ x y, rnd x = x → rnd y = y → rnd (x + y) = r.rnd (x + y)

namespace Limits

variable {r : Rounding} (L : Limits r)

/-- the values of the arithmetic -/
def Rep : XR → Prop
  | .fin x => L.rnd x = x ∧ |x| ≤ L.biggest
  | _ => True

open Classical in
/-- rounding, with overflow -/
noncomputable def lim : XR → XR
  | .fin x => if L.biggest < L.rnd x then .inf else if L.rnd x < -L.biggest then .negInf else .fin (L.rnd x)
  | x => x

theorem lim_rep (x : XR) : L.Rep (L.lim x) := by
  cases x with
  | fin x =>
    unfold lim
    dsimp only
    split
    · trivial
    split
    · trivial
    · exact ⟨L.idem x, abs_le.2 ⟨by linarith, by linarith⟩⟩
  | inf => trivial
  | negInf => trivial
  | nan => trivial

end Limits

/-- the numbers of an arithmetic of limited range -/
def Lim {r : Rounding} (L : Limits r) : Type := { x : XR // L.Rep x }

namespace Lim

variable {r : Rounding} {L : Limits r}

/-- the extended real number a number stands for -/
def val (x : Lim L) : XR := x.1

/-- rounding, with overflow -/
noncomputable def round (L : Limits r) (x : XR) : Lim L := ⟨L.lim x, L.lim_rep x⟩

theorem ext {x y : Lim L} (h : x.val = y.val) : x = y := Subtype.ext h

noncomputable instance : Add (Lim L) := ⟨fun a b => round L (a.val + b.val)⟩
noncomputable instance : Sub (Lim L) := ⟨fun a b => round L (a.val - b.val)⟩
noncomputable instance : Mul (Lim L) := ⟨fun a b => round L (a.val * b.val)⟩
noncomputable instance : Div (Lim L) := ⟨fun a b => round L (a.val / b.val)⟩
noncomputable instance : Neg (Lim L) := ⟨fun a => round L (-a.val)⟩

open Classical in
/-- the finite values of a list, if all are finite -/
noncomputable def finites : List XR → Option (List ℝ)
  | [] => some []
  | .fin x :: l => (finites l).map (x :: ·)
  | _ :: _ => none

noncomputable instance : PyFloat (Lim L) where
  lit q := round L (.fin (q : ℝ))
  pi := round L (.fin Real.pi)
  lt a b := PyFloat.lt a.val b.val
  le a b := PyFloat.le a.val b.val
  eq a b := PyFloat.eq a.val b.val
  isFinite a := PyFloat.isFinite a.val
  abs a := round L (PyFloat.abs a.val)
  sqrt a := round L (PyFloat.sqrt a.val)
  sin a := round L (XR.onDomain (fun _ => True) r.sin.f a.val)
  cos a := round L (XR.onDomain (fun _ => True) r.cos.f a.val)
  exp a := round L (match a.val with
    | .fin x => .fin (r.exp.f x)
    | x => PyFloat.exp x)
  log2 a := round L (match a.val with
    | .fin x => open Classical in if 0 < x then .fin (r.log2.f x) else PyFloat.log2 (XR.fin x)
    | x => PyFloat.log2 x)
  arcsin a := round L (XR.onDomain (fun x => -1 ≤ x ∧ x ≤ 1) r.arcsin.f a.val)
  arccos a := round L (XR.onDomain (fun x => -1 ≤ x ∧ x ≤ 1) r.arccos.f a.val)
  sign a := round L (PyFloat.sign a.val)
  mod a b := round L (PyFloat.mod a.val b.val)
  toInt a := PyFloat.toInt a.val
  ceilInt a := PyFloat.ceilInt a.val
  sum l := round L (match finites (l.map val) with
    | some values => .fin (r.sum values)
    | none => PyFloat.sum (l.map val))

end Lim

end OpenControls
