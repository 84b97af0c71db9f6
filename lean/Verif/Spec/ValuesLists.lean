import Verif.Model.ValuesLists
import Verif.Spec.ValuesCalls

/-!
# Specification: lists, tuples and complex numbers as arguments (C141)
-/

namespace OpenControls.Spec

open PyFloat Py

variable {α : Type} [Add α] [Sub α] [Mul α] [Div α] [Neg α] [PyFloat α]

/-- the arguments that are real numbers: booleans, integers and floats -/
inductive ArgumentReal : PyArgument α → α → Prop
  | scalar {v x} : ScalarReal v x → ArgumentReal (.scalar v) x

/-- `x` is the number `v` is, if `v` is a number at all -/
def ArgumentStands (v : PyArgument α) (x : α) : Prop := ArgumentReal v x ∨ ∀ y, ¬ ArgumentReal v y

/-- the arguments that count as true in a condition -/
inductive ArgumentTruthy : PyArgument α → Prop
  | scalar {v} : Truthy v → ArgumentTruthy (.scalar v)
  | re {x y : α} : ne x (lit 0) = true → ArgumentTruthy (.complex x y)
  | im {x y : α} : ne y (lit 0) = true → ArgumentTruthy (.complex x y)
  | list {n : Nat} : 0 < n → ArgumentTruthy (.list n)

/-- the constructor of a predefined sequence on arguments -/
def Predefined.callLists (s : Predefined (PyArgument α)) (T prePost : PyArgument α) (name : Option String) :
    Except PyErr (Sequence α) :=
  match s with
  | .ramsey => newRamseyLists T prePost name
  | .spinEcho => newSpinEchoLists T prePost name
  | .carrPurcell n => newCarrPurcellLists T n prePost name
  | .cpmg n => newCPMGLists T n prePost name
  | .uhrig n => newUhrigLists T n prePost name
  | .periodic n => newPeriodicLists T n prePost name
  | .walsh k => newWalshLists T k prePost name
  | .quadratic n m => newQuadraticLists T n m prePost name
  | .xConcatenated l => newXConcatenatedLists T l prePost name
  | .xyConcatenated l => newXYConcatenatedLists T l prePost name

end OpenControls.Spec
