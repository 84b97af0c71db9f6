import Verif.Model.ValuesCalls
import Verif.Spec.Values
import Verif.Spec.Extended
import Verif.Spec.Shapes

/-!
# Specification: the functions on arbitrary scalar objects (C108)
-/

namespace OpenControls.Spec

open PyFloat Py

variable {α : Type}

/-- the real numbers of Python: booleans, integers and floats -/
inductive ScalarReal [PyFloat α] : PyScalar α → α → Prop
  | true : ScalarReal (.bool true) (lit 1)
  | false : ScalarReal (.bool false) (lit 0)
  | int (n : ℤ) : ScalarReal (.int n) (lit n)
  | float (x : α) : ScalarReal (.float x) x

/-- `x` is the number `v` is, if `v` is a number at all -/
def Stands [PyFloat α] (v : PyScalar α) (x : α) : Prop :=
  ScalarReal v x ∨ ∀ y, ¬ ScalarReal v y

/-- the objects that count as true in a condition -/
inductive Truthy [PyFloat α] : PyScalar α → Prop
  | bool : Truthy (.bool true)
  | int {n : ℤ} : n ≠ 0 → Truthy (.int n)
  | float {x : α} : ne x (lit 0) = true → Truthy (.float x)
  | str {s : String} : s ≠ "" → Truthy (.str s)
  | other : Truthy (.other true)

/-- the two pulses whose azimuthal angle is only stored, not computed with -/
def Scheme.storesAzimuth : Scheme → Prop
  | .primitive | .wamf1 => True
  | _ => False

/-- the objects a composite pulse takes for its azimuthal angle: real numbers; and where the angle is only stored
also `None`, which is stored as NaN, and strings that show a number -/
inductive AzimuthOf [PyFloat α] (np : Numpy α) (sch : Scheme) : PyScalar α → α → Prop
  | real {v x} : ScalarReal v x → AzimuthOf np sch v x
  | none : sch.storesAzimuth → AzimuthOf np sch .none np.nan
  | str {s x} : sch.storesAzimuth → np.ofStr s = some x → AzimuthOf np sch (.str s) x

section
variable [Add α] [Sub α] [Mul α] [Div α] [Neg α] [PyFloat α]

/-- the constructor of a composite pulse on objects -/
def Scheme.callValues (np : Numpy α) :
    Scheme → PyScalar α → PyScalar α → PyScalar α → Option String → Except PyErr (NdControl α)
  | .primitive => newPrimitiveValues np
  | .bb1 => newBB1Values
  | .sk1 => newSK1Values
  | .scrofulous => newScrofulousValues
  | .corpse => newCorpseValues
  | .corpseInBB1 => newCorpseInBB1Values
  | .corpseInSK1 => newCorpseInSK1Values
  | .corpseInScrofulous => newCorpseInScrofulousValues
  | .wamf1 => newWamf1Values np

/-- the constructor of a predefined sequence on objects -/
def Predefined.callValues (s : Predefined (PyScalar α)) (T prePost : PyScalar α) (name : Option String) :
    Except PyErr (Sequence α) :=
  match s with
  | .ramsey => newRamseyValues T prePost name
  | .spinEcho => newSpinEchoValues T prePost name
  | .carrPurcell n => newCarrPurcellValues T n prePost name
  | .cpmg n => newCPMGValues T n prePost name
  | .uhrig n => newUhrigValues T n prePost name
  | .periodic n => newPeriodicValues T n prePost name
  | .walsh k => newWalshValues T k prePost name
  | .quadratic n m => newQuadraticValues T n m prePost name
  | .xConcatenated l => newXConcatenatedValues T l prePost name
  | .xyConcatenated l => newXYConcatenatedValues T l prePost name

end

/-- the same sequence, with arguments related by `R` -/
def Predefined.Rel {β : Type} (R : α → β → Prop) : Predefined α → Predefined β → Prop
  | .ramsey, .ramsey | .spinEcho, .spinEcho => True
  | .carrPurcell n, .carrPurcell m | .cpmg n, .cpmg m | .uhrig n, .uhrig m | .periodic n, .periodic m
  | .walsh n, .walsh m | .xConcatenated n, .xConcatenated m | .xyConcatenated n, .xyConcatenated m => R n m
  | .quadratic n m, .quadratic n' m' => R n n' ∧ R m m'
  | _, _ => False

end OpenControls.Spec
