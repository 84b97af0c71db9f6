import Verif.Spec.Limited
import Verif.Spec.RoundedPipeline

/-!
# Specification: the predefined sequences with numbers of limited range
-/

namespace OpenControls.Spec

variable {r : Rounding}

/-- The ten predefined constructors with their numeric arguments, numbers of limited range. -/
inductive LimitedFamily (L : Limits r) where
  | ramsey
  | spinEcho
  | carrPurcell (count : Lim L)
  | cpmg (count : Lim L)
  | uhrig (count : Lim L)
  | periodic (count : Lim L)
  | walsh (order : Lim L)
  | quadratic (inner outer : Lim L)
  | xConcatenated (order : Lim L)
  | xyConcatenated (order : Lim L)

namespace LimitedFamily

variable {L : Limits r}

/-- the call of the public function -/
noncomputable def call (family : LimitedFamily L) (T : Lim L) (prePost : Bool)
    (name : Option String) : Except PyErr (Sequence (Lim L)) :=
  match family with
  | .ramsey => newRamseySequence T prePost name
  | .spinEcho => newSpinEchoSequence T prePost name
  | .carrPurcell n => newCarrPurcellSequence T n prePost name
  | .cpmg n => newCPMGSequence T n prePost name
  | .uhrig n => newUhrigSequence T n prePost name
  | .periodic n => newPeriodicSequence T n prePost name
  | .walsh k => newWalshSequence T k prePost name
  | .quadratic n m => newQuadraticSequence T n m prePost name
  | .xConcatenated l => newXConcatenatedSequence T l prePost name
  | .xyConcatenated l => newXYConcatenatedSequence T l prePost name

/-- the same function with the same numeric arguments -/
def Same : LimitedFamily L → RoundedFamily r → Prop
  | .ramsey, .ramsey => True
  | .spinEcho, .spinEcho => True
  | .carrPurcell n, .carrPurcell n' => SameValue n n'
  | .cpmg n, .cpmg n' => SameValue n n'
  | .uhrig n, .uhrig n' => SameValue n n'
  | .periodic n, .periodic n' => SameValue n n'
  | .walsh k, .walsh k' => SameValue k k'
  | .quadratic n m, .quadratic n' m' => SameValue n n' ∧ SameValue m m'
  | .xConcatenated l, .xConcatenated l' => SameValue l l'
  | .xyConcatenated l, .xyConcatenated l' => SameValue l l'
  | _, _ => False

end LimitedFamily

end OpenControls.Spec
