import Verif.Spec.Rounding
import Verif.Spec.EndToEnd
import Verif.Spec.RoundedConversion

/-!
# From the arguments of a predefined sequence to a control, in floating point: specification
-/

namespace OpenControls.Spec

variable {r : Rounding}

/-- The ten predefined constructors with their numeric arguments, floating-point numbers. -/
inductive RoundedFamily (r : Rounding) where
  | ramsey
  | spinEcho
  | carrPurcell (count : Fl r)
  | cpmg (count : Fl r)
  | uhrig (count : Fl r)
  | periodic (count : Fl r)
  | walsh (order : Fl r)
  | quadratic (inner outer : Fl r)
  | xConcatenated (order : Fl r)
  | xyConcatenated (order : Fl r)

namespace RoundedFamily

/-- the call of the public function -/
noncomputable def call (family : RoundedFamily r) (T : Fl r) (prePost : Bool)
    (name : Option String) : Except PyErr (Sequence (Fl r)) :=
  match family with
  | .ramsey => newRamseySequence T prePost name
  | .spinEcho => newSpinEchoSequence T prePost name
  | .carrPurcell n => newCarrPurcellSequence T n prePost name
  | .cpmg n => newCPMGSequence T n prePost name
  | .uhrig n => newUhrigSequence T n prePost name
  | .periodic n => newPeriodicSequence T n prePost name
  | .walsh k => newWalshSequence T k prePost name
  | .quadratic n m => newQuadraticSequence T n m prePost name
  | .xConcatenated l => newXConcatenatedSequence T l prePost name
  | .xyConcatenated l => newXYConcatenatedSequence T l prePost name

/-- the same arguments in exact arithmetic -/
def exact : RoundedFamily r → Family
  | .ramsey => .ramsey
  | .spinEcho => .spinEcho
  | .carrPurcell n => .carrPurcell n.val
  | .cpmg n => .cpmg n.val
  | .uhrig n => .uhrig n.val
  | .periodic n => .periodic n.val
  | .walsh k => .walsh k.val
  | .quadratic n m => .quadratic n.val m.val
  | .xConcatenated l => .xConcatenated l.val
  | .xyConcatenated l => .xyConcatenated l.val

/-- the pulses are not so many that their distances are rounding errors -/
def Small : RoundedFamily r → Prop
  | .carrPurcell n => 24 * ⌊n.val⌋₊ * r.u ≤ 1
  | .cpmg n => 24 * ⌊n.val⌋₊ * r.u ≤ 1
  | .uhrig n => 70 * ((⌊n.val⌋₊ : ℝ) + 1) ^ 2 * r.u < 1
  | .periodic n => 24 * ((⌊n.val⌋₊ : ℝ) + 1) * r.u ≤ 1
  | .quadratic n m => 300 * (((⌊n.val⌋₊ : ℝ) + 1) * (⌊m.val⌋₊ + 1)) ^ 2 * r.u < 1
  | .xConcatenated l => 7 * 4 ^ ⌊l.val⌋₊ * r.u ≤ 1
  | .xyConcatenated l => 7 * 16 ^ ⌊l.val⌋₊ * r.u ≤ 1
  | _ => True

/-- the error of the times of the pulses, in units of the duration -/
noncomputable def error : RoundedFamily r → ℝ
  | .ramsey => 0
  | .spinEcho => 0
  | .carrPurcell _ => 9 * r.u
  | .cpmg _ => 9 * r.u
  | .uhrig _ => 33 * r.u
  | .periodic _ => 7 * r.u
  | .walsh _ => r.u
  | .quadratic _ _ => 140 * r.u
  | .xConcatenated l => 3 * 2 ^ ⌊l.val⌋₊ * r.u
  | .xyConcatenated l => 3 * 4 ^ ⌊l.val⌋₊ * r.u

end RoundedFamily

/-- the time a pulse of a predefined sequence takes at least: a rotation by π/2 about X or by π about Z -/
noncomputable def shortestPulse (R D m : ℝ) : ℝ :=
  max (min (Real.pi / 2 / R) (Real.pi / D)) m

end OpenControls.Spec
