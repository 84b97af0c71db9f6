import Verif.Model.SequencePredefined
import Verif.Spec.Sequences

/-!
# Specification: the predefined sequences as one family
-/

namespace OpenControls.Spec

/-- The ten predefined constructors with their numeric arguments. -/
inductive Family where
  | ramsey
  | spinEcho
  | carrPurcell (count : ℝ)
  | cpmg (count : ℝ)
  | uhrig (count : ℝ)
  | periodic (count : ℝ)
  | walsh (order : ℝ)
  | quadratic (inner outer : ℝ)
  | xConcatenated (order : ℝ)
  | xyConcatenated (order : ℝ)

/-- the call of the public function -/
noncomputable def Family.call (family : Family) (T : ℝ) (prePost : Bool) (name : Option String) :
    Except PyErr (Sequence ℝ) :=
  match family with
  | .ramsey => newRamseySequence T prePost name
  | .spinEcho => newSpinEchoSequence T prePost name
  | .carrPurcell n => newCarrPurcellSequence T n prePost name
  | .cpmg n => newCPMGSequence T n prePost name
  | .uhrig n => newUhrigSequence T n prePost name
  | .periodic n => newPeriodicSequence T n prePost name
  | .walsh k => newWalshSequence T k prePost name
  | .quadratic n m => newQuadraticSequence T n m prePost name
  | .xConcatenated l => newXConcatenatedSequence T l prePost name
  | .xyConcatenated l => newXYConcatenatedSequence T l prePost name

/-- the documented conditions on the numeric arguments -/
def Family.Valid : Family → Prop
  | .ramsey => True
  | .spinEcho => True
  | .carrPurcell n => 1 ≤ n
  | .cpmg n => 1 ≤ n
  | .uhrig n => 1 ≤ n
  | .periodic n => 1 ≤ n
  | .walsh k => 1 ≤ k ∧ k ≤ 2000
  | .quadratic n m => 1 ≤ n ∧ 1 ≤ m
  | .xConcatenated l => 1 ≤ l
  | .xyConcatenated l => 1 ≤ l

/-- The `i`-th pulse of a sequence: its time, Rabi rotation, azimuthal angle and detuning rotation. -/
def PulseAt (s : Sequence ℝ) (i : ℕ) (t r a d : ℝ) : Prop :=
  s.offsets[i]? = some t ∧ s.rabiRotations[i]? = some r ∧ s.azimuthalAngles[i]? = some a ∧
    s.detuningRotations[i]? = some d

/-- The pulses are complete, at times in `[0, T]`, and each is a π-pulse about X, Y or Z or, if
asked for, a pre or post rotation by π/2 about X or −X at time 0 or `T`. -/
def WellFormed (T : ℝ) (prePost : Bool) (s : Sequence ℝ) : Prop :=
  s.duration = T ∧
  s.rabiRotations.length = s.offsets.length ∧ s.azimuthalAngles.length = s.offsets.length ∧
  s.detuningRotations.length = s.offsets.length ∧
  (∀ t ∈ s.offsets, 0 ≤ t ∧ t ≤ T) ∧
  ∀ (i : ℕ) (t r a d : ℝ), PulseAt s i t r a d →
    (∃ axis : Axis, r = axis.rabi ∧ a = axis.azimuthal ∧ d = axis.detuning) ∨
    (prePost = true ∧ r = Real.pi / 2 ∧ d = 0 ∧
      ((t = 0 ∧ i = 0 ∧ a = 0) ∨ (t = T ∧ i + 1 = s.offsets.length ∧ (a = 0 ∨ a = Real.pi))))

/-- the sequence with all times and the duration multiplied by a factor -/
noncomputable def stretch (c : ℝ) (s : Sequence ℝ) : Sequence ℝ :=
  { s with duration := c * s.duration, offsets := s.offsets.map (c * ·) }

open Classical in
/-- The sensitivity of the qubit to dephasing noise at a time: its sign flips at each π-pulse about an
axis in the XY plane (Rabi rotation π). -/
noncomputable def sensitivity (s : Sequence ℝ) (t : ℝ) : ℝ :=
  (-1) ^ (s.offsets.zip s.rabiRotations).countP fun p => p.2 = Real.pi ∧ p.1 < t

/-- The families and orders of which static dephasing is claimed to be refocused. XY-concatenated sequences
are among them for order one and the even orders. -/
def Family.Refocuses : Family → Prop
  | .ramsey => False
  | .periodic n => Odd ⌊n⌋₊
  | .xyConcatenated l => ⌊l⌋₊ = 1 ∨ Even ⌊l⌋₊
  | _ => True

/-- The claimed order of cancellation of dephasing noise: the number of leading powers of time, `1`, `t`,
`t²`, …, of which the noise is cancelled. For Walsh sequences it is the number of ones in the binary expansion
of the Paley order. -/
noncomputable def Family.cancellationOrder : Family → ℕ
  | .ramsey => 0
  | .spinEcho => 1
  | .carrPurcell n => if Even ⌊n⌋₊ then 2 else 1
  | .cpmg n => if Even ⌊n⌋₊ then 2 else 1
  | .uhrig n => ⌊n⌋₊
  | .periodic n => if Even ⌊n⌋₊ then 0 else 1
  | .walsh k => (Nat.digits 2 ⌊k⌋₊).sum
  | .quadratic _ outer => ⌊outer⌋₊
  | .xConcatenated l => ⌊l⌋₊
  | .xyConcatenated l =>
    if ⌊l⌋₊ = 1 then 1 else if ⌊l⌋₊ = 2 then 2 else if Even ⌊l⌋₊ then 1 else 0

/-- The sensitivity of the sequence is orthogonal to `t^k` for `k` below the order, and not for the order. -/
def CancelsExactly (s : Sequence ℝ) (order : ℕ) : Prop :=
  (∀ k < order, ∫ t in 0..s.duration, sensitivity s t * t ^ k = 0) ∧
    ∫ t in 0..s.duration, sensitivity s t * t ^ order ≠ 0

end OpenControls.Spec
