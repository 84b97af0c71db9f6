import Verif.Model.Sequence
import Verif.Spec.Evolution
import Verif.Spec.Outcome
import Verif.RealInst
import Mathlib.Algebra.BigOperators.Group.Finset.Basic
import Mathlib.MeasureTheory.Integral.IntervalIntegral.Basic

/-!
# Specification: dynamical decoupling sequences

A sequence of instantaneous π-pulses is a list of times with axes.  The tables of the predefined
sequences are the documented ones (`predefined.py`, docstrings).
-/

namespace OpenControls.Spec

/-- axis of a π-pulse -/
inductive Axis where
  | x
  | y
  | z
  deriving DecidableEq, Repr

/-- Rabi rotation of a π-pulse -/
noncomputable def Axis.rabi : Axis → ℝ
  | .z => 0
  | _ => Real.pi

/-- azimuthal angle of a π-pulse -/
noncomputable def Axis.azimuthal : Axis → ℝ
  | .y => Real.pi / 2
  | _ => 0

/-- detuning rotation of a π-pulse -/
noncomputable def Axis.detuning : Axis → ℝ
  | .z => Real.pi
  | _ => 0

/-- The sequence of the given duration with the given π-pulses. -/
noncomputable def piSequence (T : ℝ) (table : List (ℝ × Axis)) (name : Option String) :
    Sequence ℝ where
  duration := T
  offsets := table.map fun p => p.1
  rabiRotations := table.map fun p => p.2.rabi
  azimuthalAngles := table.map fun p => p.2.azimuthal
  detuningRotations := table.map fun p => p.2.detuning
  name := name

/-- `s` with an X(π/2) at time 0 and a π/2 rotation about the axis with azimuthal angle `φ` at the
end. -/
noncomputable def withPrePost (φ : ℝ) (s : Sequence ℝ) : Sequence ℝ :=
  { s with
    offsets := 0 :: (s.offsets ++ [s.duration])
    rabiRotations := Real.pi / 2 :: (s.rabiRotations ++ [Real.pi / 2])
    azimuthalAngles := 0 :: (s.azimuthalAngles ++ [φ])
    detuningRotations := 0 :: (s.detuningRotations ++ [0]) }

/-- `numpy`'s default closeness to a reference value -/
def NearValue (a b : ℝ) : Prop := |a - b| ≤ 1 / 10 ^ 8 + 1 / 10 ^ 5 * |b|

/-- A pulse with these rotations is, within the tolerance, a π-pulse about X, Y or Z. -/
def NearPiPulse (rabi azimuthal detuning : ℝ) : Prop :=
  ∃ a : Axis, NearValue rabi a.rabi ∧ NearValue azimuthal a.azimuthal ∧
    NearValue detuning a.detuning

/-- the unitary of all pulses of a sequence together, without the free evolution between them -/
noncomputable def pulses (s : Sequence ℝ) : M2 :=
  pulseProduct s.rabiRotations s.azimuthalAngles s.detuningRotations

/-- `s` is the sequence of the given π-pulses, or, if asked for, that sequence with pre and post
rotations (about X or −X) such that all pulses together leave every population unchanged: their
product is the identity or Z, up to a global phase. -/
def Realises (T : ℝ) (table : List (ℝ × Axis)) (prePost : Bool) (name : Option String)
    (s : Sequence ℝ) : Prop :=
  if prePost then
    (s = withPrePost 0 (piSequence T table name) ∨
      s = withPrePost Real.pi (piSequence T table name)) ∧
    (EqUpToPhase (pulses s) 1 ∨ EqUpToPhase (pulses s) σz)
  else s = piSequence T table name

/-- The call returns a sequence satisfying `Q` if `P` holds and raises `ArgumentsValueError` if `P`
does not hold. -/
def Returns {β : Type} (call : Except PyErr β) (P : Prop) (Q : β → Prop) : Prop :=
  (P → ∃ c, call = .ok c ∧ Q c) ∧ (¬P → ∃ description, call = .error (.arguments description))

/-- The sequence times are strictly increasing and strictly inside `(0, T)`. -/
def Ordered (T : ℝ) (times : List ℝ) : Prop :=
  times.Pairwise (· < ·) ∧ ∀ t ∈ times, 0 < t ∧ t < T

/-- The sequence times are symmetric about `T/2`. -/
def Symmetric (T : ℝ) (times : List ℝ) : Prop := times.reverse = times.map (T - ·)

/-- Carr-Purcell and CPMG: the `i`-th of `n` pulses is at `(T/n)(i - 1/2)`. -/
noncomputable def cpmgTimes (T : ℝ) (n : ℕ) : List ℝ :=
  (List.range' 1 n).map fun i : ℕ => T / n * (i - 1 / 2)

/-- Uhrig: the `i`-th of `n` pulses is at `T sin²(iπ/(2(n+1)))`. -/
noncomputable def uhrigTimes (T : ℝ) (n : ℕ) : List ℝ :=
  (List.range' 1 n).map fun i : ℕ => T * Real.sin (i * Real.pi / (2 * (n + 1))) ^ 2

/-- Periodic: the `i`-th of `n` pulses is at `i T/(n+1)`. -/
noncomputable def periodicTimes (T : ℝ) (n : ℕ) : List ℝ :=
  (List.range' 1 n).map fun i : ℕ => i * (T / (n + 1))

/-- the same axis at every time -/
def onAxis (a : Axis) (times : List ℝ) : List (ℝ × Axis) := times.map fun t => (t, a)

/-- Quadratic: between consecutive outer times (0 and `T` included) the `n₁` inner Uhrig pulses
about Z, and an X pulse at each outer time strictly inside. `a` is the start of the current
sub-interval. -/
noncomputable def quadraticTable (n₁ : ℕ) (T : ℝ) : ℝ → List ℝ → List (ℝ × Axis)
  | a, [] => onAxis .z ((uhrigTimes (T - a) n₁).map (a + ·))
  | a, b :: r =>
    onAxis .z ((uhrigTimes (b - a) n₁).map (a + ·)) ++ (b, .x) :: quadraticTable n₁ T b r

/-- The Rademacher function `R_j(x) = sgn(sin(2^j π x))`. -/
noncomputable def rademacher (j : ℕ) (x : ℝ) : ℝ := Real.sign (Real.sin (2 ^ j * Real.pi * x))

/-- The Walsh function of Paley order `k`: the product of the `R_j` over the binary digits
`b_j = 1` of `k = Σ b_j 2^(j-1)`. -/
noncomputable def paley (k : ℕ) (x : ℝ) : ℝ :=
  ∏ j ∈ Finset.range (Nat.log2 k + 1), if k.testBit j then rademacher (j + 1) x else 1

/-- The documented recursion `C_l(T) = C_{l-1}(T/2) X C_{l-1}(T/2) X`: the times of all its X
pulses, several of which may coincide. -/
noncomputable def xRecursion : ℕ → ℝ → List ℝ
  | 0, _ => []
  | l + 1, T => xRecursion l (T / 2) ++ [T / 2] ++ (xRecursion l (T / 2)).map (T / 2 + ·) ++ [T]

/-- The documented recursion
`C_l(T) = C_{l-1}(T/4) X C_{l-1}(T/4) Y C_{l-1}(T/4) X C_{l-1}(T/4) Y`: all its pulses, several of
which may coincide. -/
noncomputable def xyRecursion : ℕ → ℝ → List (ℝ × Axis)
  | 0, _ => []
  | l + 1, T =>
    let c := fun t : ℝ => (xyRecursion l (T / 4)).map fun p => (t + p.1, p.2)
    c 0 ++ [(T / 4, .x)] ++ c (T / 4) ++ [(T / 2, .y)] ++
      c (T / 2) ++ [(3 * T / 4, .x)] ++ c (3 * T / 4) ++ [(T, .y)]

/-- The net effect of all coinciding X and Y pulses at a time, up to a phase: X, Y, their product Z, or
nothing. -/
def NetPulse (pulses : List (ℝ × Axis)) (t : ℝ) : Axis → Prop
  | .x => Odd (pulses.count (t, .x)) ∧ Even (pulses.count (t, .y))
  | .y => Even (pulses.count (t, .x)) ∧ Odd (pulses.count (t, .y))
  | .z => Odd (pulses.count (t, .x)) ∧ Odd (pulses.count (t, .y))

/-- `table` has, in strictly increasing order, exactly the net pulses of the recursion. -/
def Simplifies (table recursion : List (ℝ × Axis)) : Prop :=
  (table.map fun p => p.1).Pairwise (· < ·) ∧ ∀ t a, (t, a) ∈ table ↔ NetPulse recursion t a

/-- The switching function of a sequence with pulses flipping the sign at the given times. -/
noncomputable def switching (times : List ℝ) (t : ℝ) : ℝ := (-1) ^ times.countP fun s => s < t

/-- The dephasing (Z) noise sensitivity flips at the X and Y pulses. -/
def flipTimes (table : List (ℝ × Axis)) : List ℝ :=
  (table.filter fun p => p.2 ≠ .z).map fun p => p.1

end OpenControls.Spec
