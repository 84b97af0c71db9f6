import Verif.Spec.Evolution
import Verif.Model.DrivenControl
import Mathlib.Analysis.SpecialFunctions.Trigonometric.Inverse

/-!
# Specification: the documented composite pulses

A composite pulse is a table of resonant pulses `(rotation angle, azimuthal angle)` performed one
after the other at the same Rabi rate.  The tables are those of the docstrings of
`driven_controls/predefined.py`.
-/

namespace OpenControls.Spec

/-- The control performing the pulses of a table, each at Rabi rate `Ω`, without detuning. -/
noncomputable def ofTable (Ω : ℝ) (table : List (ℝ × ℝ)) (name : Option String) : DrivenControl ℝ where
  rabiRates := table.map fun _ => Ω
  azimuthalAngles := table.map fun p => p.2
  detunings := table.map fun _ => 0
  durations := table.map fun p => p.1 / Ω
  name := name

/-- the evolution of a control (`controlEvolution` of its arrays) -/
noncomputable def evolution (c : DrivenControl ℝ) : M2 :=
  controlEvolution c.rabiRates c.azimuthalAngles c.detunings c.durations

/-- primitive pulse -/
def primitiveTable (θ φ : ℝ) : List (ℝ × ℝ) := [(θ, φ)]

/-- `φ_p = arccos(-θ / 4π)` of BB1 and SK1 -/
noncomputable def wimperisAngle (θ : ℝ) : ℝ := Real.arccos (-θ / (4 * Real.pi))

/-- BB1 (Wimperis): `θ(φ), π(φ+φ_p), 2π(φ+3φ_p), π(φ+φ_p)` -/
noncomputable def bb1Table (θ φ : ℝ) : List (ℝ × ℝ) :=
  [(θ, φ), (Real.pi, φ + wimperisAngle θ), (2 * Real.pi, φ + 3 * wimperisAngle θ),
   (Real.pi, φ + wimperisAngle θ)]

/-- SK1 (Solovay-Kitaev): `θ(φ), 2π(φ-φ_p), 2π(φ+φ_p)` -/
noncomputable def sk1Table (θ φ : ℝ) : List (ℝ × ℝ) :=
  [(θ, φ), (2 * Real.pi, φ - wimperisAngle θ), (2 * Real.pi, φ + wimperisAngle θ)]

/-- `k = arcsin(sin(θ/2)/2)` of CORPSE -/
noncomputable def corpseAngle (θ : ℝ) : ℝ := Real.arcsin (Real.sin (θ / 2) / 2)

/-- CORPSE: `2π+θ/2-k (φ), 2π-2k (φ+π), θ/2-k (φ)` -/
noncomputable def corpseTable (θ φ : ℝ) : List (ℝ × ℝ) :=
  [(2 * Real.pi + θ / 2 - corpseAngle θ, φ), (2 * Real.pi - 2 * corpseAngle θ, φ + Real.pi),
   (θ / 2 - corpseAngle θ, φ)]

/-- SCROFULOUS with first angle `θ₁`: `θ₁(φ+φ₁), π(φ+φ₂), θ₁(φ+φ₁)` where
`φ₁ = arccos(-π cos θ₁ / (2 θ₁ sin(θ/2)))`, `φ₂ = φ₁ - arccos(-π/(2θ₁))` -/
noncomputable def scrofulousTable (θ₁ θ φ : ℝ) : List (ℝ × ℝ) :=
  let φ₁ := Real.arccos (-Real.pi * Real.cos θ₁ / (2 * θ₁ * Real.sin (θ / 2)))
  let φ₂ := φ₁ - Real.arccos (-Real.pi / (2 * θ₁))
  [(θ₁, φ + φ₁), (Real.pi, φ + φ₂), (θ₁, φ + φ₁)]

/-- replace every pulse of a table by the CORPSE pulse for the same rotation -/
noncomputable def corpseEach (table : List (ℝ × ℝ)) : List (ℝ × ℝ) :=
  table.flatMap fun p => corpseTable p.1 p.2

/-- replace the first pulse of a table by the CORPSE pulse for the same rotation -/
noncomputable def corpseFirst : List (ℝ × ℝ) → List (ℝ × ℝ)
  | [] => []
  | p :: r => corpseTable p.1 p.2 ++ r

/-- `np.isclose(θ, a)`: equality up to absolute tolerance `1e-8` plus relative tolerance `1e-5` -/
def Close (θ a : ℝ) : Prop := |θ - a| ≤ 1 / 10 ^ 8 + 1 / 10 ^ 5 * |a|

/-- the rotation angles SCROFULOUS and WAMF1 are tabulated for -/
def Tabulated (θ : ℝ) : Prop :=
  Close θ Real.pi ∨ Close θ (Real.pi / 2) ∨ Close θ (Real.pi / 4)

open Classical in
/-- the tabulated first angle of SCROFULOUS: 180, 115.2 and 96.7 degrees for `π`, `π/2`, `π/4` -/
noncomputable def scrofulousAngle (θ : ℝ) : ℝ :=
  if Close θ Real.pi then Real.pi
  else if Close θ (Real.pi / 2) then 115.2 / 180 * Real.pi
  else 96.7 / 180 * Real.pi

open Classical in
/-- the tabulated angle a rotation angle is close to -/
noncomputable def nominalAngle (θ : ℝ) : ℝ :=
  if Close θ Real.pi then Real.pi
  else if Close θ (Real.pi / 2) then Real.pi / 2
  else Real.pi / 4

open Classical in
/-- the tabulated amplitudes `(θ₊, θ₋)` of WAMF1 -/
noncomputable def wamf1Angles (θ : ℝ) : ℝ × ℝ :=
  if Close θ Real.pi then (Real.pi, Real.pi / 2)
  else if Close θ (Real.pi / 2) then
    (Real.pi * (2.5 + 0.65667825) / 4, Real.pi * (2.5 - 0.65667825) / 4)
  else (Real.pi * (2.25 + 0.36256159) / 4, Real.pi * (2.25 - 0.36256159) / 4)

/-- WAMF1: four segments of equal duration `θ₊/Ω` and constant phase with rates
`Ω, Ω θ₋/θ₊, Ω θ₋/θ₊, Ω` -/
noncomputable def wamf1Control (θ Ω φ : ℝ) (name : Option String) : DrivenControl ℝ where
  rabiRates := [Ω, Ω * (wamf1Angles θ).2 / (wamf1Angles θ).1,
    Ω * (wamf1Angles θ).2 / (wamf1Angles θ).1, Ω]
  azimuthalAngles := [φ, φ, φ, φ]
  detunings := [0, 0, 0, 0]
  durations := List.replicate 4 ((wamf1Angles θ).1 / Ω)
  name := name

/-- Schroedinger evolution under segments `(amplitude_x, amplitude_y, detuning, duration)` given in
time order: each contributes `exp(-i t (x σx + y σy + Δ σz) / 2)` -/
noncomputable def cartesianEvolution : List (ℝ × ℝ × ℝ × ℝ) → M2
  | [] => 1
  | (x, y, Δ, t) :: rest => cartesianEvolution rest *
      NormedSpace.exp ((-Complex.I * (t : ℂ)) •
        ((1 / 2 : ℂ) • ((x : ℂ) • σx + (y : ℂ) • σy + (Δ : ℂ) • σz)))

/-- rotations `(θ, φ)` by `θ` about `(cos φ, sin φ, 0)`, performed one after the other -/
noncomputable def rotationsInOrder : List (ℝ × ℝ) → M2
  | [] => 1
  | (θ, φ) :: rest => rotationsInOrder rest * rotation θ φ

/-- The nine composite-pulse constructors. -/
inductive Scheme where
  | primitive | bb1 | sk1 | scrofulous | corpse | corpseInBB1 | corpseInSK1 | corpseInScrofulous
  | wamf1
  deriving DecidableEq, Repr

end OpenControls.Spec
