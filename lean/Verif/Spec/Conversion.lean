import Verif.Model.Sequence
import Verif.Spec.Sequences

/-!
# Specification: turning a sequence of instantaneous pulses into a driven control

Hardware is described by a maximum Rabi rate `R`, a maximum detuning rate `D` and a minimum segment
duration `m`.
-/

namespace OpenControls.Spec

/-- one instantaneous pulse -/
structure Pulse where
  offset : ℝ
  rabi : ℝ
  azimuthal : ℝ
  detuning : ℝ

/-- the pulses of a sequence, in order -/
def pulseList (s : Sequence ℝ) : List Pulse :=
  List.zipWith (fun t r => ⟨t, r.1, r.2.1, r.2.2⟩) s.offsets
    (s.rabiRotations.zip (s.azimuthalAngles.zip s.detuningRotations))

/-- a rotation `numpy` takes to be zero -/
def Negligible (x : ℝ) : Prop := |x| ≤ 1 / 10 ^ 8

open Classical in
/-- The time a pulse takes on the hardware: it is driven as strongly as possible unless it would then
be too short. -/
noncomputable def width (R D m : ℝ) (p : Pulse) : ℝ :=
  if ¬ Negligible p.rabi then max (p.rabi / R) m
  else if ¬ Negligible p.detuning then max (|p.detuning| / D) m
  else 0

open Classical in
/-- The window of a pulse in a sequence of duration `T`: centred on its offset, but a pulse at 0 starts
at 0 and a pulse at `T` ends at `T`. -/
noncomputable def window (T R D m : ℝ) (p : Pulse) : ℝ × ℝ :=
  if p.offset = 0 then (0, width R D m p)
  else if p.offset = T then (T - width R D m p, T)
  else (p.offset - width R D m p / 2, p.offset + width R D m p / 2)

open Classical in
/-- Rabi rate, azimuthal angle and detuning that carry out a pulse in its window. -/
noncomputable def drive (R D m : ℝ) (p : Pulse) : ℝ × ℝ × ℝ :=
  if ¬ Negligible p.rabi then (p.rabi / width R D m p, p.azimuthal, 0)
  else if ¬ Negligible p.detuning then (0, 0, p.detuning / width R D m p)
  else (0, 0, 0)

open Classical in
/-- The windows of all pulses in order.  The instants 0 and `T` are added as empty windows where
there is no pulse. -/
noncomputable def windows (R D m : ℝ) (s : Sequence ℝ) : List (ℝ × ℝ) :=
  (if s.offsets.head? = some 0 then [] else [(0, 0)]) ++
    (pulseList s).map (window s.duration R D m) ++
    (if s.offsets.getLast? = some s.duration then [] else [(s.duration, s.duration)])

/-- Every gap between a window and the next satisfies `P`. -/
def EachGap (P : ℝ → Prop) (ws : List (ℝ × ℝ)) : Prop := ws.IsChain fun v w => P (w.1 - v.2)

/-- The sequence can be carried out on the hardware: rates positive, minimum not negative, Rabi
rotations not negative, no pulse with positive rotations of both kinds, pulses at increasing times,
and the gaps between the pulses at least the minimum, up to `numpy`'s tolerance. -/
def Convertible (R D m : ℝ) (s : Sequence ℝ) : Prop :=
  0 < R ∧ 0 < D ∧ 0 ≤ m ∧
  (∀ p ∈ pulseList s, 0 ≤ p.rabi) ∧
  (∀ p ∈ pulseList s, ¬ (0 < p.rabi ∧ 0 < p.detuning)) ∧
  s.offsets.Pairwise (· < ·) ∧
  EachGap (fun g => m < g ∨ NearValue g m) (windows R D m s)

/-- The windows of the pulses do not overlap. -/
def NoOverlap (R D m : ℝ) (s : Sequence ℝ) : Prop := EachGap (fun g => 0 ≤ g) (windows R D m s)

/-- At time `t` the control has the given Rabi rate, azimuthal angle and detuning. -/
def DrivesAt (c : DrivenControl ℝ) (t : ℝ) (v : ℝ × ℝ × ℝ) : Prop :=
  ∃ k : ℕ, c.rabiRates[k]? = some v.1 ∧ c.azimuthalAngles[k]? = some v.2.1 ∧
    c.detunings[k]? = some v.2.2 ∧
    (c.durations.take k).sum ≤ t ∧ t < (c.durations.take (k + 1)).sum

/-- A pulse that is a rotation about an axis in the XY plane or about Z, but not both, and by an angle
that is 0 or large enough for `numpy` to tell it from 0. -/
def PurePulse (p : Pulse) : Prop :=
  (p.rabi = 0 ∨ p.detuning = 0) ∧ (p.rabi = 0 ∨ ¬ Negligible p.rabi) ∧
    (p.detuning = 0 ∨ ¬ Negligible p.detuning)

open Classical in
/-- What the conversion takes a pulse to be: a Rabi rotation if that is not negligible, else a detuning
rotation if that is not negligible, else nothing. -/
noncomputable def effective (p : Pulse) : Pulse :=
  if ¬ Negligible p.rabi then { p with detuning := 0 }
  else if ¬ Negligible p.detuning then { p with rabi := 0 }
  else { p with rabi := 0, detuning := 0 }

/-- the product of the pulses of a list, in time order -/
noncomputable def productOf (ps : List Pulse) : M2 :=
  pulseProduct (ps.map Pulse.rabi) (ps.map Pulse.azimuthal) (ps.map Pulse.detuning)

/-- the control made `k` times slower: it takes `k` times as long at `1/k` of the rates -/
noncomputable def slowDown (k : ℝ) (c : DrivenControl ℝ) : DrivenControl ℝ where
  rabiRates := c.rabiRates.map (· / k)
  azimuthalAngles := c.azimuthalAngles
  detunings := c.detunings.map (· / k)
  durations := c.durations.map (k * ·)
  name := c.name

end OpenControls.Spec
