import Verif.Proofs.PulseErrors
import Verif.Props.Noise

/-!
# C84: π-pulses with wrong rotation angles
-/

namespace OpenControls

open Spec RealInst

/-- **C84**, CPMG and Uhrig sequences with pre and post rotations bring the qubit back to its initial state with
certainty, whatever the errors of the individual π-pulses. -/
theorem C84_immune (family : Family) (hf : family.PulsesAlongState) (T : ℝ) (name : Option String)
    (s : Sequence ℝ) (hs : family.call T true name = .ok s) (e : ℕ → ℝ) :
    returnProbability (pulses (miscalibrated e s)) = 1 := by
  obtain ⟨⟨hT, hv⟩, -⟩ := (C43_well_formed family T true name).ok hs
  rw [Family.call_eq hv hT] at hs
  injection hs with hs
  subst hs
  have hp := pulses_withPrePost T (family.table T) name
  rw [pulses_withPrePost_eq] at hp
  rw [show finished T (family.table T) true name =
    withPrePost (finalAngle (family.table T)) (piSequence T (family.table T) name) from rfl,
    miscalibrated_pulses, errProduct_y _ _ (table_all_y hf T), ← Matrix.mul_assoc]
  exact return_y hp

/-- **C84**, the sequences with pulses about X (and Z): the errors add up, with a sign that changes at each Z
pulse. -/
theorem C84_accumulates (family : Family) (hf : family.PulsesAcrossState) (T : ℝ)
    (name : Option String) (s : Sequence ℝ) (hs : family.call T true name = .ok s) (e : ℕ → ℝ) :
    returnProbability (pulses (miscalibrated e s)) =
      Real.cos (Real.pi / 2 * netError e s) ^ 2 := by
  obtain ⟨⟨hT, hv⟩, -⟩ := (C43_well_formed family T true name).ok hs
  rw [Family.call_eq hv hT] at hs
  injection hs with hs
  subst hs
  have hp := pulses_withPrePost T (family.table T) name
  rw [pulses_withPrePost_eq] at hp
  rw [show finished T (family.table T) true name =
    withPrePost (finalAngle (family.table T)) (piSequence T (family.table T) name) from rfl,
    miscalibrated_pulses, errProduct_x _ _ (table_no_y hf T), ← Matrix.mul_assoc, return_x hp,
    netError_eq]
  congr 2; ring

/-- **C84**, in particular `n` Carr-Purcell pulses with the same error `ε` lose the state at the rate
`cos²(nπε/2)`, whereas `n` CPMG pulses, at the same times, do not. -/
theorem C84_carr_purcell (T n ε : ℝ) (name : Option String) (s s' : Sequence ℝ)
    (hs : newCarrPurcellSequence T n true name = .ok s)
    (hs' : newCPMGSequence T n true name = .ok s') :
    s'.offsets = s.offsets ∧
    returnProbability (pulses (miscalibrated (fun _ => ε) s)) =
      Real.cos (⌊n⌋₊ * Real.pi * ε / 2) ^ 2 ∧
    returnProbability (pulses (miscalibrated (fun _ => ε) s')) = 1 := by
  have h1 := C84_accumulates (.carrPurcell n) trivial T name s hs fun _ => ε
  have h2 := C84_immune (.cpmg n) trivial T name s' hs' fun _ => ε
  have hs0 : Family.call (.carrPurcell n) T true name = .ok s := hs
  have hs0' : Family.call (.cpmg n) T true name = .ok s' := hs'
  obtain ⟨⟨hT, hv⟩, -⟩ := (C43_well_formed (.carrPurcell n) T true name).ok hs0
  have hv' : Family.Valid (.cpmg n) := hv
  rw [Family.call_eq hv hT] at hs0
  rw [Family.call_eq hv' hT] at hs0'
  injection hs0 with hs0
  injection hs0' with hs0'
  have e : ∀ ts : List ℝ, signedError (fun _ => ε) (onAxis .x ts) = ts.length * ε := by
    intro ts
    induction ts with
    | nil => simp [onAxis, signedError]
    | cons t r ih =>
      have : onAxis .x (t :: r) = (t, .x) :: onAxis .x r := rfl
      rw [this, signedError, ih, List.length_cons]
      · push_cast; ring
      · simp
  refine ⟨?_, ?_, h2⟩
  · rw [← hs0, ← hs0']
    simp [finished, withPrePost, piSequence, Family.table, onAxis]
  · rw [h1, ← hs0, show finished T (Family.table (.carrPurcell n) T) true name =
      withPrePost (finalAngle (Family.table (.carrPurcell n) T))
        (piSequence T (Family.table (.carrPurcell n) T) name) from rfl, netError_eq,
      show Family.table (.carrPurcell n) T = onAxis .x (cpmgTimes T ⌊n⌋₊) from rfl, e]
    congr 2
    simp [cpmgTimes]
    ring

/-! ### Non-vacuity -/

/-- ten Carr-Purcell pulses that are ten percent too long lose the state completely; ten CPMG pulses do not -/
example : ∃ s s', newCarrPurcellSequence (1 : ℝ) 10 true none = .ok s ∧
    newCPMGSequence (1 : ℝ) 10 true none = .ok s' ∧
    returnProbability (pulses (miscalibrated (fun _ => 1 / 10) s)) = 0 ∧
    returnProbability (pulses (miscalibrated (fun _ => 1 / 10) s')) = 1 := by
  obtain ⟨s, hs, -⟩ := (C43_well_formed (.carrPurcell 10) 1 true none).1
    ⟨by norm_num, show (1 : ℝ) ≤ 10 by norm_num⟩
  obtain ⟨s', hs', -⟩ := (C43_well_formed (.cpmg 10) 1 true none).1
    ⟨by norm_num, show (1 : ℝ) ≤ 10 by norm_num⟩
  obtain ⟨-, h1, h2⟩ := C84_carr_purcell 1 10 (1 / 10) none s s' hs hs'
  refine ⟨s, s', hs, hs', ?_, h2⟩
  have : ⌊(10 : ℝ)⌋₊ = 10 := by norm_num
  rw [h1, this, show ((10 : ℕ) : ℝ) * Real.pi * (1 / 10) / 2 = Real.pi / 2 by push_cast; ring]
  simp

/-- a quadratic sequence with one inner and two outer pulses: the errors of the two X pulses cancel -/
example (s : Sequence ℝ) (hs : newQuadraticSequence (1 : ℝ) 1 2 true none = .ok s) (ε : ℝ) :
    returnProbability (pulses (miscalibrated (fun _ => ε) s)) = 1 := by
  rw [C84_accumulates (.quadratic 1 2) trivial 1 none s hs]
  have hs0 : Family.call (.quadratic 1 2) 1 true none = .ok s := hs
  have hv : Family.Valid (.quadratic 1 2) := ⟨le_refl _, by norm_num⟩
  rw [Family.call_eq hv one_pos] at hs0
  injection hs0 with hs0
  have h1 : ⌊(1 : ℝ)⌋₊ = 1 := by norm_num
  have h2 : ⌊(2 : ℝ)⌋₊ = 2 := by norm_num
  rw [← hs0, show finished 1 (Family.table (.quadratic 1 2) 1) true none =
      withPrePost (finalAngle (Family.table (.quadratic 1 2) 1))
        (piSequence 1 (Family.table (.quadratic 1 2) 1) none) from rfl, netError_eq]
  have : signedError (fun _ => ε) (Family.table (.quadratic 1 2) 1) = 0 := by
    simp only [Family.table, h1, h2, uhrigTimes, List.range'_succ, List.range'_zero, List.map_cons, List.map_nil,
      quadraticTable, onAxis, List.cons_append, List.nil_append, signedError]
    ring
  rw [this]
  simp

end OpenControls
