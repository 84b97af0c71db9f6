import Verif.Proofs.PulseErrorsZ
import Verif.Props.Noise

/-!
# C128: Z pulses with wrong rotation angles
-/

namespace OpenControls

open Spec RealInst

/-- **C128.** With errors of the Z pulses a predefined sequence (without pre and post rotations) does what its pulses do,
preceded by a rotation about Z by π times the sum of the errors, each with a sign that flips at every other pulse. -/
theorem C128_phase (family : Family) (T : ℝ) (name : Option String) (s : Sequence ℝ)
    (hs : family.call T false name = .ok s) (e : ℕ → ℝ) :
    pulses (miscalibratedZ e s) = pulses s * pulseUnitary 0 0 (Real.pi * netErrorZ e s) := by
  obtain ⟨⟨hT, hv⟩, -⟩ := (C43_well_formed family T false name).ok hs
  rw [Family.call_eq hv hT, Except.ok.injEq] at hs
  subst hs
  rw [show finished T (family.table T) false name = piSequence T (family.table T) name from rfl,
    miscalibratedZ_plain, zErrProduct_eq, pulses_table, netErrorZ_plain, pulseUnitary_detuned]

/-- **C128**, with pre and post rotations: the probability of return. -/
theorem C128_return (family : Family) (T : ℝ) (name : Option String) (s : Sequence ℝ)
    (hs : family.call T true name = .ok s) (e : ℕ → ℝ) :
    returnProbability (pulses (miscalibratedZ e s)) = Real.cos (Real.pi / 2 * netErrorZ e s) ^ 2 := by
  obtain ⟨⟨hT, hv⟩, -⟩ := (C43_well_formed family T true name).ok hs
  rw [Family.call_eq hv hT, Except.ok.injEq] at hs
  subst hs
  have hp := pulses_withPrePost T (family.table T) name
  rw [pulses_withPrePost_eq] at hp
  rw [show finished T (family.table T) true name =
    withPrePost (finalAngle (family.table T)) (piSequence T (family.table T) name) from rfl, netErrorZ_prePost,
    show Real.pi / 2 * signedZ (fun i => e (i + 1)) (family.table T) =
      Real.pi * signedZ (fun i => e (i + 1)) (family.table T) / 2 by ring]
  refine returnProbability_eq hp ?_
  rw [miscalibratedZ_prePost, zErrProduct_eq]
  simp only [mul_assoc]

/-- **C128**, the quadratic sequence with the same error of all Z pulses: an odd number of outer pulses cancels it, with an even
number the error of the inner pulses of one interval is left. -/
theorem C128_quadratic (T n m : ℝ) (name : Option String) (s : Sequence ℝ)
    (hs : newQuadraticSequence T n m true name = .ok s) (ε : ℝ) :
    returnProbability (pulses (miscalibratedZ (fun _ => ε) s)) =
      if Even ⌊m⌋₊ then Real.cos (Real.pi * ε * ⌊n⌋₊ / 2) ^ 2 else 1 := by
  have hs0 : Family.call (.quadratic n m) T true name = .ok s := hs
  rw [C128_return (.quadratic n m) T name s hs0]
  obtain ⟨⟨hT, hv⟩, -⟩ := (C43_well_formed (.quadratic n m) T true name).ok hs0
  rw [Family.call_eq hv hT, Except.ok.injEq] at hs0
  rw [← hs0, show finished T (Family.table (.quadratic n m) T) true name =
    withPrePost (finalAngle (Family.table (.quadratic n m) T))
      (piSequence T (Family.table (.quadratic n m) T) name) from rfl, netErrorZ_prePost, signedZ_common,
    show Family.table (.quadratic n m) T = quadraticTable ⌊n⌋₊ T 0 (uhrigTimes T ⌊m⌋₊) from rfl, countZ_quadratic]
  have hl : (uhrigTimes T ⌊m⌋₊).length = ⌊m⌋₊ := by simp [uhrigTimes]
  rw [hl]
  by_cases h : ⌊m⌋₊ % 2 = 0
  · rw [if_pos h, if_pos (Nat.even_iff.mpr h)]
    congr 2; ring
  · rw [if_neg h, if_neg fun he => h (Nat.even_iff.mp he)]
    simp

/-- **C128**, XY-concatenated sequences from the second order on, which do not suffer from errors of the X and Y pulses (C126):
a common error of the Z pulses adds up exponentially. -/
theorem C128_xy (T l : ℝ) (name : Option String) (s : Sequence ℝ)
    (hs : newXYConcatenatedSequence T l true name = .ok s) (h2 : 2 ≤ l) (ε : ℝ) :
    returnProbability (pulses (miscalibratedZ (fun _ => ε) s)) =
      Real.cos (Real.pi * ε * (4 ^ (⌊l⌋₊ - 1) + 2) / 6) ^ 2 := by
  have hs0 : Family.call (.xyConcatenated l) T true name = .ok s := hs
  rw [C128_return (.xyConcatenated l) T name s hs0]
  obtain ⟨⟨hT, hv⟩, -⟩ := (C43_well_formed (.xyConcatenated l) T true name).ok hs0
  rw [Family.call_eq hv hT, Except.ok.injEq] at hs0
  have hn2 : 2 ≤ ⌊l⌋₊ := Nat.le_floor (by exact_mod_cast h2)
  obtain ⟨n, hn⟩ : ∃ n, ⌊l⌋₊ = n + 2 := ⟨⌊l⌋₊ - 2, by omega⟩
  rw [← hs0, show finished T (Family.table (.xyConcatenated l) T) true name =
    withPrePost (finalAngle (Family.table (.xyConcatenated l) T))
      (piSequence T (Family.table (.xyConcatenated l) T) name) from rfl, netErrorZ_prePost, signedZ_common,
    show Family.table (.xyConcatenated l) T = xyTable T ⌊l⌋₊ from rfl, hn, xy_axes hT (by omega), countZ_built,
    show n + 2 - 1 = n + 1 by omega, ← Real.cos_neg]
  congr 2
  ring

/-! ### Non-vacuity -/

/-- two inner pulses, one or two outer pulses, an error of one half -/
example : ∃ s s', newQuadraticSequence (1 : ℝ) 2 1 true none = .ok s ∧ newQuadraticSequence (1 : ℝ) 2 2 true none = .ok s' ∧
    returnProbability (pulses (miscalibratedZ (fun _ => 1 / 2) s)) = 1 ∧
    returnProbability (pulses (miscalibratedZ (fun _ => 1 / 2) s')) = 0 := by
  obtain ⟨s, hs, -⟩ := (C43_well_formed (.quadratic 2 1) 1 true none).1
    ⟨by norm_num, show (1 : ℝ) ≤ 2 ∧ (1 : ℝ) ≤ 1 by norm_num⟩
  obtain ⟨s', hs', -⟩ := (C43_well_formed (.quadratic 2 2) 1 true none).1
    ⟨by norm_num, show (1 : ℝ) ≤ 2 ∧ (1 : ℝ) ≤ 2 by norm_num⟩
  have h2 : ⌊(2 : ℝ)⌋₊ = 2 := by norm_num
  have h1 : ⌊(1 : ℝ)⌋₊ = 1 := by norm_num
  refine ⟨s, s', hs, hs', ?_, ?_⟩
  · rw [C128_quadratic 1 2 1 none s hs, h1, if_neg (by decide)]
  · rw [C128_quadratic 1 2 2 none s' hs', h2, if_pos (by decide),
      show Real.pi * (1 / 2) * ((2 : ℕ) : ℝ) / 2 = Real.pi / 2 by push_cast; ring, Real.cos_pi_div_two]
    norm_num

/-- order 2: six sixths of the error -/
example : ∃ s, newXYConcatenatedSequence (1 : ℝ) 2 true none = .ok s ∧
    returnProbability (pulses (miscalibratedZ (fun _ => 1 / 2) s)) = 0 := by
  obtain ⟨s, hs, -⟩ := (C43_well_formed (.xyConcatenated 2) 1 true none).1
    ⟨by norm_num, show (1 : ℝ) ≤ 2 by norm_num⟩
  have h2 : ⌊(2 : ℝ)⌋₊ = 2 := by norm_num
  refine ⟨s, hs, ?_⟩
  rw [C128_xy 1 2 none s hs le_rfl, h2,
    show Real.pi * (1 / 2) * (4 ^ (2 - 1) + 2) / 6 = Real.pi / 2 by norm_num; ring, Real.cos_pi_div_two]
  norm_num

/-- the phase of a quadratic sequence: errors of different Z pulses -/
example : ∃ s, (Family.quadratic 1 1).call 1 false none = .ok s ∧ ∀ e : ℕ → ℝ,
    pulses (miscalibratedZ e s) = pulses s * pulseUnitary 0 0 (Real.pi * (e 0 - e 2)) := by
  have hv : Family.Valid (.quadratic 1 1) := ⟨le_refl _, le_refl _⟩
  refine ⟨_, Family.call_eq hv one_pos false none, fun e => ?_⟩
  rw [C128_phase (.quadratic 1 1) 1 none _ (Family.call_eq hv one_pos false none) e]
  rw [show finished 1 (Family.table (.quadratic 1 1) 1) false none =
    piSequence 1 (Family.table (.quadratic 1 1) 1) none from rfl, netErrorZ_plain]
  have h1 : ⌊(1 : ℝ)⌋₊ = 1 := by norm_num
  have : signedZ e (Family.table (.quadratic 1 1) 1) = e 0 - e 2 := by
    simp only [Family.table, h1, uhrigTimes, List.range'_succ, List.range'_zero, List.map_cons, List.map_nil,
      quadraticTable, onAxis, List.cons_append, List.nil_append, signedZ]
    ring
  rw [this]

end OpenControls
