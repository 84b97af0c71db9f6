import Verif.Proofs.PulseErrorsXY
import Verif.Props.Noise

/-!
# C126: XY-concatenated sequences with wrong rotation angles
-/

namespace OpenControls

open Spec RealInst

/-- **C126**, even orders: if all X pulses have the same relative error and all Y pulses have the same relative
error, the pulses together do exactly what exact pulses do. -/
theorem C126_even (T l : ℝ) (prePost : Bool) (name : Option String) (s : Sequence ℝ)
    (hs : newXYConcatenatedSequence T l prePost name = .ok s) (hl : Even ⌊l⌋₊) (εx εy : ℝ) :
    pulses (miscalibrated (axisErrors εx εy s) s) = pulses s := by
  have hs0 : Family.call (.xyConcatenated l) T prePost name = .ok s := hs
  obtain ⟨⟨hT, hv⟩, -⟩ := (C43_well_formed (.xyConcatenated l) T prePost name).ok hs0
  rw [Family.call_eq hv hT, Except.ok.injEq] at hs0
  have hn : ⌊l⌋₊ ≠ 0 := (Nat.floor_pos.mpr hv).ne'
  have hax : ∀ εx εy, axisProduct εx εy ((Family.table (.xyConcatenated l) T).map Prod.snd) = -1 := by
    intro εx εy
    rw [show Family.table (.xyConcatenated l) T = xyTable T ⌊l⌋₊ from rfl, xy_axes hT hn,
      built_even_axes _ _ hn (Nat.even_iff.mp hl)]
  subst hs0
  cases prePost with
  | false =>
    rw [show finished T (Family.table (.xyConcatenated l) T) false name =
      piSequence T (Family.table (.xyConcatenated l) T) name from rfl, axis_plain, pulses_table, hax,
      ← axisProduct_exact, hax]
  | true =>
    rw [show finished T (Family.table (.xyConcatenated l) T) true name =
      withPrePost (finalAngle (Family.table (.xyConcatenated l) T))
        (piSequence T (Family.table (.xyConcatenated l) T) name) from rfl, axis_prePost,
      pulses_withPrePost_eq, hax, ← axisProduct_exact, hax]

/-- **C126**, odd orders from the third on: what is left is the error of one Y pulse. -/
theorem C126_odd (T l : ℝ) (name : Option String) (s : Sequence ℝ)
    (hs : newXYConcatenatedSequence T l false name = .ok s) (hl : Odd ⌊l⌋₊) (h3 : 3 ≤ l) (εx εy : ℝ) :
    pulses (miscalibrated (axisErrors εx εy s) s) = pulses s * rotation (Real.pi * εy) (Real.pi / 2) := by
  have hs0 : Family.call (.xyConcatenated l) T false name = .ok s := hs
  obtain ⟨⟨hT, hv⟩, -⟩ := (C43_well_formed (.xyConcatenated l) T false name).ok hs0
  rw [Family.call_eq hv hT, Except.ok.injEq] at hs0
  have hn : ⌊l⌋₊ ≠ 0 := (Nat.floor_pos.mpr hv).ne'
  have hax : ∀ εx εy, axisProduct εx εy ((Family.table (.xyConcatenated l) T).map Prod.snd) =
      -1 * rotation ((1 + εy) * Real.pi) (Real.pi / 2) := by
    intro εx εy
    rw [show Family.table (.xyConcatenated l) T = xyTable T ⌊l⌋₊ from rfl, xy_axes hT hn,
      built_odd_axes _ _ (Nat.le_floor (by exact_mod_cast h3)) (Nat.odd_iff.mp hl)]
  subst hs0
  rw [show finished T (Family.table (.xyConcatenated l) T) false name =
    piSequence T (Family.table (.xyConcatenated l) T) name from rfl, axis_plain, pulses_table, hax,
    ← axisProduct_exact, hax, Matrix.mul_assoc, rotation_mul_same]
  congr 2
  ring

/-- **C126**, all orders from the second on, with pre and post rotations: the qubit returns with certainty. -/
theorem C126_returns (T l : ℝ) (name : Option String) (s : Sequence ℝ)
    (hs : newXYConcatenatedSequence T l true name = .ok s) (h2 : 2 ≤ l) (εx εy : ℝ) :
    returnProbability (pulses (miscalibrated (axisErrors εx εy s) s)) = 1 := by
  have hs0 : Family.call (.xyConcatenated l) T true name = .ok s := hs
  obtain ⟨⟨hT, hv⟩, -⟩ := (C43_well_formed (.xyConcatenated l) T true name).ok hs0
  rw [Family.call_eq hv hT, Except.ok.injEq] at hs0
  have hn : ⌊l⌋₊ ≠ 0 := (Nat.floor_pos.mpr hv).ne'
  have hn2 : 2 ≤ ⌊l⌋₊ := Nat.le_floor (by exact_mod_cast h2)
  have hax : ∀ εx εy, ∃ θ, axisProduct εx εy ((Family.table (.xyConcatenated l) T).map Prod.snd) =
      axisProduct 0 0 ((Family.table (.xyConcatenated l) T).map Prod.snd) *
        rotation θ (Real.pi / 2) := by
    intro εx εy
    rw [show Family.table (.xyConcatenated l) T = xyTable T ⌊l⌋₊ from rfl, xy_axes hT hn]
    rcases Nat.mod_two_eq_zero_or_one ⌊l⌋₊ with h | h
    · refine ⟨0, ?_⟩
      rw [built_even_axes _ _ hn h, built_even_axes _ _ hn h, rotation_zero, mul_one]
    · refine ⟨Real.pi * εy, ?_⟩
      rw [built_odd_axes _ _ (by omega) h, built_odd_axes _ _ (by omega) h, Matrix.mul_assoc,
        rotation_mul_same]
      congr 2
      ring
  obtain ⟨θ, hθ⟩ := hax εx εy
  have hp := pulses_withPrePost T (Family.table (.xyConcatenated l) T) name
  rw [pulses_withPrePost_eq] at hp
  subst hs0
  rw [show finished T (Family.table (.xyConcatenated l) T) true name =
    withPrePost (finalAngle (Family.table (.xyConcatenated l) T))
      (piSequence T (Family.table (.xyConcatenated l) T) name) from rfl, axis_prePost, hθ,
    axisProduct_exact, ← Matrix.mul_assoc]
  exact return_y hp

/-- **C126**, the first order: the error is of second order in the errors of the angles. -/
theorem C126_first (T l : ℝ) (name : Option String) (s : Sequence ℝ)
    (hs : newXYConcatenatedSequence T l true name = .ok s) (h2 : l < 2) (εx εy : ℝ) :
    returnProbability (pulses (miscalibrated (axisErrors εx εy s) s)) =
      1 - Real.sin (Real.pi * εx) ^ 2 * Real.sin (Real.pi * εy / 2) ^ 2 := by
  have hs0 : Family.call (.xyConcatenated l) T true name = .ok s := hs
  obtain ⟨⟨hT, hv⟩, -⟩ := (C43_well_formed (.xyConcatenated l) T true name).ok hs0
  rw [Family.call_eq hv hT, Except.ok.injEq] at hs0
  have hn : ⌊l⌋₊ = 1 := (Nat.floor_eq_iff (by linarith [show (1 : ℝ) ≤ l from hv])).mpr
    ⟨by exact_mod_cast hv, by norm_num; exact h2⟩
  have hax : (Family.table (.xyConcatenated l) T).map Prod.snd = [.x, .y, .x, .y] := by
    rw [show Family.table (.xyConcatenated l) T = xyTable T ⌊l⌋₊ from rfl, xy_axes hT (by omega), hn]
    rfl
  have hf : finalAngle (Family.table (.xyConcatenated l) T) = Real.pi := by
    have hc : ∀ a b, countAxes a b (Family.table (.xyConcatenated l) T) =
        List.countP (fun c => c = a ∨ c = b) [Axis.x, .y, .x, .y] := by
      intro a b
      rw [← hax, List.countP_map]
      rfl
    rw [finalAngle, hc, hc, if_pos (by decide)]
  subst hs0
  rw [show finished T (Family.table (.xyConcatenated l) T) true name =
    withPrePost (finalAngle (Family.table (.xyConcatenated l) T))
      (piSequence T (Family.table (.xyConcatenated l) T) name) from rfl, axis_prePost, hax, first_axes,
      pulseUnitary_resonant, pulseUnitary_resonant]
  simp only [cos_error, sin_error]
  rw [rotation_eq, rotation_eq, hf, Real.cos_pi, Real.sin_pi, Real.cos_zero, Real.sin_zero,
    show Real.pi / 2 / 2 = Real.pi / 4 by ring, Real.cos_pi_div_four, Real.sin_pi_div_four,
    show Real.sin (Real.pi * εx) = 2 * Real.sin (Real.pi * εx / 2) * Real.cos (Real.pi * εx / 2) by
      rw [← Real.sin_two_mul]; congr 1; ring]
  have hx := Real.cos_sq_add_sin_sq (Real.pi * εx / 2)
  have hy := Real.cos_sq_add_sin_sq (Real.pi * εy / 2)
  generalize Real.cos (Real.pi * εx / 2) = c at hx ⊢
  generalize Real.sin (Real.pi * εx / 2) = d at hx ⊢
  generalize Real.cos (Real.pi * εy / 2) = c' at hy ⊢
  generalize Real.sin (Real.pi * εy / 2) = d' at hy ⊢
  have h2 : Real.sqrt 2 ^ 2 = 2 := Real.sq_sqrt (by norm_num)
  generalize Real.sqrt 2 = q at h2 ⊢
  rw [returnProbability, su2_mul, su2_mul, ← Complex.normSq_eq_norm_sq]
  simp only [su2, Matrix.of_apply, Matrix.cons_val', Matrix.cons_val_zero, Matrix.cons_val_fin_one,
    Complex.normSq_mk]
  trans (q ^ 2 / 2) ^ 2 * ((2 * (d * d') ^ 2 - 1) ^ 2 + (2 * (d * d') * (d * c')) ^ 2)
  · ring
  · rw [h2]
    linear_combination 4 * d ^ 4 * d' ^ 2 * hy + 4 * d ^ 2 * d' ^ 2 * hx

/-! ### Non-vacuity -/

/-- pulses of the second order that are ten percent too long, where sixteen Carr-Purcell pulses would lose the
state -/
example : ∃ s, newXYConcatenatedSequence (1 : ℝ) 2 true none = .ok s ∧
    pulses (miscalibrated (axisErrors (1 / 10) (1 / 10) s) s) = pulses s ∧
    returnProbability (pulses (miscalibrated (axisErrors (1 / 10) (1 / 10) s) s)) = 1 := by
  obtain ⟨s, hs, -⟩ := (C43_well_formed (.xyConcatenated 2) 1 true none).1
    ⟨by norm_num, show (1 : ℝ) ≤ 2 by norm_num⟩
  have : ⌊(2 : ℝ)⌋₊ = 2 := by norm_num
  exact ⟨s, hs, C126_even 1 2 true none s hs (by rw [this]; decide) _ _,
    C126_returns 1 2 none s hs le_rfl _ _⟩

/-- an order of three -/
example : ∃ s, newXYConcatenatedSequence (1 : ℝ) 3 false none = .ok s ∧
    pulses (miscalibrated (axisErrors 1 (1 / 2) s) s) =
      pulses s * rotation (Real.pi * (1 / 2)) (Real.pi / 2) := by
  obtain ⟨s, hs, -⟩ := (C43_well_formed (.xyConcatenated 3) 1 false none).1
    ⟨by norm_num, show (1 : ℝ) ≤ 3 by norm_num⟩
  have : ⌊(3 : ℝ)⌋₊ = 3 := by norm_num
  exact ⟨s, hs, C126_odd 1 3 none s hs (by rw [this]; decide) le_rfl _ _⟩

/-- the first order with errors of one half -/
example : ∃ s, newXYConcatenatedSequence (1 : ℝ) 1 true none = .ok s ∧
    returnProbability (pulses (miscalibrated (axisErrors (1 / 2) (1 / 2) s) s)) = 1 / 2 := by
  obtain ⟨s, hs, -⟩ := (C43_well_formed (.xyConcatenated 1) 1 true none).1
    ⟨by norm_num, show (1 : ℝ) ≤ 1 by norm_num⟩
  refine ⟨s, hs, ?_⟩
  rw [C126_first 1 1 none s hs (by norm_num), show Real.pi * (1 / 2) = Real.pi / 2 by ring,
    show Real.pi / 2 / 2 = Real.pi / 4 by ring, Real.sin_pi_div_two, Real.sin_pi_div_four]
  rw [div_pow, Real.sq_sqrt (by norm_num)]
  norm_num

end OpenControls
