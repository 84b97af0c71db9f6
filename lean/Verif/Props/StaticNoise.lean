import Verif.Proofs.NoisePerturbation
import Verif.Props.Noise

/-!
# C111: how well the predefined sequences decouple from static noise of every direction
-/

namespace OpenControls

open Spec RealInst
open scoped Matrix.Norms.L2Operator

theorem Spec.Family.table_ready {family : Family} (hv : family.Valid) {T : ℝ} (hT : 0 < T) :
    (0 :: (family.table T).map (·.1)).Pairwise (· ≤ ·) ∧ ∀ p ∈ family.table T, p.1 ≤ T := by
  have hb := Family.table_bounds hv hT
  refine ⟨List.pairwise_cons.mpr ⟨fun t ht => ?_, ?_⟩, fun p hp => (hb p hp).2⟩
  · obtain ⟨p, hp, rfl⟩ := List.mem_map.mp ht
    exact (hb p hp).1.le
  · rw [List.pairwise_map]
    exact Family.table_sorted hv hT

/-- **C111.** The evolution under static noise `(x σx + y σy + z σz) / 2` of every predefined sequence (without pre and
post rotations) is, up to `(x² + y² + z²) T² / 8` in the operator norm, that of the pulses with the noise along each axis
weighted with the integral of the sensitivity to it. -/
theorem C111_first_order (family : Family) (T : ℝ) (name : Option String) (s : Sequence ℝ)
    (hs : family.call T false name = .ok s) (x y z : ℝ) :
    ‖underNoise (staticNoise x y z) s - pulses s * (1 - (Complex.I / 2) •
      (((x * ∫ t in 0..T, sensitivityAlong .x s t : ℝ) : ℂ) • σx + ((y * ∫ t in 0..T, sensitivityAlong .y s t : ℝ) : ℂ) • σy +
        ((z * ∫ t in 0..T, sensitivityAlong .z s t : ℝ) : ℂ) • σz))‖ ≤ (x ^ 2 + y ^ 2 + z ^ 2) * T ^ 2 / 8 := by
  obtain ⟨⟨hT, hv⟩, -⟩ := (C43_well_formed family T false name).ok hs
  rw [Family.call_eq hv hT] at hs
  injection hs with hs
  subst hs
  simp only [sensitivityAlong_finished]
  have e : finished T (family.table T) false name = piSequence T (family.table T) name := rfl
  obtain ⟨h1, h2⟩ := Family.table_ready hv hT
  have h := tableNoise_second x y z T 0 (family.table T) h1 hT.le h2
  have hsum : ∀ c, axisSum id c T 0 (family.table T) = ∫ t in 0..T, switching (axisFlips c (family.table T)) t := by
    intro c
    have := axisSum_integral hv hT c (F := id) (f := fun _ => 1) (fun x => hasDerivAt_id x) continuous_const
    simpa using this
  rw [hsum, hsum, hsum] at h
  rw [e, underNoise_table, pulses_table]
  have e2 : (T - 0) * strength x y z / 2 = T * strength x y z / 2 := by rw [sub_zero]
  rw [e2] at h
  have e3 : (T * strength x y z / 2) ^ 2 / 2 = (x ^ 2 + y ^ 2 + z ^ 2) * T ^ 2 / 8 := by
    rw [← strength_sq]; ring
  rw [e3] at h
  refine le_trans (le_of_eq ?_) h
  congr 3
  generalize (∫ t in 0..T, switching (axisFlips .x (family.table T)) t) = a
  generalize (∫ t in 0..T, switching (axisFlips .y (family.table T)) t) = b
  generalize (∫ t in 0..T, switching (axisFlips .z (family.table T)) t) = c
  rw [sub_eq_add_neg]
  congr 1
  rw [su2_eq]
  ext i j
  fin_cases i <;> fin_cases j <;> simp [σx, σy, σz, Complex.ext_iff] <;> ring_nf <;> simp

/-- **C111.** Quadratic sequences and XY-concatenated ones of order one or two remove static noise of every direction up to
the second order: the evolution differs from that of the pulses by at most `(x² + y² + z²) T² / 8`. -/
theorem C111_universal (family : Family) (hf : family.Universal) (T : ℝ) (prePost : Bool) (name : Option String)
    (s : Sequence ℝ) (hs : family.call T prePost name = .ok s) (x y z : ℝ) :
    ‖underNoise (staticNoise x y z) s - pulses s‖ ≤ (x ^ 2 + y ^ 2 + z ^ 2) * T ^ 2 / 8 := by
  have hdec := (C82_universal_iff family T prePost name s hs).mpr hf
  obtain ⟨⟨hT, hv⟩, -⟩ := (C43_well_formed family T prePost name).ok hs
  rw [Family.call_eq hv hT] at hs
  injection hs with hs
  subst hs
  have hzero := (decouples_iff family hv hT prePost name).mp hdec
  have hsum : ∀ c, axisSum id c T 0 (family.table T) = 0 := by
    intro c
    have := axisSum_integral hv hT c (F := id) (f := fun _ => 1) (fun x => hasDerivAt_id x) continuous_const
    rw [this]
    simpa using hzero c
  obtain ⟨h1, h2⟩ := Family.table_ready hv hT
  have h := tableNoise_second x y z T 0 (family.table T) h1 hT.le h2
  rw [hsum, hsum, hsum, mul_zero, mul_zero, mul_zero, su2_zero, add_zero, mul_one, sub_zero] at h
  have e3 : (T * strength x y z / 2) ^ 2 / 2 = (x ^ 2 + y ^ 2 + z ^ 2) * T ^ 2 / 8 := by
    rw [← strength_sq]; ring
  rw [e3] at h
  cases prePost with
  | false =>
    have e : finished T (family.table T) false name = piSequence T (family.table T) name := rfl
    rw [e, underNoise_table, pulses_table]
    exact h
  | true =>
    have e : finished T (family.table T) true name =
      withPrePost (finalAngle (family.table T)) (piSequence T (family.table T) name) := rfl
    rw [e, underNoise_withPrePost _ (staticNoise_refl _ _ _), pulses_withPrePost_eq, ← sub_mul, ← mul_sub]
    refine (norm_mul_le _ _).trans ((mul_le_of_le_one_right (norm_nonneg _) (pulse_norm _ _ _)).trans ?_)
    exact (norm_mul_le _ _).trans ((mul_le_of_le_one_left (norm_nonneg _) (pulse_norm _ _ _)).trans h)

/-- **C111**, with pre and post rotations: the qubit is found in its initial state with at least the probability
`1 - ((x² + y² + z²) T² / 8)²`. -/
theorem C111_return_probability (family : Family) (hf : family.Universal) (T : ℝ) (name : Option String)
    (s : Sequence ℝ) (hs : family.call T true name = .ok s) (x y z : ℝ) :
    1 - ((x ^ 2 + y ^ 2 + z ^ 2) * T ^ 2 / 8) ^ 2 ≤ returnProbability (underNoise (staticNoise x y z) s) := by
  have h := C111_universal family hf T true name s hs x y z
  rw [underNoise_noisy] at h ⊢
  refine (isSU2_noisy (isSU2_static x y z) _ _ _).returnProbability ?_ h
  obtain ⟨⟨hT, hv⟩, -⟩ := (C43_well_formed family T true name).ok hs
  rw [Family.call_eq hv hT] at hs
  injection hs with hs
  subst hs
  exact pulses_withPrePost T (family.table T) name

/-- a quadratic sequence of duration 1/10 with pre and post rotations under the noise `σx + 2 σy + 2 σz` -/
example : ∃ s, newQuadraticSequence (1 / 10 : ℝ) 3 2 true none = .ok s ∧
    1 - (36 / 800) ^ 2 ≤ returnProbability (underNoise (staticNoise 2 4 4) s) := by
  obtain ⟨s, hs, -⟩ := (C43_well_formed (.quadratic 3 2) (1 / 10) true none).1
    ⟨by norm_num, show (1 : ℝ) ≤ 3 ∧ (1 : ℝ) ≤ 2 by norm_num⟩
  refine ⟨s, hs, ?_⟩
  have := C111_return_probability (.quadratic 3 2) trivial (1 / 10) none s hs 2 4 4
  norm_num at this ⊢
  exact this

/-- the spin echo under noise along its own axis: the first-order term is there -/
example : ∃ s, newSpinEchoSequence (1 : ℝ) false none = .ok s ∧ ∫ t in (0 : ℝ)..1, sensitivityAlong .x s t = 1 := by
  obtain ⟨s, hs, -⟩ := (C43_well_formed .spinEcho 1 false none).1 ⟨by norm_num, trivial⟩
  refine ⟨s, hs, ?_⟩
  rw [Family.call_eq (family := .spinEcho) trivial one_pos] at hs
  injection hs with hs
  subst hs
  simp only [sensitivityAlong_finished]
  simp [Family.table, onAxis, axisFlips, switching]

end OpenControls
