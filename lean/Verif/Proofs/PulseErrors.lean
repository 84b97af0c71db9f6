import Verif.Spec.PulseErrors
import Verif.Proofs.NoiseFamilies
import Verif.Proofs.RobustnessTable

/-!
# Products of pulses with wrong angles
-/

namespace OpenControls

open Spec RealInst

/-- a pulse with relative error `ε` -/
noncomputable def errPulse (ε : ℝ) : Axis → M2
  | .x => rotation ((1 + ε) * Real.pi) 0
  | .y => rotation ((1 + ε) * Real.pi) (Real.pi / 2)
  | .z => axisPulse .z

/-- the product of the pulses of a table with errors -/
noncomputable def errProduct : (ℕ → ℝ) → List (ℝ × Axis) → M2
  | _, [] => 1
  | e, p :: r => errProduct (fun i => e (i + 1)) r * errPulse (e 0) p.2

/-- the signed sum of errors -/
noncomputable def signedError : (ℕ → ℝ) → List (ℝ × Axis) → ℝ
  | _, [] => 0
  | e, (_, .z) :: r => -signedError (fun i => e (i + 1)) r
  | e, (_, _) :: r => e 0 + signedError (fun i => e (i + 1)) r

theorem axisPulse_x : axisPulse .x = rotation Real.pi 0 := by
  rw [axisPulse, rotation_eq]; simp

theorem axisPulse_y : axisPulse .y = rotation Real.pi (Real.pi / 2) := by
  rw [axisPulse, rotation_eq]; simp

theorem errProduct_x (e : ℕ → ℝ) (t : List (ℝ × Axis)) (h : ∀ p ∈ t, p.2 ≠ .y) :
    errProduct e t = tableProduct t * rotation (Real.pi * signedError e t) 0 := by
  induction t generalizing e with
  | nil => simp [errProduct, tableProduct, signedError, rotation_zero]
  | cons p r ih =>
    have ih' := ih (fun i => e (i + 1)) fun q hq => h q (List.mem_cons_of_mem _ hq)
    obtain ⟨τ, a⟩ := p
    cases a with
    | x =>
      simp only [errProduct, tableProduct, signedError, errPulse, ih', axisPulse_x,
        Matrix.mul_assoc, rotation_mul_same]
      congr 2; ring
    | y => exact absurd rfl (h (τ, .y) List.mem_cons_self)
    | z =>
      simp only [errProduct, tableProduct, signedError, errPulse, ih', Matrix.mul_assoc]
      congr 1
      rw [rotation_eq, rotation_eq, axisPulse, su2_mul, su2_mul, su2_inj, mul_neg, neg_div,
        Real.cos_neg, Real.sin_neg]
      refine ⟨by ring, by ring, by ring, by ring⟩

theorem errProduct_y (e : ℕ → ℝ) (t : List (ℝ × Axis)) (h : ∀ p ∈ t, p.2 = .y) :
    errProduct e t = tableProduct t * rotation (Real.pi * signedError e t) (Real.pi / 2) := by
  induction t generalizing e with
  | nil => simp [errProduct, tableProduct, signedError, rotation_zero]
  | cons p r ih =>
    have ih' := ih (fun i => e (i + 1)) fun q hq => h q (List.mem_cons_of_mem _ hq)
    obtain ⟨τ, a⟩ := p
    obtain rfl : a = .y := h (τ, a) List.mem_cons_self
    simp only [errProduct, tableProduct, signedError, errPulse, ih', axisPulse_y,
      Matrix.mul_assoc, rotation_mul_same]
    congr 2; ring

theorem pulseUnitary_resonant (ω φ : ℝ) : pulseUnitary ω φ 0 = rotation ω φ := by
  rw [pulseUnitary_eq_segmentUnitary, segmentUnitary_resonant, mul_one]

theorem errProduct_pulses (e : ℕ → ℝ) (t : List (ℝ × Axis)) :
    pulseProduct ((t.map fun p => p.2.rabi).mapIdx fun i r =>
      if r = Real.pi then (1 + e i) * r else r) (t.map fun p => p.2.azimuthal)
      (t.map fun p => p.2.detuning) = errProduct e t := by
  have hpi := Real.pi_pos
  induction t generalizing e with
  | nil => rfl
  | cons p r ih =>
    rw [List.map_cons, List.mapIdx_cons, List.map_cons, List.map_cons, pulseProduct,
      ih (fun i => e (i + 1)), errProduct]
    congr 1
    obtain ⟨τ, a⟩ := p
    cases a with
    | x => simp [Axis.rabi, Axis.azimuthal, Axis.detuning, errPulse, pulseUnitary_resonant]
    | y => simp [Axis.rabi, Axis.azimuthal, Axis.detuning, errPulse, pulseUnitary_resonant]
    | z =>
      rw [errPulse, ← pulseUnitary_axis]
      simp [Axis.rabi, Axis.azimuthal, Axis.detuning, hpi.ne]

theorem pi_div_two_ne : Real.pi / 2 ≠ Real.pi := by
  have := Real.pi_pos
  intro h; linarith

theorem miscalibrated_pulses (e : ℕ → ℝ) (T : ℝ) (t : List (ℝ × Axis)) (name : Option String)
    (φ : ℝ) :
    pulses (miscalibrated e (withPrePost φ (piSequence T t name))) =
      pulseUnitary (Real.pi / 2) φ 0 * errProduct (fun i => e (i + 1)) t *
        pulseUnitary (Real.pi / 2) 0 0 := by
  unfold pulses miscalibrated withPrePost piSequence
  simp only [List.mapIdx_cons, List.mapIdx_append, List.mapIdx_nil, if_neg pi_div_two_ne,
    pulseProduct]
  rw [pulseProduct_append _ _ _ _ _ _ (by simp) (by simp), errProduct_pulses fun i => e (i + 1)]
  simp [pulseProduct]

/-! ### the signed sum -/

/-- one term of the signed sum -/
noncomputable def errTerm (e : ℕ → ℝ) (rabi detuning : List ℝ) (i : ℕ) : ℝ :=
  if rabi[i]? = some Real.pi then (-1) ^ (detuning.take i).count Real.pi * e i else 0

theorem errTerm_succ (e : ℕ → ℝ) (r d : ℝ) (rabi detuning : List ℝ) (i : ℕ) :
    errTerm e (r :: rabi) (d :: detuning) (i + 1) =
      (if d = Real.pi then -1 else 1) * errTerm (fun i => e (i + 1)) rabi detuning i := by
  unfold errTerm
  simp only [List.getElem?_cons_succ, List.take_succ_cons, List.count_cons]
  by_cases hd : d = Real.pi
  · subst hd
    split <;> simp [pow_succ]
  · split <;> simp [hd]

theorem sum_signed (e : ℕ → ℝ) (t : List (ℝ × Axis)) :
    ∑ i ∈ Finset.range (t.length + 1),
      errTerm e (t.map (fun p => p.2.rabi) ++ [Real.pi / 2])
        (t.map (fun p => p.2.detuning) ++ [0]) i = signedError e t := by
  have hpi := Real.pi_pos
  induction t generalizing e with
  | nil => simp [signedError, pi_div_two_ne, errTerm]
  | cons p r ih =>
    rw [List.length_cons, Finset.sum_range_succ']
    simp only [List.map_cons, List.cons_append, errTerm_succ]
    rw [← Finset.mul_sum, ih fun i => e (i + 1)]
    obtain ⟨τ, a⟩ := p
    cases a <;>
      simp [errTerm, Axis.rabi, Axis.detuning, signedError, hpi.ne, add_comm]

theorem netError_eq (e : ℕ → ℝ) (T : ℝ) (t : List (ℝ × Axis)) (name : Option String) (φ : ℝ) :
    netError e (withPrePost φ (piSequence T t name)) = signedError (fun i => e (i + 1)) t := by
  have hpi := Real.pi_pos
  have h : netError e (withPrePost φ (piSequence T t name)) =
      ∑ i ∈ Finset.range (t.length + 1 + 1),
        errTerm e (Real.pi / 2 :: (t.map (fun p => p.2.rabi) ++ [Real.pi / 2]))
          (0 :: (t.map (fun p => p.2.detuning) ++ [0])) i := by
    simp only [netError, withPrePost, piSequence, errTerm, List.length_cons, List.length_append,
      List.length_map, List.length_nil, zero_add]
    congr!
  rw [h, Finset.sum_range_succ']
  simp only [errTerm_succ, if_neg hpi.ne, one_mul]
  rw [sum_signed]
  simp [errTerm, pi_div_two_ne]

/-! ### return probabilities -/

theorem returnProbability_phase {V R : M2} (h : EqUpToPhase V 1 ∨ EqUpToPhase V σz) :
    returnProbability (V * R) = returnProbability R := by
  unfold returnProbability
  rcases h with ⟨z, hz, e⟩ | ⟨z, hz, e⟩
  · rw [e, smul_mul_assoc, one_mul, Matrix.smul_apply, smul_eq_mul, norm_mul, hz, one_mul]
  · rw [e, smul_mul_assoc, Matrix.smul_apply, smul_eq_mul, norm_mul, hz, one_mul]
    congr 2
    rw [Matrix.mul_apply, Fin.sum_univ_two]
    simp [σz]

theorem return_x {A : M2} {θ : ℝ}
    (h : EqUpToPhase (A * pulseUnitary (Real.pi / 2) 0 0) 1 ∨
      EqUpToPhase (A * pulseUnitary (Real.pi / 2) 0 0) σz) :
    returnProbability (A * rotation θ 0 * pulseUnitary (Real.pi / 2) 0 0) =
      Real.cos (θ / 2) ^ 2 := by
  have e : A * rotation θ 0 * pulseUnitary (Real.pi / 2) 0 0 =
      A * pulseUnitary (Real.pi / 2) 0 0 * rotation θ 0 := by
    rw [pulseUnitary_resonant, Matrix.mul_assoc, Matrix.mul_assoc, rotation_mul_same,
      rotation_mul_same, add_comm]
  rw [e, returnProbability_phase h, returnProbability, rotation_eq]
  generalize Real.cos (θ / 2) = c
  have : su2 c (Real.sin (θ / 2) * Real.cos 0) (Real.sin (θ / 2) * Real.sin 0) 0 0 0 = (c : ℂ) := by
    simp [su2, Complex.ext_iff]
  rw [this, Complex.norm_real, Real.norm_eq_abs, sq_abs]

theorem return_y {A : M2} {θ : ℝ}
    (h : EqUpToPhase (A * pulseUnitary (Real.pi / 2) 0 0) 1 ∨
      EqUpToPhase (A * pulseUnitary (Real.pi / 2) 0 0) σz) :
    returnProbability (A * rotation θ (Real.pi / 2) * pulseUnitary (Real.pi / 2) 0 0) = 1 := by
  have e : A * rotation θ (Real.pi / 2) * pulseUnitary (Real.pi / 2) 0 0 =
      A * pulseUnitary (Real.pi / 2) 0 0 * zrot (-θ) := by
    rw [Matrix.mul_assoc, Matrix.mul_assoc]
    congr 1
    rw [pulseUnitary_resonant, rotation_eq, rotation_eq, zrot, su2_mul, su2_mul, su2_inj, neg_div,
      Real.cos_neg, Real.sin_neg, Real.cos_pi_div_two, Real.sin_pi_div_two, Real.cos_zero,
      Real.sin_zero, show Real.pi / 2 / 2 = Real.pi / 4 by ring, Real.cos_pi_div_four,
      Real.sin_pi_div_four]
    refine ⟨by ring, by ring, by ring, by ring⟩
  rw [e, returnProbability_phase h, returnProbability, zrot]
  have q := Real.cos_sq_add_sin_sq (-θ / 2)
  rw [← Complex.normSq_eq_norm_sq]
  simp only [su2, Matrix.of_apply, Matrix.cons_val', Matrix.cons_val_zero, Matrix.cons_val_fin_one,
    Complex.normSq_mk]
  linarith

theorem table_no_y {family : Family} (h : family.PulsesAcrossState) (T : ℝ) :
    ∀ p ∈ family.table T, p.2 ≠ .y := by
  have hon : ∀ ts : List ℝ, ∀ p ∈ onAxis .x ts, p.2 ≠ .y := by
    intro ts p hp
    obtain ⟨t, -, rfl⟩ := List.mem_map.mp hp
    simp
  cases family with
  | ramsey => simp [Family.table]
  | spinEcho => simp [Family.table]
  | cpmg n => exact h.elim
  | uhrig n => exact h.elim
  | xyConcatenated l => exact h.elim
  | carrPurcell n => exact hon _
  | periodic n => exact hon _
  | walsh n => exact hon _
  | xConcatenated n => exact hon _
  | quadratic n m =>
    have hz : ∀ ts : List ℝ, ∀ p ∈ onAxis .z ts, p.2 ≠ .y := by
      intro ts p hp
      obtain ⟨t, -, rfl⟩ := List.mem_map.mp hp
      simp
    have : ∀ (l : List ℝ) (a : ℝ), ∀ p ∈ quadraticTable ⌊n⌋₊ T a l, p.2 ≠ .y := by
      intro l
      induction l with
      | nil => intro a; exact hz _
      | cons b r ih =>
        intro a p hp
        rw [quadraticTable, List.mem_append, List.mem_cons] at hp
        rcases hp with hp | rfl | hp
        · exact hz _ p hp
        · simp
        · exact ih b p hp
    exact this _ _

theorem table_all_y {family : Family} (h : family.PulsesAlongState) (T : ℝ) :
    ∀ p ∈ family.table T, p.2 = .y := by
  have hon : ∀ ts : List ℝ, ∀ p ∈ onAxis .y ts, p.2 = .y := by
    intro ts p hp
    obtain ⟨t, -, rfl⟩ := List.mem_map.mp hp
    rfl
  cases family with
  | cpmg n => exact hon _
  | uhrig n => exact hon _
  | _ => exact h.elim

end OpenControls
