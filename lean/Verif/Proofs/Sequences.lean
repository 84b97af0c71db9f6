import Verif.Proofs.Basic
import Verif.Proofs.Rotation
import Verif.Spec.Sequences
import Verif.Model.SequencePredefined
import Mathlib.Analysis.Real.Pi.Bounds

/-!
# Sequences of π-pulses, with and without pre and post rotations
-/

namespace OpenControls

open Spec RealInst Complex

/-! ## Phases -/

theorem Spec.EqUpToPhase.refl (A : M2) : EqUpToPhase A A := ⟨1, by simp, by simp⟩

theorem Spec.EqUpToPhase.trans {A B C : M2} (h : EqUpToPhase A B) (h' : EqUpToPhase B C) :
    EqUpToPhase A C := by
  obtain ⟨z, hz, rfl⟩ := h
  obtain ⟨w, hw, rfl⟩ := h'
  exact ⟨z * w, by simp [hz, hw], by rw [smul_smul]⟩

theorem Spec.EqUpToPhase.mul {A B C D : M2} (h : EqUpToPhase A B) (h' : EqUpToPhase C D) :
    EqUpToPhase (A * C) (B * D) := by
  obtain ⟨z, hz, rfl⟩ := h
  obtain ⟨w, hw, rfl⟩ := h'
  exact ⟨z * w, by simp [hz, hw], by rw [smul_mul_smul_comm]⟩

theorem Spec.EqUpToPhase.symm {A B : M2} (h : EqUpToPhase A B) : EqUpToPhase B A := by
  obtain ⟨z, hz, rfl⟩ := h
  have : z ≠ 0 := by rintro rfl; simp at hz
  exact ⟨z⁻¹, by simp [hz], by rw [smul_smul, inv_mul_cancel₀ this, one_smul]⟩

theorem σx_sq : σx * σx = 1 := by
  ext i j; fin_cases i <;> fin_cases j <;> simp [σx]
theorem σz_sq : σz * σz = 1 := by
  ext i j; fin_cases i <;> fin_cases j <;> simp [σz]
theorem σzx : σz * σx = (-1 : ℂ) • (σx * σz) := by
  ext i j; fin_cases i <;> fin_cases j <;> simp [σz, σx]
theorem σy_eq : σy = I • (σx * σz) := by
  ext i j; fin_cases i <;> fin_cases j <;> simp [σz, σx, σy]

theorem σz_pow_x (b : ℕ) : EqUpToPhase (σz ^ b * σx) (σx * σz ^ b) := by
  induction b with
  | zero => simpa using EqUpToPhase.refl _
  | succ b ih =>
    have h : σz ^ (b + 1) * σx = (-1 : ℂ) • ((σz ^ b * σx) * σz) := by
      rw [pow_succ, mul_assoc, σzx, mul_smul_comm, mul_assoc]
    rw [h, pow_succ, ← mul_assoc]
    exact EqUpToPhase.trans ⟨-1, by simp, rfl⟩ (ih.mul (EqUpToPhase.refl _))

theorem pulse_x : pulseUnitary Real.pi 0 0 = (-I) • σx := by
  rw [pulseUnitary_eq_segmentUnitary, segmentUnitary_resonant, rotation_eq, su2_eq]
  simp

theorem pulse_y : pulseUnitary Real.pi (Real.pi / 2) 0 = (-I) • σy := by
  rw [pulseUnitary_eq_segmentUnitary, segmentUnitary_resonant, rotation_eq, su2_eq]
  simp

theorem pulse_z : pulseUnitary 0 0 Real.pi = (-I) • σz := by
  rw [pulseUnitary_eq_segmentUnitary, segmentUnitary_eq 0 0 Real.pi 1 Real.pi (by ring)
    Real.pi_ne_zero, su2_eq]
  simp [Real.pi_ne_zero]

/-- number of pulses about one of two axes -/
def countAxes (a b : Axis) (table : List (ℝ × Axis)) : ℕ :=
  table.countP fun p => p.2 = a ∨ p.2 = b

/-- The product of π-pulses is `X^a Z^b` up to a phase. -/
theorem pulses_piSequence (T : ℝ) (table : List (ℝ × Axis)) (name : Option String) :
    EqUpToPhase (pulses (piSequence T table name))
      (σx ^ countAxes .x .y table * σz ^ countAxes .y .z table) := by
  unfold pulses piSequence
  induction table with
  | nil => simpa [pulseProduct, countAxes] using EqUpToPhase.refl _
  | cons p table ih =>
    obtain ⟨t, a⟩ := p
    simp only [List.map_cons, pulseProduct] at ih ⊢
    have hI : ‖-I‖ = 1 := by simp
    cases a with
    | x =>
      simp only [Axis.rabi, Axis.azimuthal, Axis.detuning, pulse_x, countAxes] at ih ⊢
      refine (ih.mul (⟨-I, hI, rfl⟩ : EqUpToPhase _ σx)).trans ?_
      simp only [List.countP_cons]
      simp only [reduceCtorEq, or_false, or_self, decide_true, decide_false, if_true,
        Bool.false_eq_true, if_false, add_zero]
      rw [mul_assoc, pow_succ, mul_assoc]
      exact (EqUpToPhase.refl _).mul (σz_pow_x _)
    | y =>
      simp only [Axis.rabi, Axis.azimuthal, Axis.detuning, pulse_y, countAxes] at ih ⊢
      refine (ih.mul (EqUpToPhase.trans ⟨-I, hI, rfl⟩ ⟨I, by simp, σy_eq⟩ :
        EqUpToPhase _ (σx * σz))).trans ?_
      simp only [List.countP_cons]
      simp only [reduceCtorEq, or_true, true_or, decide_true, if_true]
      have e : ∀ a b : ℕ, σx ^ (a + 1) * σz ^ (b + 1) = σx ^ a * (σx * σz ^ b * σz) := fun a b => by
        simp only [pow_succ, mul_assoc]
      rw [mul_assoc, ← mul_assoc _ σx, e]
      exact (EqUpToPhase.refl _).mul ((σz_pow_x _).mul (EqUpToPhase.refl _))
    | z =>
      simp only [Axis.rabi, Axis.azimuthal, Axis.detuning, pulse_z, countAxes] at ih ⊢
      refine (ih.mul (⟨-I, hI, rfl⟩ : EqUpToPhase _ σz)).trans ?_
      simp only [List.countP_cons]
      simp only [reduceCtorEq, or_true, or_self, decide_true, decide_false, if_true,
        Bool.false_eq_true, if_false, add_zero]
      rw [mul_assoc, ← pow_succ]
      exact EqUpToPhase.refl _

theorem pulseProduct_append (r a d r' a' d' : List ℝ) (h : a.length = r.length)
    (h' : d.length = r.length) :
    pulseProduct (r ++ r') (a ++ a') (d ++ d') = pulseProduct r' a' d' * pulseProduct r a d := by
  induction r generalizing a d with
  | nil =>
    rw [List.length_nil, List.length_eq_zero_iff] at h h'
    subst h h'
    simp [pulseProduct]
  | cons x r ih =>
    cases a with
    | nil => simp at h
    | cons y a =>
      cases d with
      | nil => simp at h'
      | cons z d =>
        simp only [List.length_cons, add_left_inj] at h h'
        simp only [List.cons_append, pulseProduct, ih a d h h', mul_assoc]

theorem pow_parity {A : M2} (h : A * A = 1) (n : ℕ) : A ^ n = if n % 2 = 0 then 1 else A := by
  induction n with
  | zero => simp
  | succ n ih =>
    rw [pow_succ, ih]
    rcases Nat.mod_two_eq_zero_or_one n with h0 | h0 <;> simp [h0, Nat.add_mod, h]

/-- the azimuthal angle of the final π/2 rotation -/
noncomputable def finalAngle (table : List (ℝ × Axis)) : ℝ :=
  if (countAxes .x .y table % 2 = 0 ↔ countAxes .y .z table % 2 = 0) then Real.pi else 0

/-- With pre and post rotations all pulses together are the identity or Z. -/
theorem pulses_withPrePost (T : ℝ) (table : List (ℝ × Axis)) (name : Option String) :
    EqUpToPhase (pulses (withPrePost (finalAngle table) (piSequence T table name))) 1 ∨
    EqUpToPhase (pulses (withPrePost (finalAngle table) (piSequence T table name))) σz := by
  have hP := pulses_piSequence T table name
  have e : pulses (withPrePost (finalAngle table) (piSequence T table name)) =
      pulseUnitary (Real.pi / 2) (finalAngle table) 0 * pulses (piSequence T table name) *
        pulseUnitary (Real.pi / 2) 0 0 := by
    unfold pulses withPrePost
    simp only [pulseProduct]
    rw [pulseProduct_append _ _ _ _ _ _ (by simp [piSequence]) (by simp [piSequence])]
    simp [pulseProduct]
  have hQ : EqUpToPhase (pulses (withPrePost (finalAngle table) (piSequence T table name)))
      (pulseUnitary (Real.pi / 2) (finalAngle table) 0 *
        (σx ^ countAxes .x .y table * σz ^ countAxes .y .z table) *
        pulseUnitary (Real.pi / 2) 0 0) := by
    rw [e]
    exact ((EqUpToPhase.refl _).mul hP).mul (EqUpToPhase.refl _)
  rw [pow_parity σx_sq, pow_parity σz_sq] at hQ
  have hr : ∀ φ, pulseUnitary (Real.pi / 2) φ 0 = rotation (Real.pi / 2) φ := fun φ => by
    rw [pulseUnitary_eq_segmentUnitary, segmentUnitary_resonant, mul_one]
  have hhalf : rotation (Real.pi / 2) 0 * rotation (Real.pi / 2) 0 = (-I) • σx := by
    rw [rotation_mul_same, ← pulse_x, pulseUnitary_eq_segmentUnitary, segmentUnitary_resonant]
    congr 1; ring
  have hinv : rotation (Real.pi / 2) Real.pi * rotation (Real.pi / 2) 0 = 1 := by
    have := rotation_axis_add_pi (Real.pi / 2) 0
    rw [zero_add] at this
    rw [this, rotation_mul_same, neg_add_cancel, rotation_zero]
  have hx : σx * rotation (Real.pi / 2) 0 = rotation (Real.pi / 2) 0 * σx := by
    have h1 : σx = I • (rotation (Real.pi / 2) 0 * rotation (Real.pi / 2) 0) := by
      rw [hhalf, smul_smul]; simp
    rw [h1]; simp [mul_assoc]
  have hz : rotation (Real.pi / 2) 0 * σz = σz * rotation (Real.pi / 2) Real.pi := by
    have h1 : σz = I • su2 0 0 0 1 := by
      rw [su2_eq]; simp [smul_smul]
    rw [h1, rotation_eq, rotation_eq, mul_smul_comm, smul_mul_assoc, su2_mul, su2_mul]
    congr 1
    rw [su2_inj]; simp
  simp only [hr] at hQ
  unfold finalAngle at hQ ⊢
  by_cases ha : countAxes .x .y table % 2 = 0 <;> by_cases hb : countAxes .y .z table % 2 = 0 <;>
    simp only [ha, hb, if_true, if_false, one_mul, mul_one, iff_true, true_iff] at hQ ⊢
  · left; simpa [hinv] using hQ
  · right
    rw [hz, mul_assoc, hinv] at hQ
    simpa using hQ
  · left
    rw [← hx, mul_assoc, hhalf, mul_smul_comm, σx_sq] at hQ
    exact hQ.trans ⟨-I, by simp, by simp⟩
  · right
    have h2 : rotation (Real.pi / 2) Real.pi * (σx * σz) * rotation (Real.pi / 2) 0 =
        (-1 : ℂ) • (σz * ((-I) • (σx * σx))) := by
      have h3 : rotation (Real.pi / 2) Real.pi * σx = σx * rotation (Real.pi / 2) Real.pi := by
        have : rotation (Real.pi / 2) Real.pi * (σx * rotation (Real.pi / 2) 0) *
            rotation (Real.pi / 2) Real.pi = rotation (Real.pi / 2) Real.pi *
            (rotation (Real.pi / 2) 0 * σx) * rotation (Real.pi / 2) Real.pi := by rw [hx]
        have hinv' : rotation (Real.pi / 2) 0 * rotation (Real.pi / 2) Real.pi = 1 :=
          mul_eq_one_comm.mp hinv
        rw [mul_assoc, mul_assoc, mul_assoc, hinv', mul_one, ← mul_assoc,
          ← mul_assoc (rotation (Real.pi / 2) Real.pi) (rotation (Real.pi / 2) 0), hinv,
          one_mul] at this
        exact this
      have h4 : σz * rotation (Real.pi / 2) 0 = rotation (Real.pi / 2) Real.pi * σz := by
        have h1 : σz = I • su2 0 0 0 1 := by
          rw [su2_eq]; simp [smul_smul]
        rw [h1, rotation_eq, rotation_eq, mul_smul_comm, smul_mul_assoc, su2_mul, su2_mul]
        congr 1
        rw [su2_inj]; simp
      calc rotation (Real.pi / 2) Real.pi * (σx * σz) * rotation (Real.pi / 2) 0
          = σx * (rotation (Real.pi / 2) Real.pi * (σz * rotation (Real.pi / 2) 0)) := by
            rw [← mul_assoc, h3]; simp only [mul_assoc]
        _ = σx * ((rotation (Real.pi / 2) Real.pi * rotation (Real.pi / 2) Real.pi) * σz) := by
            rw [h4]; simp only [mul_assoc]
        _ = σx * (I • σx * σz) := by
            congr 2
            have h5 : rotation (Real.pi / 2) Real.pi * rotation (Real.pi / 2) Real.pi =
                rotation (-Real.pi) 0 := by
              rw [rotation_mul_same, add_halves]
              have := rotation_axis_add_pi Real.pi 0
              rwa [zero_add] at this
            rw [h5, rotation_eq, su2_eq]
            simp [neg_div]
        _ = (-1 : ℂ) • (σz * ((-I) • (σx * σx))) := by
            rw [smul_mul_assoc, mul_smul_comm, ← mul_assoc, σx_sq]; simp
    rw [h2, σx_sq] at hQ
    exact hQ.trans ⟨I, by simp, by simp⟩

/-! ## The common tail of the constructors -/

theorem isClose_pi_zero : ¬ (Py.isClose Real.pi 0 = true) := by
  rw [isClose_zero_iff, abs_of_pos Real.pi_pos]
  have := Real.pi_gt_three; norm_num; linarith

theorem isClose_half_pi_zero : ¬ (Py.isClose (Real.pi / 2) 0 = true) := by
  rw [isClose_zero_iff, abs_of_pos Real.pi_div_two_pos]
  have := Real.pi_gt_three; norm_num; linarith

theorem isClose_zero_pi : ¬ (Py.isClose 0 Real.pi = true) := by
  rw [isClose_iff, zero_sub, abs_neg, abs_of_pos Real.pi_pos]
  have := Real.pi_gt_three; norm_num; linarith

theorem isClose_zero_half_pi : ¬ (Py.isClose 0 (Real.pi / 2) = true) := by
  rw [isClose_iff, zero_sub, abs_neg, abs_of_pos Real.pi_div_two_pos]
  have := Real.pi_gt_three; norm_num; linarith

/-- the model's record of pulses for a table -/
noncomputable def tablePulses (table : List (ℝ × Axis)) : Pulses ℝ where
  offsets := table.map fun p => p.1
  rabiRotations := table.map fun p => p.2.rabi
  azimuthalAngles := table.map fun p => p.2.azimuthal
  detuningRotations := table.map fun p => p.2.detuning

theorem countPulses_table (p q r : ℝ → Bool) (table : List (ℝ × Axis)) :
    countPulses p q r (table.map fun p => p.2.rabi) (table.map fun p => p.2.azimuthal)
      (table.map fun p => p.2.detuning) =
      table.countP fun t => p t.2.rabi && q t.2.azimuthal && r t.2.detuning := by
  induction table with
  | nil => rfl
  | cons a t ih => simp only [List.map_cons, countPulses, ih, List.countP_cons]; ring

theorem countAxis_sum (table : List (ℝ × Axis)) :
    table.countP (fun p => p.2 = .x) + table.countP (fun p => p.2 = .y) +
      table.countP (fun p => p.2 = .z) = table.length ∧
    countAxes .x .y table = table.countP (fun p => p.2 = .x) + table.countP (fun p => p.2 = .y) ∧
    countAxes .y .z table = table.countP (fun p => p.2 = .y) + table.countP (fun p => p.2 = .z) := by
  unfold countAxes
  induction table with
  | nil => simp
  | cons a t ih =>
    obtain ⟨h1, h2, h3⟩ := ih
    obtain ⟨τ, a⟩ := a
    simp only [List.countP_cons, List.length_cons]
    cases a <;> simp only [reduceCtorEq, or_true, or_false, or_self, decide_true,
      decide_false, if_true, Bool.false_eq_true, if_false] <;> omega

theorem addPrePost_table (T : ℝ) (table : List (ℝ × Axis)) :
    addPrePostRotations T (tablePulses table) = .ok {
      offsets := 0 :: (table.map (fun p => p.1) ++ [T])
      rabiRotations := Real.pi / 2 :: (table.map (fun p => p.2.rabi) ++ [Real.pi / 2])
      azimuthalAngles := 0 :: (table.map (fun p => p.2.azimuthal) ++ [finalAngle table])
      detuningRotations := 0 :: (table.map (fun p => p.2.detuning) ++ [0]) } := by
  have h00 : Py.isClose (0 : ℝ) 0 = true := isClose_self 0
  have hpp : Py.isClose Real.pi Real.pi = true := isClose_self _
  have hhh : Py.isClose (Real.pi / 2) (Real.pi / 2) = true := isClose_self _
  have hp0 := isClose_pi_zero
  have h0p := isClose_zero_pi
  have h0h := isClose_zero_half_pi
  have hh0 := isClose_half_pi_zero
  obtain ⟨h1, h2, h3⟩ := countAxis_sum table
  have hx : table.countP (fun t => Py.isClose t.2.rabi Real.pi && Py.isClose t.2.azimuthal 0 &&
      Py.isClose t.2.detuning 0) = table.countP (fun p => p.2 = .x) := by
    apply List.countP_congr
    rintro ⟨t, a⟩ -
    cases a <;> simp [Axis.rabi, Axis.azimuthal, Axis.detuning, *]
  have hy : table.countP (fun t => Py.isClose t.2.rabi Real.pi &&
      Py.isClose t.2.azimuthal (Real.pi / 2) && Py.isClose t.2.detuning 0) =
      table.countP (fun p => p.2 = .y) := by
    apply List.countP_congr
    rintro ⟨t, a⟩ -
    cases a <;> simp [Axis.rabi, Axis.azimuthal, Axis.detuning, *]
  have hz : table.countP (fun t => Py.isClose t.2.rabi 0 && Py.isClose t.2.azimuthal 0 &&
      Py.isClose t.2.detuning Real.pi) = table.countP (fun p => p.2 = .z) := by
    apply List.countP_congr
    rintro ⟨t, a⟩ -
    cases a <;> simp [Axis.rabi, Axis.azimuthal, Axis.detuning, *]
  unfold addPrePostRotations tablePulses
  simp only [countPulses_table, pi_eq, lit_eq, Rat.cast_zero, Rat.cast_ofNat, hx, hy, hz,
    checkArguments_bind]
  rw [if_pos (by simp; omega)]
  unfold finalAngle
  rw [h2, h3]
  simp only [List.cons_append, List.nil_append]
  rcases Nat.mod_two_eq_zero_or_one
    (table.countP (fun p => p.2 = .x) + table.countP (fun p => p.2 = .y)) with ha | ha <;>
  rcases Nat.mod_two_eq_zero_or_one
    (table.countP (fun p => p.2 = .y) + table.countP (fun p => p.2 = .z)) with hb | hb <;>
  simp [ha, hb] <;> rfl

/-- The common tail of the constructors, on a table of π-pulses inside `[0, T]`. -/
theorem finishSequence_table {T : ℝ} (hT : 0 < T) (table : List (ℝ × Axis))
    (h : ∀ p ∈ table, 0 ≤ p.1 ∧ p.1 ≤ T) (prePost : Bool) (name : Option String) :
    ∃ s, finishSequence T prePost name (tablePulses table) = .ok s ∧
      Realises T table prePost name s := by
  unfold finishSequence Realises
  cases prePost with
  | false =>
    simp only [Bool.false_eq_true, if_false, except_pure_bind]
    refine ⟨_, ?_, rfl⟩
    rw [Sequence.new_eq, if_pos (by simpa using hT), if_pos, if_pos, if_pos, if_pos]
    · rfl
    all_goals simp [tablePulses]
    intro a b hab
    exact h (a, b) hab
  | true =>
    simp only [if_true]
    rw [addPrePost_table, except_ok_bind]
    refine ⟨withPrePost (finalAngle table) (piSequence T table name), ?_, ?_,
      pulses_withPrePost T table name⟩
    · rw [Sequence.new_eq, if_pos (by simpa using hT), if_pos, if_pos, if_pos, if_pos]
      · rfl
      all_goals simp
      refine ⟨hT.le, ?_, hT.le⟩
      intro a b hab
      exact h (a, b) hab
    · unfold finalAngle
      split
      · exact .inr rfl
      · exact .inl rfl

theorem tablePulses_onAxis_x (times : List ℝ) :
    tablePulses (onAxis .x times) = uniformPulses times (PyFloat.lit 0) := by
  simp [tablePulses, onAxis, uniformPulses, Function.comp_def, Axis.rabi, Axis.azimuthal,
    Axis.detuning]

theorem tablePulses_onAxis_y (times : List ℝ) :
    tablePulses (onAxis .y times) = uniformPulses times (PyFloat.pi / PyFloat.lit 2) := by
  simp [tablePulses, onAxis, uniformPulses, Function.comp_def, Axis.rabi, Axis.azimuthal,
    Axis.detuning]

theorem nearValue_iff (a b : ℝ) : Py.isClose a b = true ↔ NearValue a b := by
  rw [isClose_iff, NearValue]; norm_num

/-- At most one of the three kinds of π-pulse matches. -/
theorem near_exclusive (r a d : ℝ) :
    ((if Py.isClose r Real.pi && Py.isClose a 0 && Py.isClose d 0 then 1 else 0) +
    (if Py.isClose r Real.pi && Py.isClose a (Real.pi / 2) && Py.isClose d 0 then 1 else 0) +
    (if Py.isClose r 0 && Py.isClose a 0 && Py.isClose d Real.pi then 1 else 0) : ℕ) =
    if Py.isClose r Real.pi && Py.isClose a 0 && Py.isClose d 0 ||
      Py.isClose r Real.pi && Py.isClose a (Real.pi / 2) && Py.isClose d 0 ||
      Py.isClose r 0 && Py.isClose a 0 && Py.isClose d Real.pi then 1 else 0 := by
  have hpi := Real.pi_gt_three
  have h1 : ¬ (Py.isClose a 0 = true ∧ Py.isClose a (Real.pi / 2) = true) := by
    rintro ⟨h, h'⟩
    rw [isClose_zero_iff] at h
    rw [isClose_iff, abs_of_pos Real.pi_div_two_pos] at h'
    have e1 := abs_le.mp h
    have e2 := abs_le.mp h'
    have := Real.pi_lt_d4
    norm_num at e1 e2; linarith
  have h2 : ¬ (Py.isClose r 0 = true ∧ Py.isClose r Real.pi = true) := by
    rintro ⟨h, h'⟩
    rw [isClose_zero_iff] at h
    rw [isClose_iff, abs_of_pos Real.pi_pos] at h'
    have e1 := abs_le.mp h
    have e2 := abs_le.mp h'
    have := Real.pi_lt_d4
    norm_num at e1 e2; linarith
  revert h1 h2
  generalize Py.isClose a 0 = a0
  generalize Py.isClose a (Real.pi / 2) = ah
  generalize Py.isClose r 0 = r0
  generalize Py.isClose r Real.pi = rp
  generalize Py.isClose d 0 = d0
  generalize Py.isClose d Real.pi = dp
  revert a0 ah r0 rp d0 dp
  decide

theorem nearPiPulse_iff (r a d : ℝ) :
    (Py.isClose r Real.pi && Py.isClose a 0 && Py.isClose d 0 ||
      Py.isClose r Real.pi && Py.isClose a (Real.pi / 2) && Py.isClose d 0 ||
      Py.isClose r 0 && Py.isClose a 0 && Py.isClose d Real.pi) = true ↔ NearPiPulse r a d := by
  simp only [Bool.or_eq_true, Bool.and_eq_true, nearValue_iff]
  constructor
  · rintro ((⟨⟨h1, h2⟩, h3⟩ | ⟨⟨h1, h2⟩, h3⟩) | ⟨⟨h1, h2⟩, h3⟩)
    · exact ⟨.x, h1, h2, h3⟩
    · exact ⟨.y, h1, h2, h3⟩
    · exact ⟨.z, h1, h2, h3⟩
  · rintro ⟨a, h1, h2, h3⟩
    cases a
    · exact .inl (.inl ⟨⟨h1, h2⟩, h3⟩)
    · exact .inl (.inr ⟨⟨h1, h2⟩, h3⟩)
    · exact .inr ⟨⟨h1, h2⟩, h3⟩

theorem countPulses_le (rs as ds : List ℝ) (ha : as.length = rs.length)
    (hd : ds.length = rs.length) :
    countPulses (fun v => Py.isClose v Real.pi) (fun v => Py.isClose v 0)
      (fun v => Py.isClose v 0) rs as ds +
    countPulses (fun v => Py.isClose v Real.pi) (fun v => Py.isClose v (Real.pi / 2))
      (fun v => Py.isClose v 0) rs as ds +
    countPulses (fun v => Py.isClose v 0) (fun v => Py.isClose v 0)
      (fun v => Py.isClose v Real.pi) rs as ds ≤ rs.length ∧
    (countPulses (fun v => Py.isClose v Real.pi) (fun v => Py.isClose v 0)
      (fun v => Py.isClose v 0) rs as ds +
    countPulses (fun v => Py.isClose v Real.pi) (fun v => Py.isClose v (Real.pi / 2))
      (fun v => Py.isClose v 0) rs as ds +
    countPulses (fun v => Py.isClose v 0) (fun v => Py.isClose v 0)
      (fun v => Py.isClose v Real.pi) rs as ds = rs.length ↔
    ∀ (i : ℕ) (r a d : ℝ), rs[i]? = some r → as[i]? = some a → ds[i]? = some d →
      NearPiPulse r a d) := by
  induction rs generalizing as ds with
  | nil => simp [countPulses]
  | cons r rs ih =>
    cases as with
    | nil => simp at ha
    | cons a as =>
      cases ds with
      | nil => simp at hd
      | cons d ds =>
        simp only [List.length_cons, add_left_inj] at ha hd
        obtain ⟨h1, h2⟩ := ih as ds ha hd
        have key := near_exclusive r a d
        have hiff := nearPiPulse_iff r a d
        simp only [countPulses, List.length_cons]
        have hall : (∀ (i : ℕ) (r' a' d' : ℝ), (r :: rs)[i]? = some r' → (a :: as)[i]? = some a' →
            (d :: ds)[i]? = some d' → NearPiPulse r' a' d') ↔ NearPiPulse r a d ∧
            ∀ (i : ℕ) (r a d : ℝ), rs[i]? = some r → as[i]? = some a → ds[i]? = some d →
            NearPiPulse r a d := by
          constructor
          · intro h
            exact ⟨h 0 r a d (by simp) (by simp) (by simp), fun i r' a' d' hr ha hd =>
              h (i + 1) r' a' d' (by simpa using hr) (by simpa using ha) (by simpa using hd)⟩
          · rintro ⟨h0, h⟩ i r' a' d' hr ha hd
            cases i with
            | zero => simp at hr ha hd; subst hr ha hd; exact h0
            | succ i => exact h i r' a' d' (by simpa using hr) (by simpa using ha) (by simpa using hd)
        rw [hall, ← h2, ← hiff]
        generalize (Py.isClose r Real.pi && Py.isClose a 0 && Py.isClose d 0) = b1 at key ⊢
        generalize (Py.isClose r Real.pi && Py.isClose a (Real.pi / 2) && Py.isClose d 0) = b2
          at key ⊢
        generalize (Py.isClose r 0 && Py.isClose a 0 && Py.isClose d Real.pi) = b3 at key ⊢
        cases hb : (b1 || b2 || b3)
        · rw [hb] at key
          simp only [Bool.false_eq_true, if_false] at key
          simp only [Bool.false_eq_true, false_and, iff_false]
          omega
        · rw [hb] at key
          simp only [if_true] at key
          simp only [true_and]
          omega

/-! ## Composing outcomes -/

theorem Spec.Returns.check {β : Type} {call : Except PyErr β} {P Q : Prop} {R : β → Prop} {b : Bool}
    {description : String} (hb : b = true ↔ Q) (h : Q → Returns call P R) :
    Returns (checkArguments b description >>= fun _ => call) (Q ∧ P) R := by
  rw [checkArguments_bind]
  by_cases hq : Q
  · rw [if_pos (hb.mpr hq)]
    exact ⟨fun hp => (h hq).1 hp.2, fun hp => (h hq).2 fun hp' => hp ⟨hq, hp'⟩⟩
  · rw [if_neg fun h => hq (hb.mp h)]
    exact ⟨fun hp => absurd hp.1 hq, fun _ => ⟨_, rfl⟩⟩

theorem Spec.Returns.last {β : Type} {call : Except PyErr β} {R : β → Prop}
    (h : ∃ c, call = .ok c ∧ R c) : Returns call True R :=
  ⟨fun _ => h, fun h => absurd trivial h⟩

theorem Spec.Returns.congr {β : Type} {call : Except PyErr β} {P Q : Prop} {R : β → Prop}
    (h : Returns call P R) (hPQ : P ↔ Q) : Returns call Q R :=
  ⟨fun hq => h.1 (hPQ.mpr hq), fun hq => h.2 fun hp => hq (hPQ.mp hp)⟩

theorem Spec.Returns.ok {β : Type} {call : Except PyErr β} {P : Prop} {R : β → Prop}
    (h : Returns call P R) {c : β} (hc : call = .ok c) : P ∧ R c := by
  by_cases hp : P
  · obtain ⟨c', h1, h2⟩ := h.1 hp
    rw [h1] at hc; injection hc with hc; subst hc
    exact ⟨hp, h2⟩
  · obtain ⟨d, hd⟩ := h.2 hp
    rw [hd] at hc; cases hc

theorem Spec.Returns.mono {β : Type} {call : Except PyErr β} {P : Prop} {R R' : β → Prop}
    (h : Returns call P R) (hR : ∀ c, P → R c → R' c) : Returns call P R' := by
  refine ⟨fun hp => ?_, h.2⟩
  obtain ⟨c, hc, hr⟩ := h.1 hp
  exact ⟨c, hc, hR c hp hr⟩

/-! ## Times -/

theorem cpmgOffsets_eq (T : ℝ) (n : ℕ) : cpmgOffsets T n = cpmgTimes T n := by
  unfold cpmgOffsets cpmgTimes
  apply List.ext_getElem
  · simp
  · intro i h1 h2
    simp
    ring

theorem uhrigOffsets_eq (T : ℝ) (n : ℕ) : uhrigOffsets T n = uhrigTimes T n := by
  unfold uhrigOffsets uhrigTimes
  apply List.map_congr_left
  intro i _
  simp only [pi_eq, nat_eq, lit_eq, RealInst.sin_eq]
  push_cast
  rw [← sq, show Real.pi * i * (1 / (2 * (n : ℝ) + 2)) = i * Real.pi / (2 * (n + 1)) by ring]

theorem periodicOffsets_eq (T : ℝ) (n : ℕ) : periodicOffsets T n = periodicTimes T n := by
  unfold periodicOffsets periodicTimes
  apply List.map_congr_left
  intro i _
  simp
  ring

theorem pairwise_range' {f : ℕ → ℝ} {n : ℕ} (h : ∀ i j, 1 ≤ i → i < j → j ≤ n → f i < f j) :
    ((List.range' 1 n).map f).Pairwise (· < ·) := by
  rw [List.pairwise_map]
  refine List.Pairwise.imp_of_mem ?_ (List.pairwise_lt_range' (s := 1) (n := n))
  intro a b ha hb hab
  simp [List.mem_range'_1] at ha hb
  exact h a b ha.1 hab (by omega)

theorem reverse_range' {f : ℕ → ℝ} {n : ℕ} {T : ℝ}
    (h : ∀ i, 1 ≤ i → i ≤ n → f (n + 1 - i) = T - f i) :
    ((List.range' 1 n).map f).reverse = ((List.range' 1 n).map f).map (T - ·) := by
  apply List.ext_getElem
  · simp
  · intro i h1 h2
    simp at h1
    simp
    rw [← h (1 + i) (by omega) (by omega)]
    congr 1
    omega

theorem mem_range'_map {f : ℕ → ℝ} {n : ℕ} {t : ℝ} :
    t ∈ (List.range' 1 n).map f ↔ ∃ i, 1 ≤ i ∧ i ≤ n ∧ f i = t := by
  simp [List.mem_range'_1]
  constructor
  · rintro ⟨i, hi, rfl⟩; exact ⟨i, by omega, by omega, rfl⟩
  · rintro ⟨i, h1, h2, rfl⟩; exact ⟨i, by omega, rfl⟩

theorem cpmg_ordered {T : ℝ} (hT : 0 < T) (n : ℕ) : Ordered T (cpmgTimes T n) := by
  constructor
  · apply pairwise_range'
    intro i j hi hij hj
    have hn : (0 : ℝ) < n := by exact_mod_cast (by omega : 0 < n)
    have : (i : ℝ) < j := by exact_mod_cast hij
    have : 0 < T / n := by positivity
    nlinarith
  · intro t ht
    obtain ⟨i, h1, h2, rfl⟩ := mem_range'_map.mp ht
    have hn : (0 : ℝ) < n := by exact_mod_cast (by omega : 0 < n)
    have h1' : (1 : ℝ) ≤ i := by exact_mod_cast h1
    have h2' : (i : ℝ) ≤ n := by exact_mod_cast h2
    have h3 : 0 < T / n := by positivity
    refine ⟨by nlinarith, ?_⟩
    rw [div_mul_eq_mul_div, div_lt_iff₀ hn]
    nlinarith

theorem cpmg_symmetric (T : ℝ) (n : ℕ) : Symmetric T (cpmgTimes T n) := by
  apply reverse_range'
  intro i h1 h2
  have hn : (n : ℝ) ≠ 0 := by exact_mod_cast (by omega : n ≠ 0)
  rw [Nat.cast_sub (by omega)]
  push_cast
  field_simp
  ring

theorem uhrig_angle {n i : ℕ} (hi : i ≤ n + 1) :
    0 ≤ i * Real.pi / (2 * ((n : ℝ) + 1)) ∧ i * Real.pi / (2 * ((n : ℝ) + 1)) ≤ Real.pi / 2 := by
  have hpi := Real.pi_pos
  have h : (i : ℝ) ≤ n + 1 := by exact_mod_cast hi
  refine ⟨by positivity, ?_⟩
  rw [div_le_div_iff₀ (by positivity) (by norm_num)]
  nlinarith

theorem uhrig_lt {n i j : ℕ} (hij : i < j) (hj : j ≤ n + 1) :
    Real.sin (i * Real.pi / (2 * ((n : ℝ) + 1))) ^ 2 <
      Real.sin (j * Real.pi / (2 * ((n : ℝ) + 1))) ^ 2 := by
  have hpi := Real.pi_pos
  obtain ⟨h1, h2⟩ := uhrig_angle (n := n) (i := i) (by omega)
  obtain ⟨h3, h4⟩ := uhrig_angle (n := n) (i := j) hj
  have hlt : i * Real.pi / (2 * ((n : ℝ) + 1)) < j * Real.pi / (2 * ((n : ℝ) + 1)) := by
    have : (i : ℝ) < j := by exact_mod_cast hij
    gcongr
  have := Real.sin_lt_sin_of_lt_of_le_pi_div_two (by linarith) h4 hlt
  have h0 := Real.sin_nonneg_of_nonneg_of_le_pi h1 (by linarith)
  nlinarith

theorem uhrig_ordered {T : ℝ} (hT : 0 < T) (n : ℕ) : Ordered T (uhrigTimes T n) := by
  constructor
  · apply pairwise_range'
    intro i j hi hij hj
    exact mul_lt_mul_of_pos_left (uhrig_lt hij (by omega)) hT
  · intro t ht
    obtain ⟨i, h1, h2, rfl⟩ := mem_range'_map.mp ht
    have ha := uhrig_lt (n := n) (i := 0) (j := i) (by omega) (by omega)
    have hb := uhrig_lt (n := n) (i := i) (j := n + 1) (by omega) (by omega)
    have e : ((n + 1 : ℕ) : ℝ) * Real.pi / (2 * ((n : ℝ) + 1)) = Real.pi / 2 := by
      push_cast; field_simp
    rw [e] at hb
    simp at ha hb
    constructor
    · have : 0 < Real.sin (i * Real.pi / (2 * ((n : ℝ) + 1))) ^ 2 := by positivity
      positivity
    · have : Real.sin (i * Real.pi / (2 * ((n : ℝ) + 1))) ^ 2 < 1 := by rw [sq_lt_one_iff_abs_lt_one]; exact hb
      nlinarith

theorem uhrig_symmetric (T : ℝ) (n : ℕ) : Symmetric T (uhrigTimes T n) := by
  apply reverse_range'
  intro i h1 h2
  rw [Nat.cast_sub (by omega)]
  have : (((n + 1 : ℕ) : ℝ) - i) * Real.pi / (2 * ((n : ℝ) + 1)) =
      Real.pi / 2 - i * Real.pi / (2 * ((n : ℝ) + 1)) := by
    push_cast; field_simp
  rw [this, Real.sin_pi_div_two_sub, Real.cos_sq']
  ring

theorem periodic_ordered {T : ℝ} (hT : 0 < T) (n : ℕ) : Ordered T (periodicTimes T n) := by
  have h3 : 0 < T / ((n : ℝ) + 1) := by positivity
  constructor
  · apply pairwise_range'
    intro i j hi hij hj
    have : (i : ℝ) < j := by exact_mod_cast hij
    nlinarith
  · intro t ht
    obtain ⟨i, h1, h2, rfl⟩ := mem_range'_map.mp ht
    have h1' : (1 : ℝ) ≤ i := by exact_mod_cast h1
    have h2' : (i : ℝ) ≤ n := by exact_mod_cast h2
    refine ⟨by nlinarith, ?_⟩
    rw [mul_div_assoc', div_lt_iff₀ (by positivity)]
    nlinarith

theorem periodic_symmetric (T : ℝ) (n : ℕ) : Symmetric T (periodicTimes T n) := by
  apply reverse_range'
  intro i h1 h2
  rw [Nat.cast_sub (by omega)]
  push_cast
  field_simp

theorem onAxis_bounds {T : ℝ} {times : List ℝ} (h : Ordered T times) (a : Axis) :
    ∀ p ∈ onAxis a times, 0 ≤ p.1 ∧ p.1 ≤ T := by
  intro p hp
  obtain ⟨t, ht, rfl⟩ := List.mem_map.mp hp
  exact ⟨(h.2 t ht).1.le, (h.2 t ht).2.le⟩

end OpenControls
