import Verif.Proofs.Sequences

/-!
# C34-C38: pre and post rotations, and the sequences with closed-form times
-/

namespace OpenControls

open Spec RealInst

/-- **C34**, on the helper every constructor uses: for every finite list of X, Y and Z π-pulses the
pre and post rotations are added at time 0 and at the end, and all pulses together are the identity
or Z up to a global phase. (`Realises` states the same of the public constructors, see C35-C42.) -/
theorem C34_identity_or_z (T : ℝ) (table : List (ℝ × Axis)) :
    ∃ p φ, addPrePostRotations T (tablePulses table) = .ok p ∧ (φ = 0 ∨ φ = Real.pi) ∧
      p.offsets = 0 :: (table.map (fun q => q.1) ++ [T]) ∧
      p.rabiRotations = Real.pi / 2 :: (table.map (fun q => q.2.rabi) ++ [Real.pi / 2]) ∧
      p.azimuthalAngles = 0 :: (table.map (fun q => q.2.azimuthal) ++ [φ]) ∧
      p.detuningRotations = 0 :: (table.map (fun q => q.2.detuning) ++ [0]) ∧
      (EqUpToPhase (pulseProduct p.rabiRotations p.azimuthalAngles p.detuningRotations) 1 ∨
       EqUpToPhase (pulseProduct p.rabiRotations p.azimuthalAngles p.detuningRotations) σz) := by
  refine ⟨_, finalAngle table, addPrePost_table T table, ?_, rfl, rfl, rfl, rfl,
    pulses_withPrePost T table none⟩
  unfold finalAngle
  split
  · exact .inr rfl
  · exact .inl rfl

/-- **C34**, rejection: pre and post rotations are added to any sequence of pulses that are all, within
numpy's tolerance, π-pulses about X, Y or Z; if any pulse is not, `ArgumentsValueError` is raised. -/
theorem C34_accepts (T : ℝ) (p : Pulses ℝ) (hr : p.rabiRotations.length = p.offsets.length)
    (ha : p.azimuthalAngles.length = p.offsets.length)
    (hd : p.detuningRotations.length = p.offsets.length) :
    Returns (addPrePostRotations T p)
      (∀ (i : ℕ) (r a d : ℝ), p.rabiRotations[i]? = some r → p.azimuthalAngles[i]? = some a →
        p.detuningRotations[i]? = some d → NearPiPulse r a d)
      (fun q => q.offsets = 0 :: (p.offsets ++ [T])) := by
  obtain ⟨-, h⟩ := countPulses_le p.rabiRotations p.azimuthalAngles p.detuningRotations
    (by omega) (by omega)
  unfold addPrePostRotations
  rw [← h, hr]
  refine Returns.congr (Returns.check (P := True) ?_ fun _ => Returns.last ?_)
    (and_iff_left trivial)
  · simp only [pi_eq, lit_eq, Rat.cast_zero, Rat.cast_ofNat, beq_iff_eq]
    exact eq_comm
  · exact ⟨_, rfl, by simp⟩

/-- a table with all three kinds of pulses, and a pulse that is none of them -/
example : NearPiPulse Real.pi 0 0 ∧ ¬ NearPiPulse (Real.pi / 2) 0 0 := by
  refine ⟨⟨.x, ?_⟩, ?_⟩
  · simp [NearValue, Axis.rabi, Axis.azimuthal, Axis.detuning]; positivity
  · have := Real.pi_gt_three
    have := Real.pi_lt_four
    rintro ⟨a, h1, -⟩
    have h2 := abs_le.mp h1
    cases a <;> simp only [Axis.rabi, abs_of_pos Real.pi_pos, abs_zero] at h2 <;>
      norm_num at h2 <;> linarith

/-- **C35.** `new_ramsey_sequence` accepts exactly the positive durations; it has no pulses, or only
the pre and post rotations. -/
theorem C35_ramsey (T : ℝ) (prePost : Bool) (name : Option String) :
    Returns (newRamseySequence T prePost name) (0 < T) (Realises T [] prePost name) := by
  unfold newRamseySequence checkDuration
  refine Returns.congr (Returns.check (P := True) (Q := 0 < T) (by simp) fun hT =>
    Returns.last ?_) (and_iff_left trivial)
  cases prePost with
  | false =>
    refine ⟨piSequence T [] name, ?_, by simp [Realises]⟩
    rw [if_neg (by simp), Sequence.new_eq]
    simp [hT, piSequence]
  | true =>
    have hf : finalAngle [] = Real.pi := by simp [finalAngle, countAxes]
    refine ⟨withPrePost Real.pi (piSequence T [] name), ?_, ?_⟩
    · rw [Sequence.new_eq]
      simp [hT, hT.le, piSequence, withPrePost]
    · have := pulses_withPrePost T [] name
      rw [hf] at this
      exact ⟨.inr rfl, this⟩

/-- **C35**, the net effect of the Ramsey sequence with pre and post rotations is the identity, not
just up to a phase. -/
theorem C35_ramsey_identity (T : ℝ) (name : Option String) (s : Sequence ℝ)
    (hs : newRamseySequence T true name = .ok s) :
    s = withPrePost Real.pi (piSequence T [] name) ∧ pulses s = 1 := by
  have hT := ((C35_ramsey T true name).ok hs).1
  have h : s = withPrePost Real.pi (piSequence T [] name) := by
    have e : newRamseySequence T true name = .ok (withPrePost Real.pi (piSequence T [] name)) := by
      unfold newRamseySequence checkDuration
      rw [checkArguments_bind, if_pos (by simpa using hT), if_pos rfl, Sequence.new_eq]
      simp [hT, hT.le, piSequence, withPrePost]
    rw [e] at hs; injection hs with hs; exact hs.symm
  refine ⟨h, ?_⟩
  subst h
  simp only [pulses, withPrePost, piSequence, List.map_nil, List.nil_append, pulseProduct, one_mul]
  rw [pulseUnitary_eq_segmentUnitary, pulseUnitary_eq_segmentUnitary, segmentUnitary_resonant,
    segmentUnitary_resonant]
  have := rotation_axis_add_pi (Real.pi / 2 * 1) 0
  rw [zero_add] at this
  rw [this, rotation_mul_same, neg_add_cancel, rotation_zero]

/-- **C35.** `new_spin_echo_sequence` accepts exactly the positive durations and has one X π-pulse,
half way. -/
theorem C35_spin_echo (T : ℝ) (prePost : Bool) (name : Option String) :
    Returns (newSpinEchoSequence T prePost name) (0 < T)
      (Realises T [(T / 2, .x)] prePost name) := by
  unfold newSpinEchoSequence checkDuration
  refine Returns.congr (Returns.check (P := True) (Q := 0 < T) (by simp) fun hT =>
    Returns.last ?_) (and_iff_left trivial)
  have h := finishSequence_table hT [(T / 2, .x)] (by simp; constructor <;> linarith) prePost name
  simpa [tablePulses, Axis.rabi, Axis.azimuthal, Axis.detuning] using h

/-- **C36.** `new_carr_purcell_sequence` accepts exactly positive durations and counts of at least
one, and has `n` X π-pulses (`n` the integer part of the count), the `i`-th at `(T/n)(i - 1/2)`. -/
theorem C36_carr_purcell (T count : ℝ) (prePost : Bool) (name : Option String) :
    Returns (newCarrPurcellSequence T count prePost name) (0 < T ∧ 1 ≤ count)
      (Realises T (onAxis .x (cpmgTimes T ⌊count⌋₊)) prePost name) := by
  unfold newCarrPurcellSequence checkDuration
  refine Returns.congr (Returns.check (Q := 0 < T) (by simp) fun hT =>
    Returns.check (P := True) (Q := 1 ≤ count) (by simp) fun hc => Returns.last ?_) (by simp)
  rw [pyInt_of_nonneg (by linarith), except_ok_bind, cpmgOffsets_eq, ← tablePulses_onAxis_x]
  exact finishSequence_table hT _ (onAxis_bounds (cpmg_ordered hT _) _) prePost name

/-- **C36.** `new_cpmg_sequence`: the same with Y π-pulses. -/
theorem C36_cpmg (T count : ℝ) (prePost : Bool) (name : Option String) :
    Returns (newCPMGSequence T count prePost name) (0 < T ∧ 1 ≤ count)
      (Realises T (onAxis .y (cpmgTimes T ⌊count⌋₊)) prePost name) := by
  unfold newCPMGSequence checkDuration
  refine Returns.congr (Returns.check (Q := 0 < T) (by simp) fun hT =>
    Returns.check (P := True) (Q := 1 ≤ count) (by simp) fun hc => Returns.last ?_) (by simp)
  rw [pyInt_of_nonneg (by linarith), except_ok_bind, cpmgOffsets_eq, ← tablePulses_onAxis_y]
  exact finishSequence_table hT _ (onAxis_bounds (cpmg_ordered hT _) _) prePost name

/-- **C36**, the times are strictly increasing, inside `(0, T)` and symmetric about `T/2`. -/
theorem C36_times (T : ℝ) (hT : 0 < T) (n : ℕ) :
    Ordered T (cpmgTimes T n) ∧ Symmetric T (cpmgTimes T n) ∧ (cpmgTimes T n).length = n :=
  ⟨cpmg_ordered hT n, cpmg_symmetric T n, by simp [cpmgTimes]⟩

/-- **C37.** `new_uhrig_sequence` accepts exactly positive durations and counts of at least one, and
has `n` Y π-pulses, the `i`-th at `T sin²(iπ/(2(n+1)))`. -/
theorem C37_uhrig (T count : ℝ) (prePost : Bool) (name : Option String) :
    Returns (newUhrigSequence T count prePost name) (0 < T ∧ 1 ≤ count)
      (Realises T (onAxis .y (uhrigTimes T ⌊count⌋₊)) prePost name) := by
  unfold newUhrigSequence checkDuration
  refine Returns.congr (Returns.check (Q := 0 < T) (by simp) fun hT =>
    Returns.check (P := True) (Q := 1 ≤ count) (by simp) fun hc => Returns.last ?_) (by simp)
  rw [pyInt_of_nonneg (by linarith), except_ok_bind, uhrigOffsets_eq, ← tablePulses_onAxis_y]
  exact finishSequence_table hT _ (onAxis_bounds (uhrig_ordered hT _) _) prePost name

/-- **C37**, the times are strictly increasing, inside `(0, T)` and symmetric about `T/2`. -/
theorem C37_times (T : ℝ) (hT : 0 < T) (n : ℕ) :
    Ordered T (uhrigTimes T n) ∧ Symmetric T (uhrigTimes T n) ∧ (uhrigTimes T n).length = n :=
  ⟨uhrig_ordered hT n, uhrig_symmetric T n, by simp [uhrigTimes]⟩

/-- **C38.** `new_periodic_sequence` accepts exactly positive durations and counts of at least one,
and has `n` X π-pulses, the `i`-th at `i T/(n+1)`. -/
theorem C38_periodic (T count : ℝ) (prePost : Bool) (name : Option String) :
    Returns (newPeriodicSequence T count prePost name) (0 < T ∧ 1 ≤ count)
      (Realises T (onAxis .x (periodicTimes T ⌊count⌋₊)) prePost name) := by
  unfold newPeriodicSequence checkDuration
  refine Returns.congr (Returns.check (Q := 0 < T) (by simp) fun hT =>
    Returns.check (P := True) (Q := 1 ≤ count) (by simp) fun hc => Returns.last ?_) (by simp)
  rw [pyInt_of_nonneg (by linarith), except_ok_bind, periodicOffsets_eq, ← tablePulses_onAxis_x]
  exact finishSequence_table hT _ (onAxis_bounds (periodic_ordered hT _) _) prePost name

/-- **C38**, the times are strictly increasing, inside `(0, T)` and symmetric about `T/2`. -/
theorem C38_times (T : ℝ) (hT : 0 < T) (n : ℕ) :
    Ordered T (periodicTimes T n) ∧ Symmetric T (periodicTimes T n) ∧
      (periodicTimes T n).length = n :=
  ⟨periodic_ordered hT n, periodic_symmetric T n, by simp [periodicTimes]⟩

/-- concrete times: two CPMG pulses at `T/4`, `3T/4`; two periodic ones at `T/3`, `2T/3` -/
example : cpmgTimes 1 2 = [1 / 4, 3 / 4] ∧ periodicTimes 1 2 = [1 / 3, 2 / 3] := by
  constructor <;> simp [cpmgTimes, periodicTimes, List.range'] <;> norm_num

/-- one Uhrig pulse is at `T/2` -/
example (T : ℝ) : uhrigTimes T 1 = [T / 2] := by
  have h : Real.pi / (2 * (1 + 1)) = Real.pi / 4 := by ring
  simp only [uhrigTimes, List.range', List.map_cons, List.map_nil, Nat.cast_one, one_mul, h,
    Real.sin_pi_div_four]
  rw [div_pow, Real.sq_sqrt (by norm_num)]
  ring_nf

end OpenControls
