import Verif.Props.StaticNoise
import Verif.Props.SlowNoise
import Verif.Props.RoundedPipeline
import Verif.Proofs.BuiltXY

/-!
# C112: predefined sequences computed in floating point, played on a noisy qubit

The sequence `s` is computed in the floating-point arithmetic `r`, with unit roundoff `r.u`; `e` is the one of exact
arithmetic.  The pulses of both are played, at the times they state, on a qubit subject to the same noise.
-/

namespace OpenControls

open Spec Fl
open scoped Matrix.Norms.L2Operator

variable {r : Rounding}

theorem standard_pure {p : Pulse} (h : Standard p) : PurePulse p := by
  have hpi := Real.pi_pos
  rcases h.1 with ⟨hd, ha, hb⟩ | ⟨hd, ha⟩
  · refine ⟨.inr hd, .inr fun hn => ?_, .inl hd⟩
    unfold Negligible at hn
    rw [abs_of_nonneg (by linarith)] at hn
    linarith [Real.pi_gt_three]
  · refine ⟨.inl hd, .inl hd, .inr fun hn => ?_⟩
    unfold Negligible at hn
    rw [ha, abs_of_nonneg hpi.le] at hn
    linarith [Real.pi_gt_three]

theorem rounded_noisy (family : RoundedFamily r) {T : Fl r} (hT : 0 < T.val) (hv : family.exact.Valid)
    (hsmall : family.Small) {prePost : Bool} {name : Option String} {s : Sequence (Fl r)}
    (hs : family.call T prePost name = .ok s) {e : Sequence ℝ} (he : family.exact.call T.val prePost name = .ok e)
    {free : ℝ → ℝ → M2} (hf : ∀ a b, IsSU2 (free a b)) {Λ : ℝ} (hΛ : 0 ≤ Λ)
    (hlip : ∀ a ∈ Set.Icc 0 T.val, ∀ b ∈ Set.Icc 0 T.val, ∀ a' ∈ Set.Icc 0 T.val, ∀ b' ∈ Set.Icc 0 T.val,
      ‖free a b - free a' b'‖ ≤ Λ * (|a - a'| + |b - b'|)) :
    ‖underNoise free (s.map val) - underNoise free e‖ ≤
      e.offsets.length * (5 * r.u + 2 * Λ * (family.error * T.val)) := by
  have hu := r.u_nonneg
  obtain ⟨s', e', hs', he', happ⟩ := C78_agrees family T hT hv hsmall prePost name
  obtain rfl : s' = s := by rw [hs] at hs'; injection hs' with h; exact h.symm
  obtain rfl : e' = e := by rw [he] at he'; injection he' with h; exact h.symm
  obtain ⟨-, hw⟩ := (C43_well_formed family.exact T.val prePost name).ok he
  have hcon := approximates_constructed happ hT hw
  have hdur : e'.duration = T.val := hw.1
  have hsd : (s'.map val).duration = T.val := happ.duration.trans hdur
  obtain ⟨-, hb, hr1, hr2, hr3⟩ := (rounded_facts hcon).facts
  have ho' := pulseList_offsets _ hr1 hr2 hr3
  have ho := pulseList_offsets e' hw.2.1 hw.2.2.1 hw.2.2.2.1
  have hlen : (pulseList e').length = e'.offsets.length := by rw [← ho, List.length_map]
  have hpulses := approximates_pulses happ
  have hlen' : (pulseList (s'.map val)).length = (pulseList e').length := hpulses.length_eq
  rw [underNoise_noisy, underNoise_noisy, hsd, hdur, ← hlen]
  have h0 : (0 : ℝ) ∈ Set.Icc 0 T.val := ⟨le_rfl, hT.le⟩
  have hclose : List.Forall₂ (ClosePulse (5 * r.u) (family.error * T.val) T.val) (pulseList (s'.map val))
      (pulseList e') := by
    rw [List.forall₂_iff_get]
    refine ⟨hlen', fun i h1 h2 => ?_⟩
    have hp := hpulses.get h1 h2
    have hst := hw.standard' _ (List.get_mem (pulseList e') ⟨i, h2⟩)
    have hpf := pulse_facts hp hst
    have i1 : i < (s'.map val).offsets.length := by rw [← ho', List.length_map]; exact h1
    have i2 : i < e'.offsets.length := by rw [← hlen]; exact h2
    have k1 : ((pulseList (s'.map val)).get ⟨i, h1⟩).offset = (s'.map val).offsets[i] := by
      simp only [← ho', List.getElem_map, List.get_eq_getElem]
    have k2 : ((pulseList e').get ⟨i, h2⟩).offset = e'.offsets[i] := by
      simp only [← ho, List.getElem_map, List.get_eq_getElem]
    have i3 : i < s'.offsets.length := by rw [happ.count]; exact i2
    have k3 : (s'.map val).offsets[i] = (s'.offsets[i]).val := by
      simp [Sequence.map]
    refine ⟨?_, ?_, ?_, ?_⟩
    · have h := hpf.dist
      rw [realised_pure hpf.pure, realised_pure (standard_pure hst)] at h
      refine h.trans ?_
      have := Real.pi_lt_d2
      have := mul_le_mul_of_nonneg_right this.le hu
      linarith
    · rw [k1, k2, k3, ← hdur]
      exact happ.offsets (s'.offsets[i], e'.offsets[i]) (by
        rw [List.mem_iff_getElem]
        exact ⟨i, by simp [i3, i2], by simp⟩)
    · rw [k1, ← hsd]
      exact hb _ (List.getElem_mem _)
    · rw [k2]
      exact hw.2.2.2.2.1 _ (List.getElem_mem _)
  have := noisy_dist hT.le hΛ hf hlip hclose h0 h0
  simpa using this

/-- **C112.** Under dephasing noise of at most `M`, the evolution with the computed sequence is that with the exact one up
to `5 u + M ε T` per pulse, `ε` being the relative error of the computed times. -/
theorem C112_dephasing_distance (family : RoundedFamily r) (T : Fl r) (hT : 0 < T.val) (hv : family.exact.Valid)
    (hsmall : family.Small) (prePost : Bool) (name : Option String) (s : Sequence (Fl r))
    (hs : family.call T prePost name = .ok s) (e : Sequence ℝ) (he : family.exact.call T.val prePost name = .ok e)
    (β : ℝ → ℝ) (hβ : Continuous β) (M : ℝ) (hM : ∀ t ∈ Set.Icc 0 T.val, |β t| ≤ M) :
    ‖underNoise (dephasing β) (s.map val) - underNoise (dephasing β) e‖ ≤
      e.offsets.length * (5 * r.u + M * family.error * T.val) := by
  have hM0 : 0 ≤ M := (abs_nonneg _).trans (hM 0 ⟨le_rfl, hT.le⟩)
  refine (rounded_noisy family hT hv hsmall hs he (isSU2_dephasing β) (Λ := M / 2) (by positivity)
    fun a ha b hb a' ha' b' hb' => dephasing_dist hβ hM ha hb ha' hb').trans (le_of_eq ?_)
  ring

/-- **C112.** Under static noise `(x σx + y σy + z σz) / 2` of every direction, the evolution with the computed sequence is
that with the exact one up to `5 u + √(x² + y² + z²) ε T` per pulse. -/
theorem C112_static_distance (family : RoundedFamily r) (T : Fl r) (hT : 0 < T.val) (hv : family.exact.Valid)
    (hsmall : family.Small) (prePost : Bool) (name : Option String) (s : Sequence (Fl r))
    (hs : family.call T prePost name = .ok s) (e : Sequence ℝ) (he : family.exact.call T.val prePost name = .ok e)
    (x y z : ℝ) :
    ‖underNoise (staticNoise x y z) (s.map val) - underNoise (staticNoise x y z) e‖ ≤
      e.offsets.length * (5 * r.u + √(x ^ 2 + y ^ 2 + z ^ 2) * family.error * T.val) := by
  have h0 := strength_nonneg x y z
  refine (rounded_noisy family hT hv hsmall hs he (isSU2_static x y z) (Λ := strength x y z / 2) (by positivity)
    fun a ha b hb a' ha' b' hb' => (static_dist x y z a b a' b').trans ?_).trans (le_of_eq ?_)
  · refine mul_le_mul_of_nonneg_left ?_ (by positivity)
    have e1 : b - a - (b' - a') = (b - b') - (a - a') := by ring
    rw [e1]
    have := abs_sub (b - b') (a - a')
    linarith
  · unfold strength
    ring

/-- **C112.** What slow dephasing noise leaves of the evolution with the computed sequence: the residue of the exact
sequence (C98), plus the rounding errors. -/
theorem C112_dephasing (family : RoundedFamily r) (T : Fl r) (hT : 0 < T.val) (hv : family.exact.Valid)
    (hsmall : family.Small) (prePost : Bool) (name : Option String) (s : Sequence (Fl r))
    (hs : family.call T prePost name = .ok s) (e : Sequence ℝ) (he : family.exact.call T.val prePost name = .ok e)
    (k : ℕ) (hk : k ≤ family.exact.cancellationOrder) (β : ℝ → ℝ) (hβ : ContDiff ℝ k β)
    (M : ℝ) (hM : ∀ t ∈ Set.Icc 0 T.val, |β t| ≤ M)
    (B : ℝ) (hB : ∀ t ∈ Set.Icc 0 T.val, |iteratedDeriv k β t| ≤ B) :
    ‖underNoise (dephasing β) (s.map val) - pulses e‖ ≤
      B * T.val ^ (k + 1) / (2 ^ k * (k + 1).factorial) / 2 +
        e.offsets.length * (5 * r.u + M * family.error * T.val) := by
  have h1 := C112_dephasing_distance family T hT hv hsmall prePost name s hs e he β hβ.continuous M hM
  have h2 := C98_evolution family.exact T.val prePost name e he k hk β hβ B hB
  have := norm_sub_le_norm_sub_add_norm_sub (underNoise (dephasing β) (s.map val)) (underNoise (dephasing β) e) (pulses e)
  linarith

/-- **C112**, with pre and post rotations: the probability to find the qubit in its initial state. -/
theorem C112_dephasing_return_probability (family : RoundedFamily r) (T : Fl r) (hT : 0 < T.val)
    (hv : family.exact.Valid) (hsmall : family.Small) (name : Option String) (s : Sequence (Fl r))
    (hs : family.call T true name = .ok s) (e : Sequence ℝ) (he : family.exact.call T.val true name = .ok e)
    (k : ℕ) (hk : k ≤ family.exact.cancellationOrder) (β : ℝ → ℝ) (hβ : ContDiff ℝ k β)
    (M : ℝ) (hM : ∀ t ∈ Set.Icc 0 T.val, |β t| ≤ M)
    (B : ℝ) (hB : ∀ t ∈ Set.Icc 0 T.val, |iteratedDeriv k β t| ≤ B) :
    1 - (B * T.val ^ (k + 1) / (2 ^ k * (k + 1).factorial) / 2 +
        e.offsets.length * (5 * r.u + M * family.error * T.val)) ^ 2 ≤
      returnProbability (underNoise (dephasing β) (s.map val)) := by
  have h := C112_dephasing family T hT hv hsmall true name s hs e he k hk β hβ M hM B hB
  rw [underNoise_noisy] at h ⊢
  refine (isSU2_noisy (isSU2_dephasing β) _ _ _).returnProbability ?_ h
  rw [Family.call_eq hv hT] at he
  injection he with he
  subst he
  exact pulses_withPrePost T.val (family.exact.table T.val) name

/-- **C112.** What static noise of every direction leaves of the evolution with a computed quadratic sequence, or an
XY-concatenated one of order one or two. -/
theorem C112_universal (family : RoundedFamily r) (hf : family.exact.Universal) (T : Fl r) (hT : 0 < T.val)
    (hv : family.exact.Valid) (hsmall : family.Small) (prePost : Bool) (name : Option String) (s : Sequence (Fl r))
    (hs : family.call T prePost name = .ok s) (e : Sequence ℝ) (he : family.exact.call T.val prePost name = .ok e)
    (x y z : ℝ) :
    ‖underNoise (staticNoise x y z) (s.map val) - pulses e‖ ≤ (x ^ 2 + y ^ 2 + z ^ 2) * T.val ^ 2 / 8 +
      e.offsets.length * (5 * r.u + √(x ^ 2 + y ^ 2 + z ^ 2) * family.error * T.val) := by
  have h1 := C112_static_distance family T hT hv hsmall prePost name s hs e he x y z
  have h2 := C111_universal family.exact hf T.val prePost name e he x y z
  have := norm_sub_le_norm_sub_add_norm_sub (underNoise (staticNoise x y z) (s.map val))
    (underNoise (staticNoise x y z) e) (pulses e)
  linarith

/-- **C112**, with pre and post rotations: the probability to find the qubit in its initial state. -/
theorem C112_universal_return_probability (family : RoundedFamily r) (hf : family.exact.Universal) (T : Fl r)
    (hT : 0 < T.val) (hv : family.exact.Valid) (hsmall : family.Small) (name : Option String) (s : Sequence (Fl r))
    (hs : family.call T true name = .ok s) (e : Sequence ℝ) (he : family.exact.call T.val true name = .ok e)
    (x y z : ℝ) :
    1 - ((x ^ 2 + y ^ 2 + z ^ 2) * T.val ^ 2 / 8 +
        e.offsets.length * (5 * r.u + √(x ^ 2 + y ^ 2 + z ^ 2) * family.error * T.val)) ^ 2 ≤
      returnProbability (underNoise (staticNoise x y z) (s.map val)) := by
  have h := C112_universal family hf T hT hv hsmall true name s hs e he x y z
  rw [underNoise_noisy] at h ⊢
  refine (isSU2_noisy (isSU2_static x y z) _ _ _).returnProbability ?_ h
  rw [Family.call_eq hv hT] at he
  injection he with he
  subst he
  exact pulses_withPrePost T.val (family.exact.table T.val) name

/-- CPMG with two pulses and pre and post rotations in double precision, under a drifting detuning -/
example : ∃ s, newCPMGSequence (round Rounding.double 1) (round Rounding.double 2) true none = .ok s ∧
    1 - (1 / 8 + 56 / 2 ^ 53) ^ 2 ≤ returnProbability (underNoise (dephasing fun t => t) (s.map val)) := by
  have h1 : (round Rounding.double 1).val = 1 := Rounding.double.rnd_one
  have h2 : (round Rounding.double 2).val = 2 := Rounding.double.rnd_two
  have hu : Rounding.double.u = 1 / 2 ^ 53 := double_u
  have hv : (RoundedFamily.cpmg (round Rounding.double 2)).exact.Valid := by
    simp only [RoundedFamily.exact, Family.Valid]; rw [h2]; norm_num
  have hsm : (RoundedFamily.cpmg (round Rounding.double 2)).Small := by
    simp only [RoundedFamily.Small]; rw [h2, hu]; norm_num
  obtain ⟨s, e, hs, he, -⟩ := C78_agrees (.cpmg (round Rounding.double 2)) (round Rounding.double 1)
    (by rw [h1]; norm_num) hv hsm true none
  refine ⟨s, hs, ?_⟩
  have hlen : e.offsets.length = 4 := by
    have he' := he
    rw [Family.call_eq hv (by rw [h1]; norm_num)] at he'
    injection he' with he'
    subst he'
    simp [finished, withPrePost, piSequence, Family.table, onAxis, cpmgTimes, RoundedFamily.exact, h2]
  have := C112_dephasing_return_probability (.cpmg (round Rounding.double 2)) (round Rounding.double 1)
    (by rw [h1]; norm_num) hv hsm none s hs e he 1
    (by simp only [RoundedFamily.exact, Family.cancellationOrder]; split <;> norm_num) (fun t => t) contDiff_id 1
    (by rw [h1]; intro t ht; rw [abs_of_nonneg ht.1]; exact ht.2) 1
    (by intro t _; simp [iteratedDeriv_one])
  rw [hlen, h1, hu] at this
  simp only [RoundedFamily.error, hu] at this
  norm_num at this ⊢
  exact this

/-- the XY-concatenated sequence of order one in double precision, under noise along all three axes -/
example : ∃ s, newXYConcatenatedSequence (round Rounding.double 1) (round Rounding.double 1) true none = .ok s ∧
    1 - (1 / 32 + (66 / 2 ^ 53 : ℝ)) ^ 2 ≤
      returnProbability (underNoise (staticNoise (1 / 6) (1 / 3) (1 / 3)) (s.map val)) := by
  have h1 : (round Rounding.double 1).val = 1 := Rounding.double.rnd_one
  have hu : Rounding.double.u = 1 / 2 ^ 53 := double_u
  have hv : (RoundedFamily.xyConcatenated (round Rounding.double 1)).exact.Valid := by
    simp only [RoundedFamily.exact, Family.Valid]; rw [h1]
  have hsm : (RoundedFamily.xyConcatenated (round Rounding.double 1)).Small := by
    simp only [RoundedFamily.Small]; rw [h1, hu]; norm_num
  obtain ⟨s, e, hs, he, -⟩ := C78_agrees (.xyConcatenated (round Rounding.double 1)) (round Rounding.double 1)
    (by rw [h1]; norm_num) hv hsm true none
  refine ⟨s, hs, ?_⟩
  have hlen : e.offsets.length = 6 := by
    have he' := he
    rw [Family.call_eq hv (by rw [h1]; norm_num)] at he'
    injection he' with he'
    subst he'
    simp [finished, withPrePost, piSequence, Family.table, RoundedFamily.exact, h1]
    rw [xyTable_built one_pos 0]
    simp [builtXY, unitPulses]
  have := C112_universal_return_probability (.xyConcatenated (round Rounding.double 1))
    (by simp [RoundedFamily.exact, Family.Universal, h1]) (round Rounding.double 1)
    (by rw [h1]; norm_num) hv hsm none s hs e he (1 / 6) (1 / 3) (1 / 3)
  have hw : √((1 / 6 : ℝ) ^ 2 + (1 / 3) ^ 2 + (1 / 3) ^ 2) = 1 / 2 := by
    rw [show (1 / 6 : ℝ) ^ 2 + (1 / 3) ^ 2 + (1 / 3) ^ 2 = (1 / 2) ^ 2 by norm_num]
    exact Real.sqrt_sq (by norm_num)
  rw [hlen, h1, hw, hu] at this
  simp only [RoundedFamily.error, hu, h1] at this
  norm_num at this ⊢
  exact this

end OpenControls
