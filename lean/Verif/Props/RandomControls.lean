import Verif.Proofs.RandomControls

/-!
# C140: converted controls under random dephasing noise

`StationaryNoise` and `spectralOverlap` are in `Verif/Spec/RandomNoise.lean`, `NoisyEvolution` and `pulseTimes` in
`Verif/Spec/NoisyControl.lean`, `defect` in `Verif/Spec/NoisyPipeline.lean`.
-/

namespace OpenControls

open Spec RealInst MeasureTheory Fl
open scoped Matrix.Norms.L2Operator

section
variable {Ω : Type} [MeasurableSpace Ω] {P : Measure Ω} [IsProbabilityMeasure P] {β : Ω → ℝ → ℝ} {S : Measure ℝ}
  [IsFiniteMeasure S]

/-- **C140** A predefined sequence is converted for some hardware. Averaged over the runs of the experiment, the square
of the distance between the evolution of the qubit and that of the ideal pulses is at most `(√overlap / 2 + M w)²`: the
overlap of the spectrum with the square of the response, and the strength of the noise times the time of the pulses.
With pre and post rotations the qubit returns to the initial state with at least the complementary probability. -/
theorem C140_converted (h : StationaryNoise P β S) (family : Family) (T : ℝ) (hT : 1 / 10 ^ 8 < T) (prePost : Bool)
    (name : Option String) (s : Sequence ℝ) (hs : family.call T prePost name = .ok s) (R D m : ℝ)
    (hno : NoOverlap R D m s) (cname : Option String) (c : DrivenControl ℝ) (hc : convertDDS s R D m cname = .ok c)
    (M : ℝ) (hM : ∀ x, ∀ t ∈ Set.Icc 0 T, |β x t| ≤ M) (U : Ω → ℝ → M2)
    (hU : ∀ x, NoisyEvolution c ⟨fun _ => 0, fun _ => 0, β x⟩ (U x)) :
    (Integrable (fun x => ‖U x T - pulses s‖ ^ 2) P ∧
      ∫ x, ‖U x T - pulses s‖ ^ 2 ∂P ≤ (√(spectralOverlap s S) / 2 + M * pulseTimes R D m s) ^ 2) ∧
    (prePost = true → Integrable (fun x => returnProbability (U x T)) P ∧
      1 - (√(spectralOverlap s S) / 2 + M * pulseTimes R D m s) ^ 2 ≤ ∫ x, returnProbability (U x T) ∂P) := by
  obtain ⟨hcon, hd, hp⟩ := family_converted family hs
  have hT0 : 0 < T := lt_trans (by norm_num) hT
  have hd0 : 0 ≤ s.duration := by rw [hd]; exact hT0.le
  have hM0 : 0 ≤ M := (abs_nonneg _).trans (hM (nonempty_of_isProbabilityMeasure P).some 0 ⟨le_rfl, hT0.le⟩)
  have hw0 : 0 ≤ pulseTimes R D m s := by
    have hm : 0 ≤ m := (converted hcon hc).1.2.2.1
    refine List.sum_nonneg fun x hx => ?_
    obtain ⟨p, -, rfl⟩ := List.mem_map.mp hx
    exact width_nonneg hm _ _ _
  have hcT : c.durations.sum = T := by
    rw [← hd, ← (C47_duration_exact_partial s hcon R D m cname c hc).1 hno]
    simp [DrivenControl.duration]
  have hcc := ((C46_convertible s hcon _ _ m cname).ok hc).2.1
  obtain ⟨gs, e, hg⟩ := constructed_segments hcc
  have hgT : total gs = T := by rw [← hcT, e]; rfl
  rw [e] at hU
  have key := random_average h hd0 hg hU (mul_nonneg hM0 hw0) (V := pulses s) fun x => by
    have hN : (⟨fun _ => 0, fun _ => 0, β x⟩ : QubitNoise).Bounded s.duration M := by
      rw [hd]
      intro t ht
      simp only [ne_eq, OfNat.ofNat_ne_zero, not_false_eq_true, zero_pow, add_zero, zero_add, Real.sqrt_sq_eq_abs]
      exact hM x t ht
    have hUx := hU x
    rw [← e] at hUx
    obtain ⟨k1, -⟩ := C113_distance s hcon (by rw [hd]; exact hT) hp R D m hno cname c hc _ M hN _ hUx _
      (C113_dephasing_free (β x) (h.continuous x) _)
    rw [hd] at k1
    have k2 := family_phase_dist family T prePost name s hs (β x) (h.continuous x)
    have k3 := norm_sub_le_norm_sub_add_norm_sub (U x T) (underNoise (dephasing (β x)) s) (pulses s)
    rw [hgT]
    linarith
  rw [hgT] at key
  refine ⟨key.1, ?_⟩
  rintro rfl
  refine key.2 ?_
  obtain ⟨⟨hT0, hv⟩, -⟩ := (C43_well_formed family T true name).ok hs
  rw [Family.call_eq hv hT0] at hs
  injection hs with hs
  subst hs
  exact pulses_withPrePost T (family.table T) name

/-- **C140** The sequence is computed and converted in floating-point arithmetic: the pulses and the rounding errors
enter by the `defect` of the computation. -/
theorem C140_computed {r : Rounding} (h : StationaryNoise P β S) (family : RoundedFamily r) (T : Fl r)
    (hT : 2 / 10 ^ 8 ≤ T.val) (hv : family.exact.Valid) (hsmall : family.Small) (prePost : Bool)
    (hsep : family.exact.Separate prePost) (name : Option String) (exact : Sequence ℝ)
    (hexact : family.exact.call T.val prePost name = .ok exact) (R D m : Fl r) (hR : 0 < R.val)
    (hD : 0 < D.val) (hm : 0 ≤ m.val) (gap : ℝ) (hroom : Apart gap exact)
    (hgap : 2 * pulseTime R.val D.val m.val + m.val + (35 * r.u + 2 * family.error) * T.val < gap)
    (hwide : 17 * r.u * T.val < shortestPulse R.val D.val m.val) (cname : Option String) (M : ℝ)
    (hM : ∀ x, ∀ t ∈ Set.Icc 0 ((1 + 6 * r.u) * T.val), |β x t| ≤ M) :
    ∃ s c, family.call T prePost name = .ok s ∧ convertDDS s R D m cname = .ok c ∧
      ∀ U : Ω → ℝ → M2, (∀ x, NoisyEvolution (c.map val) ⟨fun _ => 0, fun _ => 0, β x⟩ (U x)) →
        (Integrable (fun x => ‖U x (c.map val).durations.sum - pulses exact‖ ^ 2) P ∧
          ∫ x, ‖U x (c.map val).durations.sum - pulses exact‖ ^ 2 ∂P ≤ (√(spectralOverlap exact S) / 2 +
            family.defect T.val M (pulseTime R.val D.val m.val) exact.offsets.length) ^ 2) ∧
        (prePost = true → Integrable (fun x => returnProbability (U x (c.map val).durations.sum)) P ∧
          1 - (√(spectralOverlap exact S) / 2 +
            family.defect T.val M (pulseTime R.val D.val m.val) exact.offsets.length) ^ 2 ≤
              ∫ x, returnProbability (U x (c.map val).durations.sum) ∂P) := by
  have hT0 : 0 < T.val := lt_of_lt_of_le (by norm_num) hT
  have hu := r.u_nonneg
  obtain ⟨s, c, hs, hc, hall⟩ := C115_pipeline family T hT hv hsmall prePost hsep name exact hexact R D m hR hD hm gap hroom
    hgap hwide cname
  refine ⟨s, c, hs, hc, fun U hU => ?_⟩
  obtain ⟨-, hd, -⟩ := family_converted family.exact hexact
  have hd0 : 0 ≤ exact.duration := by rw [hd]; exact hT0.le
  have hM0 : 0 ≤ M := (abs_nonneg _).trans (hM (nonempty_of_isProbabilityMeasure P).some 0 ⟨le_rfl, by positivity⟩)
  have hdef : 0 ≤ family.defect T.val M (pulseTime R.val D.val m.val) exact.offsets.length := by
    have he := family.error_nonneg
    have hw : 0 ≤ pulseTime R.val D.val m.val := hm.trans (le_max_right _ _)
    unfold RoundedFamily.defect
    positivity
  obtain ⟨gs, cn, e, hg⟩ : ∃ (gs : List (Segment ℝ)) (cn : Option String), c.map val = ofSegments gs cn ∧
      ∀ g ∈ gs, 0 < g.duration := by
    have hcon : s.Constructed := by
      obtain ⟨s', e', hs', he', happ⟩ := C78_agrees family T hT0 hv hsmall prePost name
      obtain rfl : s' = s := by rw [hs] at hs'; injection hs' with h; exact h.symm
      exact approximates_constructed happ hT0 ((C43_well_formed _ _ prePost name).ok he').2
    have hsd : 0 < s.duration.val := (rounded_facts hcon).facts.1
    have hform : ∃ gs : List (Segment (Fl r)), c = ofRounded gs cname ∧ ∀ g ∈ gs, 0 < g.duration.val := by
      obtain ⟨-, ⟨-, rfl⟩ | ⟨-, rfl⟩⟩ := (convertDDS_rounded hcon R D m cname).ok hc
      · exact ⟨_, rfl, fun g hg => by rw [List.mem_singleton] at hg; subst hg; exact hsd⟩
      · refine ⟨_, rfl, fun g hg => ?_⟩
        have := (List.mem_filter.mp hg).2
        rwa [Fl.gt_iff, val_lit_zero] at this
    obtain ⟨gs, rfl, hg⟩ := hform
    refine ⟨gs.map segVal, cname, ofRounded_val gs cname, fun g h => ?_⟩
    obtain ⟨x, hx, rfl⟩ := List.mem_map.mp h
    exact hg x hx
  have hsum : (c.map val).durations.sum = total gs := by rw [e]; rfl
  have hU' := hU
  rw [e] at hU'
  have key := random_average h hd0 hg hU' hdef (V := pulses exact) fun x => by
    have hN : (⟨fun _ => 0, fun _ => 0, β x⟩ : QubitNoise).Bounded ((1 + 6 * r.u) * T.val) M := by
      intro t ht
      simp only [ne_eq, OfNat.ofNat_ne_zero, not_false_eq_true, zero_pow, add_zero, zero_add, Real.sqrt_sq_eq_abs]
      exact hM x t ht
    obtain ⟨k1, -⟩ := hall _ M hN _ (C113_dephasing_free (β x) (h.continuous x) _) _ (hU x)
    rw [hsum] at k1
    have k2 := family_phase_dist family.exact T.val prePost name exact hexact (β x) (h.continuous x)
    have k3 := norm_sub_le_norm_sub_add_norm_sub (U x (total gs)) (underNoise (dephasing (β x)) exact) (pulses exact)
    linarith
  rw [hsum]
  refine ⟨key.1, ?_⟩
  rintro rfl
  refine key.2 ?_
  obtain ⟨⟨hT0, hv⟩, -⟩ := (C43_well_formed family.exact T.val true name).ok hexact
  rw [Family.call_eq hv hT0] at hexact
  injection hexact with hexact
  subst hexact
  exact pulses_withPrePost T.val (family.exact.table T.val) name

end

/-! ## The hypotheses are met -/

/-- A spin echo of duration 1 on hardware with a Rabi rate of `40π`, under a tone of one period and a random phase. -/
example : ∃ s c, ∃ U : (Fin 1 → ℝ) → ℝ → M2, newSpinEchoSequence (1 : ℝ) true none = .ok s ∧
    convertDDS s (40 * Real.pi) (40 * Real.pi) 0 none = .ok c ∧
    (∀ φ, NoisyEvolution c ⟨fun _ => 0, fun _ => 0, tones ![1 / 10] ![2 * Real.pi] φ⟩ (U φ)) ∧
    997 / 1000 ≤ ∫ φ, returnProbability (U φ 1) ∂(Measure.pi fun _ => randomPhase) := by
  obtain ⟨s, hs, hwf⟩ := (C43_well_formed .spinEcho 1 true none).1 ⟨one_pos, trivial⟩
  have hpi := Real.pi_pos
  have hw : pulseTime (40 * Real.pi) (40 * Real.pi) 0 = 1 / 40 := by
    have : Real.pi / (40 * Real.pi) = 1 / 40 := by field_simp
    rw [pulseTime, this]; norm_num
  have hs' := hs
  rw [Family.call_eq (family := .spinEcho) trivial one_pos] at hs'
  injection hs' with hs'
  obtain ⟨c, hc, hcar⟩ := C60_enough_room .spinEcho 1 true none s hs trivial (40 * Real.pi) (40 * Real.pi) 0
    (by positivity) (by positivity) le_rfl (by
      rw [hw, ← hs']
      simp [Apart, finished, withPrePost, piSequence, Family.table]
      norm_num) none
  have hcon := hwf.constructed one_pos
  have hdur : s.duration = 1 := hwf.1
  have hno := (C47_duration_exact_partial s hcon _ _ 0 none c hc).2 (by rw [hdur]; norm_num)
    (by rw [hdur]; exact hcar.1)
  have hcc := ((C46_convertible s hcon _ _ 0 none).ok hc).2.1
  have ht : pulseTimes (40 * Real.pi) (40 * Real.pi) 0 s ≤ 3 / 40 := by
    have hpl : pulseList s = ⟨0, Real.pi / 2, 0, 0⟩ :: ([(1 / 2, Axis.x)].map tablePulse ++
        [⟨1, Real.pi / 2, finalAngle [(1 / 2, Axis.x)], 0⟩]) := by
      rw [← hs']; exact pulseList_prePost _ _ _ _
    have h3 := List.sum_le_card_nsmul ((pulseList s).map (width (40 * Real.pi) (40 * Real.pi) 0)) (1 / 40) (by
      intro x hx
      obtain ⟨p, hp, rfl⟩ := List.mem_map.mp hx
      rw [← hw]
      exact standard_width (by positivity) (by positivity) le_rfl (hwf.standard p hp))
    unfold pulseTimes
    refine h3.trans ?_
    rw [hpl]
    norm_num
  have h0 : 0 ≤ pulseTimes (40 * Real.pi) (40 * Real.pi) 0 s := List.sum_nonneg (by
    intro x hx
    obtain ⟨p, hp, rfl⟩ := List.mem_map.mp hx
    exact width_nonneg le_rfl _ _ _)
  have hS := C138_tones (![1 / 10] : Fin 1 → ℝ) ![2 * Real.pi]
  rw [Fin.sum_univ_one] at hS
  have : IsFiniteMeasure (ENNReal.ofReal ((![1 / 10] : Fin 1 → ℝ) 0 ^ 2 / 2) •
      Measure.dirac ((![2 * Real.pi] : Fin 1 → ℝ) 0)) := ⟨by simp⟩
  choose U hU using fun φ => C113_exists c hcc ⟨fun _ => 0, fun _ => 0, tones ![1 / 10] ![2 * Real.pi] φ⟩
    continuous_const continuous_const (hS.continuous φ)
  refine ⟨s, c, U, hs, hc, fun φ => (hU φ).1, ?_⟩
  have key := ((C140_converted hS .spinEcho 1 (by norm_num) true none s hs _ _ 0 hno none c hc (1 / 10)
    (fun φ t _ => by simpa using tones_bound (![1 / 10] : Fin 1 → ℝ) ![2 * Real.pi] φ t) U fun φ => (hU φ).1).2 rfl).2
  have h1 := C123_spin_echo 1 true none s hs (2 * Real.pi)
  rw [show 2 * Real.pi * 1 / 4 = Real.pi / 2 by ring, Real.sin_pi_div_two, abs_of_pos (by positivity)] at h1
  have e1 : ‖toneResponse s (2 * Real.pi)‖ = 2 / Real.pi := by
    field_simp; linarith
  have hov : √(spectralOverlap s (ENNReal.ofReal ((![1 / 10] : Fin 1 → ℝ) 0 ^ 2 / 2) •
      Measure.dirac ((![2 * Real.pi] : Fin 1 → ℝ) 0))) ≤ 1 / 20 := by
    refine Real.sqrt_le_iff.mpr ⟨by norm_num, ?_⟩
    unfold spectralOverlap
    rw [integral_smul_measure, integral_dirac, ENNReal.toReal_ofReal (by positivity)]
    simp only [Matrix.cons_val_zero, e1, smul_eq_mul]
    have h3 := Real.pi_gt_three
    have h4 : (2 / Real.pi) ^ 2 ≤ (2 / 3) ^ 2 :=
      pow_le_pow_left₀ (by positivity) (div_le_div_of_nonneg_left (by norm_num) (by norm_num) h3.le) 2
    norm_num at h4 ⊢
    linarith
  have hnn := Real.sqrt_nonneg (spectralOverlap s (ENNReal.ofReal ((![1 / 10] : Fin 1 → ℝ) 0 ^ 2 / 2) •
      Measure.dirac ((![2 * Real.pi] : Fin 1 → ℝ) 0)))
  refine le_trans ?_ key
  have hb := pow_le_pow_left₀ (by positivity) (add_le_add (div_le_div_of_nonneg_right hov zero_le_two)
    (mul_le_mul_of_nonneg_left ht (show (0 : ℝ) ≤ 1 / 10 by norm_num))) 2
  refine le_trans ?_ (sub_le_sub_left hb 1)
  norm_num

/-- A CPMG sequence of two pulses, computed and converted in double precision, under a tone of a random phase. -/
example : ∃ s c, ∃ U : (Fin 1 → ℝ) → ℝ → M2,
    newCPMGSequence (round Rounding.double 1) (round Rounding.double 2) true none = .ok s ∧
    convertDDS s (round Rounding.double 64) (round Rounding.double 64) (round Rounding.double 0) none = .ok c ∧
    (∀ φ, NoisyEvolution (c.map val) ⟨fun _ => 0, fun _ => 0, tones ![1 / 10] ![3] φ⟩ (U φ)) ∧
    996 / 1000 ≤ ∫ φ, returnProbability (U φ (c.map val).durations.sum) ∂(Measure.pi fun _ => randomPhase) := by
  have h0 : (round Rounding.double 0).val = 0 := Rounding.double.rnd_zero
  have h1 : (round Rounding.double 1).val = 1 := Rounding.double.rnd_one
  have h2 : (round Rounding.double 2).val = 2 := Rounding.double.rnd_two
  have h64 : (round Rounding.double 64).val = 64 := by simpa using double_nat (n := 64) (by norm_num)
  have hu : Rounding.double.u = 1 / 2 ^ 53 := double_u
  have hpi := Real.pi_gt_three
  have hpi' := Real.pi_lt_d2
  obtain ⟨e, he, hwf⟩ := (C43_well_formed (.cpmg 2) 1 true none).1 ⟨one_pos, by norm_num [Family.Valid]⟩
  have he' := he
  rw [Family.call_eq (by norm_num [Family.Valid]) one_pos] at he'
  injection he' with he'
  have hlen : e.offsets.length = 4 := by
    subst he'
    simp [finished, withPrePost, piSequence, Family.table, onAxis, cpmgTimes]
  have hp : pulseTime 64 64 0 = Real.pi / 64 := by
    rw [pulseTime, max_self, max_eq_left (by positivity)]
  have hv : (RoundedFamily.cpmg (round Rounding.double 2)).exact.Valid := by
    simp only [RoundedFamily.exact, Family.Valid]; rw [h2]; norm_num
  have hsm : (RoundedFamily.cpmg (round Rounding.double 2)).Small := by
    simp only [RoundedFamily.Small]; rw [h2, hu]; norm_num
  have hS := C138_tones (![1 / 10] : Fin 1 → ℝ) ![3]
  rw [Fin.sum_univ_one] at hS
  have : IsFiniteMeasure (ENNReal.ofReal ((![1 / 10] : Fin 1 → ℝ) 0 ^ 2 / 2) •
      Measure.dirac ((![3] : Fin 1 → ℝ) 0)) := ⟨by simp⟩
  obtain ⟨s, c, a1, a2, a3⟩ := C140_computed hS (.cpmg (round Rounding.double 2))
    (round Rounding.double 1) (by rw [h1]; norm_num) hv hsm true trivial none e
    (by simp only [RoundedFamily.exact]; rw [h2, h1]; exact he)
    (round _ 64) (round _ 64) (round _ 0) (by rw [h64]; norm_num) (by rw [h64]; norm_num)
    (by rw [h0]) (1 / 4) (by
      subst he'
      simp [Apart, finished, withPrePost, piSequence, Family.table, onAxis, cpmgTimes,
        List.range']
      norm_num) (by
      simp only [RoundedFamily.error]
      rw [h64, h0, h1, hu, hp]
      norm_num
      linarith) (by
      have hp : shortestPulse 64 64 0 = Real.pi / 2 / 64 := by
        rw [shortestPulse, min_eq_left (by linarith), max_eq_left (by positivity)]
      rw [h64, h0, h1, hu, hp]
      norm_num
      linarith) none (1 / 10) fun φ t _ => by simpa using tones_bound (![1 / 10] : Fin 1 → ℝ) ![3] φ t
  have hcon : s.Constructed := by
    obtain ⟨s', e', hs', he', happ⟩ := C78_agrees (.cpmg (round Rounding.double 2)) (round Rounding.double 1)
      (by rw [h1]; norm_num) hv hsm true none
    obtain rfl : s' = s := by rw [a1] at hs'; injection hs' with h; exact h.symm
    exact approximates_constructed happ (by rw [h1]; norm_num) ((C43_well_formed _ _ true none).ok he').2
  choose U hU using fun φ => C115_exists s hcon _ _ _ none c a2
    ⟨fun _ => 0, fun _ => 0, tones ![1 / 10] ![3] φ⟩ continuous_const continuous_const (hS.continuous φ)
  refine ⟨s, c, U, a1, a2, fun φ => (hU φ).1, ?_⟩
  have key := ((a3 U fun φ => (hU φ).1).2 rfl).2
  have hdur : e.duration = 1 := hwf.1
  have hov : √(spectralOverlap e (ENNReal.ofReal ((![1 / 10] : Fin 1 → ℝ) 0 ^ 2 / 2) •
      Measure.dirac ((![3] : Fin 1 → ℝ) 0))) ≤ 3 / 40 := by
    refine Real.sqrt_le_iff.mpr ⟨by norm_num, ?_⟩
    have hf : _ = spectralOverlap e _ := (C138_filter_function hS e (by rw [hdur]; exact zero_le_one)).2
    rw [← hf]
    refine (C138_suppression hS (.cpmg 2) 1 true none e he 0 (Nat.zero_le _)
      (by simp only [mul_zero, pow_zero]; exact integrable_const _)).trans ?_
    simp only [mul_zero, pow_zero, integral_smul_measure, integral_dirac]
    rw [ENNReal.toReal_ofReal (by positivity)]
    norm_num
  refine le_trans ?_ key
  have hdef : (RoundedFamily.cpmg (round Rounding.double 2)).defect (round Rounding.double 1).val (1 / 10)
      (pulseTime (round Rounding.double 64).val (round Rounding.double 64).val (round Rounding.double 0).val)
      e.offsets.length ≤ 1 / 50 := by
    rw [hlen, h1, h64, h0, hp]
    simp only [RoundedFamily.defect, RoundedFamily.error]
    rw [hu]
    norm_num
    linarith
  have hdef0 : 0 ≤ (RoundedFamily.cpmg (round Rounding.double 2)).defect (round Rounding.double 1).val (1 / 10)
      (pulseTime (round Rounding.double 64).val (round Rounding.double 64).val (round Rounding.double 0).val)
      e.offsets.length := by
    rw [hlen, h1, h64, h0, hp]
    simp only [RoundedFamily.defect, RoundedFamily.error]
    rw [hu]
    positivity
  have hb := pow_le_pow_left₀ (add_nonneg (by positivity) hdef0)
    (add_le_add (div_le_div_of_nonneg_right hov zero_le_two) hdef) 2
  refine le_trans ?_ (sub_le_sub_left hb 1)
  norm_num

end OpenControls
