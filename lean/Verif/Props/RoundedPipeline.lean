import Verif.Proofs.RoundedPipeline
import Verif.Props.EndToEnd
import Verif.Props.RoundedConversion

/-!
# C78: from the arguments of a predefined sequence to a control, in floating point

Both steps, the predefined constructor and `convert_dds_to_driven_control`, are run in the floating-point
arithmetic `r`, with unit roundoff `r.u`; the result is compared with the ideal pulses of the sequence in
exact arithmetic.
-/

namespace OpenControls

open Spec Fl
open scoped Matrix.Norms.L2Operator

variable {r : Rounding}

/-- **C78**, first step: all of C63 in one statement. -/
theorem C78_agrees (family : RoundedFamily r) (T : Fl r) (hT : 0 < T.val)
    (hv : family.exact.Valid) (hsmall : family.Small) (prePost : Bool) (name : Option String) :
    Agrees family.error (family.call T prePost name) (family.exact.call T.val prePost name) := by
  cases family with
  | ramsey => exact C63_ramsey T hT prePost name
  | spinEcho => exact C63_spin_echo T hT prePost name
  | carrPurcell n => exact C63_carr_purcell T n hT hv hsmall prePost name
  | cpmg n => exact C63_cpmg T n hT hv hsmall prePost name
  | uhrig n => exact C63_uhrig T n hT hv hsmall prePost name
  | periodic n => exact C63_periodic T n hT hv hsmall prePost name
  | walsh k => exact C63_walsh T k hT hv.1 hv.2 prePost name
  | quadratic n m => exact C63_quadratic T n m hT hv.1 hv.2 hsmall prePost name
  | xConcatenated l => exact C63_x_concatenated T l hT hv hsmall prePost name
  | xyConcatenated l => exact C63_xy_concatenated T l hT hv hsmall prePost name

theorem Spec.RoundedFamily.error_nonneg (family : RoundedFamily r) : 0 ≤ family.error := by
  have := r.u_nonneg
  cases family <;> simp only [RoundedFamily.error] <;> positivity

/-- **C78.** A predefined sequence with at most one pulse at each time, computed and converted in floating
point: if there is room for two π-pulses, a minimum segment and the rounding error of times between any
two instants of the exact sequence, and the pulses are long compared with that error, both calls succeed.
The evolution under the control differs from the product of the ideal pulses by at most `7 u` per pulse;
with pre and post rotations it is within the same error of the identity or Z, up to a phase.  The control
takes the time `T` up to `6 u T` and respects the maximum rates and the minimum duration up to the factor
`1 ± κ`. -/
theorem C78_pipeline (family : RoundedFamily r) (T : Fl r) (hT : 2 / 10 ^ 8 ≤ T.val)
    (hv : family.exact.Valid) (hsmall : family.Small) (prePost : Bool)
    (hsep : family.exact.Separate prePost) (name : Option String)
    (exact : Sequence ℝ) (hexact : family.exact.call T.val prePost name = .ok exact)
    (R D m : Fl r) (hR : 0 < R.val) (hD : 0 < D.val) (hm : 0 ≤ m.val)
    (gap : ℝ) (hroom : Apart gap exact)
    (hgap : 2 * pulseTime R.val D.val m.val + m.val + (35 * r.u + 2 * family.error) * T.val < gap)
    (κ : ℝ) (hκ0 : 0 ≤ κ) (hκ : κ ≤ 1 / 2)
    (hwide : 65 * r.u * T.val ≤ κ * shortestPulse R.val D.val m.val) (cname : Option String) :
    ∃ s c, family.call T prePost name = .ok s ∧ convertDDS s R D m cname = .ok c ∧
      c.name = cname ∧
      PerformsWithin (7 * r.u * exact.offsets.length) c (pulses exact) ∧
      (prePost = true → ∃ z : ℂ, ‖z‖ = 1 ∧
        (PerformsWithin (7 * r.u * exact.offsets.length) c (z • 1) ∨
          PerformsWithin (7 * r.u * exact.offsets.length) c (z • σz))) ∧
      |(c.map val).durations.sum - T.val| ≤ 6 * r.u * T.val ∧
      (∀ x ∈ c.rabiRates, 0 ≤ x.val ∧ x.val ≤ (1 + κ) * R.val) ∧
      (∀ x ∈ c.detunings, |x.val| ≤ (1 + κ) * D.val) ∧
      (∀ t ∈ c.durations, (1 - κ) * m.val ≤ t.val) := by
  have hu := r.u_nonneg
  have hu20 := r.u_le
  have hT0 : 0 < T.val := lt_of_lt_of_le (by norm_num) hT
  have hpi := Real.pi_pos
  have herr := family.error_nonneg
  obtain ⟨s, e, hs, he, happ⟩ := C78_agrees family T hT0 hv hsmall prePost name
  obtain rfl : e = exact := by rw [hexact] at he; injection he with he; exact he.symm
  obtain ⟨-, hw⟩ := (C43_well_formed family.exact T.val prePost name).ok hexact
  have hinc := (Family.increasing_iff hexact).mpr hsep
  have hdur : e.duration = T.val := hw.1
  have hsd : s.duration.val = T.val := happ.duration.trans hdur
  have hcon := approximates_constructed happ hT0 hw
  have hpulses : List.Forall₂ (fun p' p => PulseFacts r p' p) (pulseList (s.map val)) (pulseList e) := by
    have h := approximates_pulses happ
    have hst := hw.standard'
    generalize pulseList (s.map val) = l' at h
    generalize pulseList e = l at h hst
    induction h with
    | nil => exact .nil
    | cons hp _ ih =>
      exact .cons (pulse_facts hp (hst _ (by simp))) (ih fun p hp => hst p (by simp [hp]))
  have hfacts : ∀ p' ∈ pulseList (s.map val), ∃ p, PulseFacts r p' p := by
    intro p' hp'
    obtain ⟨i, hi, rfl⟩ := List.getElem_of_mem hp'
    exact ⟨_, List.Forall₂.get hpulses hi (hpulses.length_eq ▸ hi)⟩
  have hlen : (pulseList e).length = e.offsets.length := by
    have := pulseList_offsets e hw.2.1 hw.2.2.1 hw.2.2.2.1
    rw [← this, List.length_map]
  set w := pulseTime R.val D.val m.val with hwdef
  have hw0 : 0 ≤ w := hm.trans (le_max_right _ _)
  have hεT : 0 ≤ family.error * e.duration := by rw [hdur]; positivity
  have hgT : gap ≤ T.val := by
    have := hroom 0 (by simp) e.duration (by simp) (by rw [hdur]; exact hT0)
    rw [hdur] at this
    linarith
  have hεT' : 0 ≤ family.error * T.val := by positivity
  have huT : 0 ≤ r.u * T.val := by positivity
  have hwT : 2 * w ≤ T.val := by linarith
  have hap := approximates_apart happ hεT hroom
  rw [hdur] at hap
  have huw : r.u * (2 * w) ≤ r.u * T.val := mul_le_mul_of_nonneg_left hwT hu
  have hinc' := approximates_increasing happ hinc
  have hgaps := eachGap_of_room' (R := R.val) (D := D.val) (m := m.val) (w := (1 + r.u) * w)
    (G := gap - 2 * (family.error * T.val) - 2 * ((1 + r.u) * w)) (rounded_facts hcon) hm hinc'
    (by positivity) (fun p hp => by
      obtain ⟨q, hq⟩ := hfacts p hp
      exact hq.width_le _ _ _ hR hD hm) (by
      have e1 : 2 * ((1 + r.u) * w) + (gap - 2 * (family.error * T.val) - 2 * ((1 + r.u) * w)) =
        gap - 2 * (family.error * T.val) := by ring
      rw [e1]; exact hap)
  have hconv : ConvertibleWith (32 * r.u * s.duration.val) R.val D.val m.val (s.map val) := by
    refine ⟨hR, hD, hm, fun p hp => (hfacts p hp).choose_spec.nonneg,
      fun p hp => (hfacts p hp).choose_spec.notBoth, hinc', EachGap.mono hgaps fun g h => ?_⟩
    rw [hsd]
    linarith
  obtain ⟨c, h1, h2, h3, h4, h5, h6, h7⟩ := C77_converts s hcon R D m cname (by rw [hsd]; exact hT)
    (fun p hp => (hfacts p hp).choose_spec.clear) hconv κ hκ0 hκ (fun p hp _ => by
      rw [hsd]
      have h1 := (hfacts p hp).choose_spec.width_ge _ _ _ hR hD hm
      have h2 := mul_le_mul_of_nonneg_left h1 hκ0
      have hu64 : r.u ≤ 1 / 65 := hu20.trans (by norm_num)
      have h3 := mul_le_mul_of_nonneg_left hwide (show 0 ≤ 1 - r.u by linarith)
      have h4 := mul_le_mul_of_nonneg_right hu64 (show 0 ≤ 65 * r.u * T.val by positivity)
      linarith)
  rw [hsd] at h4
  have hdist : PerformsWithin (7 * r.u * e.offsets.length) c (pulses e) := by
    have d1 := realisedProduct_dist hpulses
    have d2 := turning_le hpulses
    have e1 : realisedProduct (pulseList e) = pulses e := by
      have hpure : ∀ p ∈ pulseList e, PurePulse p := fun p hp => (hw.standard p hp).facts.2.2.1
      have := realisedProduct_pure hpure
      rw [this]
      obtain ⟨c1, c2, c3⟩ := pulseList_columns e hw.2.1 hw.2.2.1 hw.2.2.2.1
      rw [c1, c2, c3]
      rfl
    rw [realisedProduct_effective, e1] at d1
    rw [hlen] at d1 d2
    intro i j
    have a := h3 i j
    have b := entry_le_norm (productOf ((pulseList (s.map val)).map effective) - pulses e) i j
    have e2 : (evolution (c.map val) - pulses e) i j =
        (evolution (c.map val) - productOf ((pulseList (s.map val)).map effective)) i j +
        (productOf ((pulseList (s.map val)).map effective) - pulses e) i j := by
      simp only [Matrix.sub_apply]; ring
    rw [e2]
    refine (norm_add_le _ _).trans ?_
    have hn : (0 : ℝ) ≤ e.offsets.length := Nat.cast_nonneg _
    have d3 := mul_le_mul_of_nonneg_left d2 (show 0 ≤ r.u / 2 by positivity)
    have hπ := Real.pi_lt_d2
    have k1 : r.u / 2 * (1 + r.u) * Real.pi + 3 / 2 * Real.pi * r.u ≤ 7 * r.u := by
      have : (1 + r.u) / 2 * Real.pi + 3 / 2 * Real.pi ≤ 7 := by
        have hu64 : r.u ≤ 1 / 65 := hu20.trans (by norm_num)
        nlinarith
      calc _ = r.u * ((1 + r.u) / 2 * Real.pi + 3 / 2 * Real.pi) := by ring
        _ ≤ r.u * 7 := mul_le_mul_of_nonneg_left this hu
        _ = _ := by ring
    have k2 := mul_le_mul_of_nonneg_left k1 hn
    linarith
  refine ⟨s, c, hs, h1, h2, hdist, ?_, h4, h5, h6, h7⟩
  intro hpp
  subst hpp
  rw [Family.call_eq hv hT0] at hexact
  injection hexact with hexact
  have := pulses_withPrePost T.val (family.exact.table T.val) name
  have hp : pulses e = pulses (withPrePost (finalAngle (family.exact.table T.val))
      (piSequence T.val (family.exact.table T.val) name)) := by rw [← hexact]; rfl
  rw [← hp] at this
  rcases this with ⟨z, hz, h⟩ | ⟨z, hz, h⟩
  · exact ⟨z, hz, .inl (h ▸ hdist)⟩
  · exact ⟨z, hz, .inr (h ▸ hdist)⟩

/-- The CPMG sequence of two pulses and duration 1, with pre and post rotations, in double precision, on
hardware with maximum rates 64: four pulses, so the identity or Z up to a phase and `28 u`. -/
example : ∃ s c, newCPMGSequence (round Rounding.double 1) (round Rounding.double 2) true none = .ok s ∧
    convertDDS s (round Rounding.double 64) (round Rounding.double 64) (round Rounding.double 0) none
      = .ok c ∧
    (∃ z : ℂ, ‖z‖ = 1 ∧ (PerformsWithin (28 / 2 ^ 53) c (z • 1) ∨
      PerformsWithin (28 / 2 ^ 53) c (z • σz))) ∧
    |(c.map val).durations.sum - 1| ≤ 6 / 2 ^ 53 ∧
    ∀ x ∈ c.rabiRates, x.val ≤ (1 + 1 / 2 ^ 20) * 64 := by
  have h0 : (round Rounding.double 0).val = 0 := Rounding.double.rnd_zero
  have h1 : (round Rounding.double 1).val = 1 := Rounding.double.rnd_one
  have h2 : (round Rounding.double 2).val = 2 := Rounding.double.rnd_two
  have h64 : (round Rounding.double 64).val = 64 := by simpa using double_nat (n := 64) (by norm_num)
  have hu : Rounding.double.u = 1 / 2 ^ 53 := double_u
  have hpi := Real.pi_gt_three
  have hpi' := Real.pi_lt_d2
  obtain ⟨e, he, -⟩ := (C43_well_formed (.cpmg 2) 1 true none).1 ⟨one_pos, by norm_num [Family.Valid]⟩
  have he' := he
  rw [Family.call_eq (by norm_num [Family.Valid]) one_pos] at he'
  injection he' with he'
  have hlen : e.offsets.length = 4 := by
    subst he'
    simp [finished, withPrePost, piSequence, Family.table, onAxis, cpmgTimes]
  obtain ⟨s, c, a1, a2, -, -, a3, a4, a5, -, -⟩ := C78_pipeline (.cpmg (round Rounding.double 2))
    (round Rounding.double 1) (by rw [h1]; norm_num)
    (by simp only [RoundedFamily.exact, Family.Valid]; rw [h2]; norm_num)
    (by simp only [RoundedFamily.Small]; rw [h2, hu]; norm_num) true trivial none e
    (by simp only [RoundedFamily.exact]; rw [h2, h1]; exact he)
    (round _ 64) (round _ 64) (round _ 0) (by rw [h64]; norm_num) (by rw [h64]; norm_num)
    (by rw [h0]) (1 / 4) (by
      subst he'
      simp [Apart, finished, withPrePost, piSequence, Family.table, onAxis, cpmgTimes,
        List.range']
      norm_num) (by
      have hp : pulseTime 64 64 0 = Real.pi / 64 := by
        rw [pulseTime, max_self, max_eq_left (by positivity)]
      simp only [RoundedFamily.error]
      rw [h64, h0, h1, hu, hp]
      norm_num
      linarith) (1 / 2 ^ 20) (by positivity) (by norm_num) (by
      have hp : shortestPulse 64 64 0 = Real.pi / 2 / 64 := by
        rw [shortestPulse, min_eq_left (by linarith), max_eq_left (by positivity)]
      rw [h64, h0, h1, hu, hp]
      norm_num
      linarith) none
  refine ⟨s, c, a1, a2, ?_, ?_, fun x hx => ?_⟩
  · have := a3 rfl
    rw [hlen, hu] at this
    norm_num at this ⊢
    exact this
  · rw [h1, hu] at a4
    refine a4.trans (le_of_eq (by norm_num))
  · have := (a5 x hx).2
    rwa [h64] at this

end OpenControls
