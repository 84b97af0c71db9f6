import Verif.Proofs.RateErrors
import Verif.Props.EndToEnd
import Verif.Props.PulseErrors

/-!
# C94: converted controls on hardware with miscalibrated rates
-/

namespace OpenControls

open Spec RealInst

/-- **C94.** If the hardware multiplies all Rabi rates of a converted control by `k` and all detunings by `l`, it
performs the pulses, as the conversion takes them, with all rotation angles multiplied alike: the finite
width of the pulses makes no difference. -/
theorem C94_scaled (s : Sequence ℝ) (hs : s.Constructed) (hT : 1 / 10 ^ 8 < s.duration)
    (R D m : ℝ) (name : Option String) (c : DrivenControl ℝ)
    (h : convertDDS s R D m name = .ok c) (k l : ℝ) :
    evolution (scaledRates k l c) =
      productOf ((pulseList s).map fun p => scaledPulse k l (effective p)) := by
  obtain ⟨hc, h | h⟩ := converted hs h
  · exact absurd (allSmall_duration hs hc h.1) (not_le.mpr hT)
  · obtain ⟨-, rfl⟩ := h
    rw [evolution_scaled_kept hc.1 hc.2.1 _ (pad_rabi hc), scaledProduct_pad, scaledProduct_eq]

/-- **C94**, for pulses that are rotations of a single kind: the miscalibrated control performs exactly the
miscalibrated sequence. -/
theorem C94_scaled_pure (s : Sequence ℝ) (hs : s.Constructed) (hT : 1 / 10 ^ 8 < s.duration)
    (hp : ∀ p ∈ pulseList s, PurePulse p) (R D m : ℝ) (name : Option String) (c : DrivenControl ℝ)
    (h : convertDDS s R D m name = .ok c) (k l : ℝ) :
    evolution (scaledRates k l c) = pulses (scaledAngles k l s) := by
  obtain ⟨hT0, hb, hr, ha, hd⟩ := hs.facts
  obtain ⟨h1, h2, h3⟩ := pulseList_columns s hr ha hd
  rw [C94_scaled s hs hT R D m name c h k l]
  have e : (pulseList s).map (fun p => scaledPulse k l (effective p)) =
      (pulseList s).map (scaledPulse k l) :=
    List.map_congr_left fun p hpm => by rw [effective_pure (hp p hpm)]
  rw [e, productOf, List.map_map, List.map_map, List.map_map]
  unfold pulses scaledAngles
  simp only
  rw [← h1, ← h2, ← h3, List.map_map, List.map_map]
  rfl

/-- the amplitude error of C56 is a special case -/
theorem amplitudeError_scaledRates (e : ℝ) (c : DrivenControl ℝ) :
    withAmplitudeError e c = scaledRates (1 + e) 1 c := by
  simp [withAmplitudeError, scaledRates]

/-- A predefined sequence with pre and post rotations, converted, under an amplitude error -/
theorem amplitude_family {family : Family} {T : ℝ} {name : Option String} {s : Sequence ℝ}
    (hs : family.call T true name = .ok s) (h8 : 1 / 10 ^ 8 < T) {R D m : ℝ}
    {cname : Option String} {c : DrivenControl ℝ} (h : convertDDS s R D m cname = .ok c) (e : ℝ) :
    s = withPrePost (finalAngle (family.table T)) (piSequence T (family.table T) name) ∧
    evolution (withAmplitudeError e c) = pulses (scaledAngles (1 + e) 1 s) := by
  obtain ⟨⟨hT, hv⟩, hw⟩ := (C43_well_formed family T true name).ok hs
  have hdur : s.duration = T := hw.1
  have e1 := C94_scaled_pure s (hw.constructed hT) (by rwa [hdur])
    (fun p hp => (hw.standard p hp).facts.2.2.1) R D m cname c h (1 + e) 1
  rw [Family.call_eq hv hT] at hs
  injection hs with hs
  exact ⟨hs.symm, by rw [amplitudeError_scaledRates, e1]⟩

/-- **C94**, sequences with pulses about X (and Z): with all Rabi rates off by the relative error `e`, the
converted control brings the qubit back with probability `cos²(e α/2)`, where `α` is the angle by which all
pulses turn the qubit about X altogether. -/
theorem C94_accumulates (family : Family) (hf : family.PulsesAcrossState) (T : ℝ)
    (h8 : 1 / 10 ^ 8 < T) (name : Option String) (s : Sequence ℝ)
    (hs : family.call T true name = .ok s) (R D m : ℝ) (cname : Option String)
    (c : DrivenControl ℝ) (h : convertDDS s R D m cname = .ok c) (e : ℝ) :
    returnProbability (evolution (withAmplitudeError e c)) =
      Real.cos (e * netRotation (pulseList s) / 2) ^ 2 := by
  obtain ⟨e1, e2⟩ := amplitude_family hs h8 h e
  rw [e2, e1]
  exact amplitude_across (table_no_y hf T) T name e

/-- **C94**, CPMG and Uhrig sequences: the loss is bounded by that of a single wrong pulse, however many
pulses there are. -/
theorem C94_bounded (family : Family) (hf : family.PulsesAlongState) (T : ℝ)
    (h8 : 1 / 10 ^ 8 < T) (name : Option String) (s : Sequence ℝ)
    (hs : family.call T true name = .ok s) (R D m : ℝ) (cname : Option String)
    (c : DrivenControl ℝ) (h : convertDDS s R D m cname = .ok c) (e : ℝ) :
    returnProbability (evolution (withAmplitudeError e c)) =
      1 - Real.sin ((s.offsets.length - 2) * ((1 + e) * Real.pi) / 2) ^ 2 *
        Real.sin (Real.pi * e / 2) ^ 2 ∧
    Real.cos (Real.pi * e / 2) ^ 2 ≤ returnProbability (evolution (withAmplitudeError e c)) := by
  obtain ⟨e1, e2⟩ := amplitude_family hs h8 h e
  have hlen : (s.offsets.length : ℝ) - 2 = (family.table T).length := by
    rw [e1]
    simp [withPrePost, piSequence]
    ring
  have key : returnProbability (evolution (withAmplitudeError e c)) =
      1 - Real.sin ((s.offsets.length - 2) * ((1 + e) * Real.pi) / 2) ^ 2 *
        Real.sin (Real.pi * e / 2) ^ 2 := by
    rw [hlen, e2, e1]
    exact amplitude_along (table_all_y hf T) T name e
  refine ⟨key, ?_⟩
  rw [key]
  have h1 := Real.sin_sq_add_cos_sq (Real.pi * e / 2)
  have h2 := Real.sin_sq_le_one ((s.offsets.length - 2) * ((1 + e) * Real.pi) / 2)
  nlinarith [sq_nonneg (Real.sin (Real.pi * e / 2))]

theorem netRotation_onAxis (ts : List ℝ) (q : Pulse) (hq : q.detuning = 0) :
    netRotation ((onAxis .x ts).map
      (fun p => (⟨p.1, p.2.rabi, p.2.azimuthal, p.2.detuning⟩ : Pulse)) ++ [q]) =
      ts.length * Real.pi + Real.cos q.azimuthal * q.rabi := by
  rw [netRotation_table _ (fun p hp => by obtain ⟨t, -, rfl⟩ := List.mem_map.mp hp; simp) _ hq]
  have h1 : signedError (fun _ => 1) (onAxis .x ts) = ts.length := by
    induction ts with
    | nil => simp [onAxis, signedError]
    | cons t r ih =>
      have : onAxis .x (t :: r) = (t, .x) :: onAxis .x r := rfl
      rw [this, signedError, ih, List.length_cons]
      · push_cast; ring
      · simp
  have h2 : zSign (onAxis .x ts) = 1 := by
    clear h1
    induction ts with
    | nil => rfl
    | cons t r ih => exact ih
  rw [h1, h2]; ring

/-- **C94**, in particular `n` Carr-Purcell pulses: the return probability is `cos²(π e ⌈n/2⌉)`. -/
theorem C94_carr_purcell (T n : ℝ) (h8 : 1 / 10 ^ 8 < T) (name : Option String) (s : Sequence ℝ)
    (hs : newCarrPurcellSequence T n true name = .ok s) (R D m : ℝ) (cname : Option String)
    (c : DrivenControl ℝ) (h : convertDDS s R D m cname = .ok c) (e : ℝ) :
    returnProbability (evolution (withAmplitudeError e c)) =
      Real.cos (Real.pi * e * ((⌊n⌋₊ + 1) / 2 : ℕ)) ^ 2 := by
  have hs0 : Family.call (.carrPurcell n) T true name = .ok s := hs
  rw [C94_accumulates (.carrPurcell n) trivial T h8 name s hs0 R D m cname c h e,
    (amplitude_family hs0 h8 h e).1, pulseList_withPrePost, netRotation, if_neg (by
      exact Real.pi_pos.ne),
    show Family.table (.carrPurcell n) T = onAxis .x (cpmgTimes T ⌊n⌋₊) from rfl,
    netRotation_onAxis _ _ rfl]
  have hcount : ∀ ts : List ℝ, countAxes .x .y (onAxis .x ts) = ts.length ∧
      countAxes .y .z (onAxis .x ts) = 0 := by
    intro ts
    constructor
    · unfold countAxes onAxis
      rw [List.countP_eq_length.mpr (by simp)]
      simp
    · unfold countAxes onAxis
      rw [List.countP_eq_zero]
      simp
  have hlen : (cpmgTimes T ⌊n⌋₊).length = ⌊n⌋₊ := by simp [cpmgTimes]
  have hφ : finalAngle (onAxis .x (cpmgTimes T ⌊n⌋₊)) = if ⌊n⌋₊ % 2 = 0 then Real.pi else 0 := by
    unfold finalAngle
    rw [(hcount _).1, (hcount _).2, hlen]
    simp
  rw [hφ, hlen]
  rcases Nat.mod_two_eq_zero_or_one ⌊n⌋₊ with h2 | h2
  · obtain ⟨j, hj⟩ : ∃ j, ⌊n⌋₊ = 2 * j := ⟨⌊n⌋₊ / 2, by omega⟩
    rw [hj]
    have : (2 * j + 1) / 2 = j := by omega
    rw [this, if_pos (by omega)]
    congr 2
    simp only [Real.cos_zero, Real.cos_pi]
    push_cast; ring
  · obtain ⟨j, hj⟩ : ∃ j, ⌊n⌋₊ = 2 * j + 1 := ⟨⌊n⌋₊ / 2, by omega⟩
    rw [hj]
    have : (2 * j + 1 + 1) / 2 = j + 1 := by omega
    rw [this, if_neg (by omega)]
    congr 2
    simp only [Real.cos_zero]
    push_cast; ring

/-- ten Carr-Purcell pulses on fast hardware with Rabi rates ten percent too large lose the state
completely, ten CPMG pulses keep it to more than 97 percent -/
example : ∃ s s' c c', newCarrPurcellSequence (1 : ℝ) 10 true none = .ok s ∧
    newCPMGSequence (1 : ℝ) 10 true none = .ok s' ∧
    (∃ R : ℝ, convertDDS s R R 0 none = .ok c ∧ convertDDS s' R R 0 none = .ok c') ∧
    returnProbability (evolution (withAmplitudeError (1 / 10) c)) = 0 ∧
    97 / 100 ≤ returnProbability (evolution (withAmplitudeError (1 / 10) c')) := by
  obtain ⟨s, hs, -⟩ := (C43_well_formed (.carrPurcell 10) 1 true none).1
    ⟨by norm_num, show (1 : ℝ) ≤ 10 by norm_num⟩
  obtain ⟨s', hs', -⟩ := (C43_well_formed (.cpmg 10) 1 true none).1
    ⟨by norm_num, show (1 : ℝ) ≤ 10 by norm_num⟩
  obtain ⟨B, hB, h⟩ := C60_fast_hardware (.carrPurcell 10) 1 true none s hs trivial
  obtain ⟨B', hB', h'⟩ := C60_fast_hardware (.cpmg 10) 1 true none s' hs' trivial
  obtain ⟨c, hc, -⟩ := h (max B B') (max B B') (le_max_left _ _) (le_max_left _ _) none
  obtain ⟨c', hc', -⟩ := h' (max B B') (max B B') (le_max_right _ _) (le_max_right _ _) none
  refine ⟨s, s', c, c', hs, hs', ⟨_, hc, hc'⟩, ?_, ?_⟩
  · rw [C94_carr_purcell 1 10 (by norm_num) none s hs _ _ _ none c hc]
    have : (⌊(10 : ℝ)⌋₊ + 1) / 2 = 5 := by
      have : ⌊(10 : ℝ)⌋₊ = 10 := by norm_num
      rw [this]
    rw [this, show Real.pi * (1 / 10) * ((5 : ℕ) : ℝ) = Real.pi / 2 by push_cast; ring]
    simp
  · refine le_trans ?_ (C94_bounded (.cpmg 10) trivial 1 (by norm_num) none s' hs' _ _ _ none c' hc'
      (1 / 10)).2
    have h1 := Real.one_sub_sq_div_two_le_cos (x := Real.pi * (1 / 10) / 2)
    have h2 := Real.pi_lt_d2
    have h3 := Real.pi_pos
    have h4 : (Real.pi * (1 / 10) / 2) ^ 2 ≤ 25 / 1000 := by nlinarith
    have h5 : 98 / 100 ≤ Real.cos (Real.pi * (1 / 10) / 2) := by linarith
    nlinarith

end OpenControls
