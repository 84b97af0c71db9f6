import Verif.Proofs.SymmetricControls
import Verif.Proofs.EndToEnd
import Verif.Proofs.RoundedErrors
import Verif.Props.Composite
import Verif.Props.Reversal
import Verif.Props.EndToEnd

/-!
# C143: controls that are the same run backwards

They keep the axis of their rotation in a plane in spite of errors that are symmetric in time, in particular constant ones.
-/

namespace OpenControls

open Spec RealInst

/-- **C143** A control without detunings that is the same run backwards rotates about an axis in the XY plane, whatever the
errors of its Rabi rates, if they are symmetric about its middle: there is no rotation about Z. -/
theorem C143_no_phase (c : DrivenControl ℝ) (hc : c.Constructed) (hr : reversed c = c) (h0 : ∀ δ ∈ c.detunings, δ = 0)
    (a : ℕ → ℝ) (ha : SymmetricErrors c.durations.length a) :
    ∃ θ ψ, evolution (withSegmentErrors a (fun _ => 0) c) = rotation θ ψ := by
  obtain ⟨gs, e, e', hrev⟩ := symmetric_segments (d := fun _ => 0) hc hr ha fun _ _ => rfl
  rw [e']
  obtain ⟨w, x, y, z, hn, hu⟩ := evolution_quaternion (gs.mapIdx fun i g => g.errant (a i) 0) c.name
  have h := evolution_turned_round mirrorXY mirrorXY_one mirrorXY_mul c.name
    (gs.mapIdx fun i g => g.errant (a i) 0) fun g hg => by
      obtain ⟨i, hi, rfl⟩ := List.mem_mapIdx.mp hg
      have hz : gs[i].detuning = 0 := h0 _ (by
        rw [e]
        exact List.mem_map_of_mem (List.getElem_mem hi))
      simp only [Segment.errant, hz, add_zero]
      rw [segmentUnitary_resonant, rotation_eq, mirrorXY_su2, neg_zero]
  rw [hrev, hu, mirrorXY_su2, su2_inj] at h
  have hz : z = 0 := by linarith [h.2.2.2]
  rw [hu, hz]
  exact su2_plane_rotation (by rw [hz] at hn; linarith)

/-- **C143** A control that is the same run backwards and drives along one axis of the XY plane only rotates about an axis in the
plane of this axis and Z, whatever the errors of its Rabi rates and detunings, if they are symmetric about its middle. -/
theorem C143_plane (c : DrivenControl ℝ) (hc : c.Constructed) (hr : reversed c = c) (φ : ℝ) (hφ : DrivesAlong φ c)
    (a d : ℕ → ℝ) (ha : SymmetricErrors c.durations.length a) (hd : SymmetricErrors c.durations.length d) :
    ∃ ω δ, evolution (withSegmentErrors a d c) = pulseUnitary ω φ δ := by
  obtain ⟨gs, e, e', hrev⟩ := symmetric_segments hc hr ha hd
  rw [e']
  obtain ⟨w, x, y, z, hn, hu⟩ := evolution_quaternion (gs.mapIdx fun i g => g.errant (a i) (d i)) c.name
  have h := evolution_turned_round (mirrorAxis φ) (mirrorAxis_one φ) (mirrorAxis_mul φ) c.name
    (gs.mapIdx fun i g => g.errant (a i) (d i)) fun g hg => by
      obtain ⟨i, hi, rfl⟩ := List.mem_mapIdx.mp hg
      have hax : gs[i].rabi = 0 ∨ Real.sin (gs[i].azimuthal - φ) = 0 := hφ i _ _
        (by rw [e]; simp [ofSegments, hi]) (by rw [e]; simp [ofSegments, hi])
      obtain ⟨u, v, v', -, hs⟩ := segment_quaternion ((gs[i].errant (a i) (d i)).rabi)
        ((gs[i].errant (a i) (d i)).azimuthal) ((gs[i].errant (a i) (d i)).detuning) ((gs[i].errant (a i) (d i)).duration)
      rw [hs, mirrorAxis_fixed]
      simp only [Segment.errant]
      rcases hax with h | h
      · rw [h]; ring
      · rw [Real.sin_sub] at h
        linear_combination -(v * ((1 + a i) * gs[i].rabi)) * h
  rw [hrev, hu] at h
  rw [hu]
  exact su2_axis_pulse hn (mirrorAxis_fixed.mp h)

/-- **C143**, the primitive, SCROFULOUS and WAMF1 controls: wrong Rabi rates never make them rotate about Z. -/
theorem C143_composite (s : Scheme) (hs : s = .primitive ∨ s = .scrofulous ∨ s = .wamf1) (θ Ω φ : ℝ) (name : Option String)
    (c : DrivenControl ℝ) (h : build s θ Ω φ name = .ok c) (a : ℕ → ℝ) (ha : SymmetricErrors c.durations.length a) :
    ∃ α ψ, evolution (withSegmentErrors a (fun _ => 0) c) = rotation α ψ := by
  refine C143_no_phase c (call_constructed s θ Ω φ name c (by cases s <;> exact h)) ?_ (C25_rate_limits s θ Ω φ name c h).2.2.1 a ha
  obtain ⟨-, rfl⟩ := (build_spec s θ Ω φ name).ok h
  rcases hs with rfl | rfl | rfl <;> rfl

/-- **C143**, the primitive and WAMF1 controls: if the detuning is wrong as well, the axis stays in the plane of the intended axis
and Z. -/
theorem C143_detuned (s : Scheme) (hs : s = .primitive ∨ s = .wamf1) (θ Ω φ : ℝ) (name : Option String)
    (c : DrivenControl ℝ) (h : build s θ Ω φ name = .ok c) (a d : ℕ → ℝ) (ha : SymmetricErrors c.durations.length a)
    (hd : SymmetricErrors c.durations.length d) : ∃ ω δ, evolution (withSegmentErrors a d c) = pulseUnitary ω φ δ := by
  have hc := call_constructed s θ Ω φ name c (by cases s <;> exact h)
  obtain ⟨-, rfl⟩ := (build_spec s θ Ω φ name).ok h
  refine C143_plane _ hc (by rcases hs with rfl | rfl <;> rfl) φ (fun k Ω' ψ _ hψ => .inr ?_) a d ha hd
  have : ψ = φ := by
    have hm := List.mem_of_getElem? hψ
    rcases hs with rfl | rfl
    · simpa [result, ofTable, primitiveTable] using hm
    · simpa [result, wamf1Control] using hm
  rw [this, sub_self, Real.sin_zero]

/-- **C143** SK1 is not the same run backwards: with half the Rabi rates its π rotation turns into one with a part about Z. -/
theorem C143_sk1 (Ω : ℝ) (hΩ : 0 < Ω) : ∃ c, newSK1Control Real.pi Ω 0 none = .ok c ∧
    ∀ θ ψ, evolution (withSegmentErrors (fun _ => -1 / 2) (fun _ => 0) c) ≠ rotation θ ψ := by
  refine ⟨_, (newSK1Control_spec Real.pi Ω 0 none).1 ⟨hΩ, Real.pi_pos, by linarith [Real.pi_pos]⟩, fun θ ψ h => ?_⟩
  have hp := Real.pi_pos
  have hw : Real.cos (wimperisAngle Real.pi) = -1 / 4 := by
    have e : -Real.pi / (4 * Real.pi) = -1 / 4 := by field_simp
    rw [wimperisAngle, e, Real.cos_arccos] <;> norm_num
  have hs : Real.sin (wimperisAngle Real.pi) ≠ 0 := fun h0 => by
    have := Real.cos_sq_add_sin_sq (wimperisAngle Real.pi)
    rw [hw, h0] at this
    norm_num at this
  have e1 : (1 + -1 / 2) * Ω * (Real.pi / Ω) = Real.pi / 2 := by field_simp; ring
  have e2 : (1 + -1 / 2) * Ω * (2 * Real.pi / Ω) = Real.pi := by field_simp; ring
  simp only [withSegmentErrors, ofTable, sk1Table, evolution, List.map_cons, List.map_nil, List.mapIdx_cons, List.mapIdx_nil,
    controlEvolution, add_zero, segmentUnitary_resonant, e1, e2, one_mul, zero_add, zero_sub] at h
  rw [rotation_eq, rotation_eq, rotation_eq, rotation_eq, su2_mul, su2_mul, su2_inj] at h
  have hd := h.2.2.2
  have hc4 : Real.cos (Real.pi / 2 / 2) ≠ 0 := by
    have : Real.pi / 2 / 2 = Real.pi / 4 := by ring
    rw [this, Real.cos_pi_div_four]
    positivity
  rw [Real.cos_neg, Real.sin_neg, hw, Real.cos_pi_div_two, Real.sin_pi_div_two, Real.sin_zero] at hd
  have : Real.sin (wimperisAngle Real.pi) * Real.cos (Real.pi / 2 / 2) = 0 := by linear_combination 2 * hd
  exact (mul_ne_zero hs hc4) this

/-- **C143**, converted sequences: if a sequence is the same run backwards and all its pulses have the azimuthal angle `φ` (it may
have Z pulses), the control it converts to rotates about an axis in the plane of this axis and Z, whatever the errors of
its segments, if they are symmetric about the middle; in particular with wrong maximum rates and a constant detuning. -/
theorem C143_converted (s : Sequence ℝ) (hs : s.Constructed) (hb : backwards s = s) (hT : 1 / 10 ^ 8 < s.duration) (φ : ℝ)
    (hφ : ∀ ψ ∈ s.azimuthalAngles, ψ = φ) (R D m : ℝ) (name : Option String) (c : DrivenControl ℝ)
    (h : convertDDS s R D m name = .ok c) (a d : ℕ → ℝ) (ha : SymmetricErrors c.durations.length a)
    (hd : SymmetricErrors c.durations.length d) : ∃ ω δ, evolution (withSegmentErrors a d c) = pulseUnitary ω φ δ := by
  have hr : reversed c = c := by
    have := reverse_conversion hs hT h
    rw [hb] at this
    exact (Except.ok.inj (h.symm.trans this)).symm
  refine C143_plane c (convertDDS_constructed h) hr φ (fun k Ω ψ hΩ hψ => ?_) a d ha hd
  obtain ⟨hc, h | h⟩ := converted hs h
  · obtain ⟨-, rfl⟩ := h
    have hΩ' : Ω ∈ [(0 : ℝ)] := List.mem_of_getElem? hΩ
    exact .inl (List.mem_singleton.mp hΩ')
  · obtain ⟨-, rfl⟩ := h
    simp only [ofSegments, List.getElem?_map, Option.map_eq_some_iff] at hΩ hψ
    obtain ⟨g, hg, rfl⟩ := hΩ
    obtain ⟨g', hg', rfl⟩ := hψ
    rw [hg] at hg'; injection hg' with hg'; subst hg'
    have hgap := hc.2.2.2.2.2.2
    rw [windows_eq hs] at hgap
    obtain ⟨-, ⟨p, hp, rfl⟩ | ⟨-, h1, -, -⟩⟩ := mem_kept hgap (List.mem_of_getElem? hg)
    · by_cases hn : Negligible p.rabi
      · left
        simp only [pulseSeg, drive, hn, not_true_eq_false, if_false]
        split <;> rfl
      · right
        have hm : p ∈ pulseList s := by
          rcases pad_mem hp with h | rfl | rfl
          · exact h
          · exact absurd (by norm_num [Negligible, idlePulse]) hn
          · exact absurd (by norm_num [Negligible, idlePulse]) hn
        have ha : p.azimuthal ∈ s.azimuthalAngles := by
          obtain ⟨i, hi⟩ := pulseList_getElem hm
          exact List.mem_of_getElem? hi.2.2.1
        simp only [pulseSeg, drive, hn, not_false_iff, if_true]
        rw [hφ _ ha, sub_self, Real.sin_zero]
    · exact .inl h1

private theorem quadraticTable_azimuthal (n : ℕ) (T : ℝ) : ∀ (r : List ℝ) (a : ℝ), ∀ p ∈ quadraticTable n T a r, p.2.azimuthal = 0
  | [], a, p, hp => by
    simp only [quadraticTable, onAxis, List.mem_map] at hp
    obtain ⟨_, -, rfl⟩ := hp
    rfl
  | b :: r, a, p, hp => by
    simp only [quadraticTable, onAxis, List.mem_append, List.mem_cons] at hp
    rcases hp with hp | rfl | hp
    · obtain ⟨_, -, rfl⟩ := List.mem_map.mp hp
      rfl
    · rfl
    · exact quadraticTable_azimuthal n T r b p hp

private theorem table_azimuthal (family : Family) (hxy : ∀ l, family ≠ .xyConcatenated l) (T : ℝ) :
    ∀ p ∈ family.table T, p.2.azimuthal = family.pulseAxis := by
  cases family with
  | xyConcatenated l => exact absurd rfl (hxy l)
  | ramsey => exact fun p hp => absurd hp List.not_mem_nil
  | quadratic n m => exact quadraticTable_azimuthal _ T _ 0
  | _ =>
    intro p hp
    simp only [Family.table, onAxis, List.mem_map, List.mem_cons, List.not_mem_nil, or_false] at hp
    first
      | (obtain ⟨_, -, rfl⟩ := hp; rfl)
      | (subst hp; rfl)

/-- **C143**, the predefined sequences without pre and post rotations, except the XY-concatenated ones: wrong maximum rates and a
detuning, constant or symmetric about the middle, leave the axis of the converted control in the plane of Z and the axis of the
pulses, Y for CPMG and Uhrig sequences and X for the others. -/
theorem C143_family (family : Family) (hxy : ∀ l, family ≠ .xyConcatenated l) (T : ℝ) (hT : 1 / 10 ^ 8 < T)
    (name : Option String) (s : Sequence ℝ) (hs : family.call T false name = .ok s) (R D m : ℝ) (name' : Option String)
    (c : DrivenControl ℝ) (h : convertDDS s R D m name' = .ok c) (a d : ℕ → ℝ) (ha : SymmetricErrors c.durations.length a)
    (hd : SymmetricErrors c.durations.length d) :
    ∃ ω δ, evolution (withSegmentErrors a d c) = pulseUnitary ω family.pulseAxis δ := by
  obtain ⟨⟨hT0, hv⟩, hw⟩ := (C43_well_formed family T false name).ok hs
  have hb := (C95_palindromes family hv hxy T name s hs).1
  have hcon := hw.constructed hT0
  rw [Family.call_eq hv hT0] at hs
  cases hs
  refine C143_converted _ hcon hb hT _ (fun ψ hψ => ?_) R D m name' c h a d ha hd
  obtain ⟨p, hp, rfl⟩ := List.mem_map.mp hψ
  exact table_azimuthal family hxy T p hp

/-- The hypotheses are met by a SCROFULOUS π rotation with ten percent too much power, and with a larger error in the middle. -/
example : ∃ c, build .scrofulous Real.pi 2 1 none = .ok c ∧ SymmetricErrors c.durations.length (fun _ => 1 / 10) ∧
    c.durations.length = 3 ∧ SymmetricErrors c.durations.length (fun i => if i = 1 then 1 / 5 else 1 / 10) := by
  refine ⟨_, (build_spec .scrofulous Real.pi 2 1 none).1 ⟨by norm_num, tabulated_pi⟩, fun _ _ => rfl, rfl, fun i hi => ?_⟩
  have hi : i < 3 := hi
  show (if 3 - 1 - i = 1 then (1 : ℝ) / 5 else 1 / 10) = _
  interval_cases i <;> norm_num

/-- The hypotheses are met by the quadratic sequence with three inner pulses and two outer pulses on fast hardware. -/
example : ∃ s R D c, (Family.quadratic 3 2).call 1 false none = .ok s ∧ convertDDS s R D 0 none = .ok c ∧
    SymmetricErrors c.durations.length (fun _ => 1 / 10) := by
  have hv : (Family.quadratic 3 2).Valid := by norm_num [Family.Valid]
  obtain ⟨s, hs, -⟩ := (C43_well_formed (Family.quadratic 3 2) 1 false none).1 ⟨one_pos, hv⟩
  obtain ⟨B, -, h⟩ := C60_fast_hardware _ 1 false none s hs trivial
  obtain ⟨c, hc, -⟩ := h B B le_rfl le_rfl none
  exact ⟨s, B, B, c, hs, hc, fun _ _ => rfl⟩

end OpenControls
