import Verif.Spec.RateErrors
import Verif.Proofs.Converted
import Verif.Proofs.EndToEnd
import Verif.Proofs.PulseErrors

/-!
# Converted controls with miscalibrated rates
-/

namespace OpenControls

open Spec RealInst

variable {R D m T k l : ℝ}

/-! ## The evolution of a converted control -/

theorem evolution_scaled_cons (g : Segment ℝ) (gs : List (Segment ℝ)) (name : Option String) :
    evolution (scaledRates k l (ofSegments (g :: gs) name)) =
      evolution (scaledRates k l (ofSegments gs name)) *
        segmentUnitary (k * g.rabi) g.azimuthal (l * g.detuning) g.duration := rfl

theorem evolution_scaled_keep {g : Segment ℝ} (hg : g.duration ≤ 0 →
    segmentUnitary (k * g.rabi) g.azimuthal (l * g.detuning) g.duration = 1)
    (gs : List (Segment ℝ)) (name : Option String) :
    evolution (scaledRates k l (ofSegments (keep g ++ gs) name)) =
      evolution (scaledRates k l (ofSegments gs name)) *
        segmentUnitary (k * g.rabi) g.azimuthal (l * g.detuning) g.duration := by
  rcases lt_or_ge 0 g.duration with h | h
  · rw [keep_pos h]; rfl
  · rw [keep_nonpos h, hg h, mul_one]; rfl

/-- what the segment of a pulse does with scaled rates -/
noncomputable def realisedScaled (k l : ℝ) (p : Pulse) : M2 :=
  pulseUnitary (k * (effective p).rabi) (effective p).azimuthal (l * (effective p).detuning)

theorem pulseUnitary_azimuthal (φ δ : ℝ) : pulseUnitary 0 φ δ = pulseUnitary 0 0 δ := by
  simp [pulseUnitary, hamiltonian]

theorem segmentUnitary_scaled (hR : 0 < R) (hD : 0 < D) {p : Pulse} (hp : 0 ≤ p.rabi) :
    segmentUnitary (k * (pulseSeg R D m p).rabi) (pulseSeg R D m p).azimuthal
      (l * (pulseSeg R D m p).detuning) (pulseSeg R D m p).duration = realisedScaled k l p := by
  rw [segmentUnitary_eq_pulseUnitary]
  by_cases h : Negligible p.rabi ∧ Negligible p.detuning
  · simp [pulseSeg, drive, realisedScaled, effective, h, pulseUnitary_azimuthal p.azimuthal]
  · have hw := (width_pos (m := m) hR hD hp h).ne'
    by_cases h1 : Negligible p.rabi
    · have h2 : ¬ Negligible p.detuning := fun h2 => h ⟨h1, h2⟩
      simp [pulseSeg, drive, realisedScaled, effective, h1, h2, hw, mul_assoc,
        pulseUnitary_azimuthal p.azimuthal]
    · simp [pulseSeg, drive, realisedScaled, effective, h1, hw, mul_assoc]

theorem pulseSeg_scaled_idle (hR : 0 < R) (hD : 0 < D) {p : Pulse} (hp : 0 ≤ p.rabi)
    (h : (pulseSeg R D m p).duration ≤ 0) :
    segmentUnitary (k * (pulseSeg R D m p).rabi) (pulseSeg R D m p).azimuthal
      (l * (pulseSeg R D m p).detuning) (pulseSeg R D m p).duration = 1 := by
  have hn : Negligible p.rabi ∧ Negligible p.detuning := by
    by_contra hn
    exact absurd h (not_le.mpr (width_pos (m := m) hR hD hp hn))
  simp [pulseSeg, drive, hn, segmentUnitary_idle]

/-- product in time order -/
noncomputable def scaledProduct (k l : ℝ) : List Pulse → M2
  | [] => 1
  | p :: ps => scaledProduct k l ps * realisedScaled k l p

theorem evolution_scaled_kept (hR : 0 < R) (hD : 0 < D) (ps : List Pulse)
    (hl : ∀ p ∈ ps, 0 ≤ p.rabi) (name : Option String) :
    evolution (scaledRates k l (ofSegments (kept T R D m ps) name)) = scaledProduct k l ps := by
  induction ps with
  | nil => rfl
  | cons p ps ih =>
    have hp := hl p (by simp)
    cases ps with
    | nil =>
      rw [kept_singleton, ← List.append_nil (keep _),
        evolution_scaled_keep (pulseSeg_scaled_idle hR hD hp), segmentUnitary_scaled hR hD hp]
      rfl
    | cons q r =>
      have e : ∀ t : ℝ, segmentUnitary (k * 0) 0 (l * 0) t = 1 := fun t => by
        rw [mul_zero, mul_zero, segmentUnitary_idle]
      rw [kept_cons, evolution_scaled_keep (pulseSeg_scaled_idle hR hD hp),
        evolution_scaled_keep (g := ⟨0, 0, 0, (window T R D m q).1 - (window T R D m p).2⟩)
          (fun _ => e _), e, mul_one, segmentUnitary_scaled hR hD hp,
        ih fun x hx => hl x (by simp [hx])]
      rfl

theorem scaledProduct_append (a b : List Pulse) :
    scaledProduct k l (a ++ b) = scaledProduct k l b * scaledProduct k l a := by
  induction a with
  | nil => simp [scaledProduct]
  | cons p a ih => simp [scaledProduct, ih, mul_assoc]

theorem scaledProduct_pad (T : ℝ) (ps : List Pulse) :
    scaledProduct k l (pad T ps) = scaledProduct k l ps := by
  have h0 : pulseUnitary 0 0 0 = 1 := by
    rw [pulseUnitary_eq_segmentUnitary, segmentUnitary_idle]
  have hi : ∀ t, realisedScaled k l (idlePulse t) = 1 := by
    intro t
    simp [realisedScaled, idlePulse, effective, Negligible, h0]
  have h1 : ∀ (c : Prop) [Decidable c] (t : ℝ),
      scaledProduct k l (if c then [] else [idlePulse t]) = 1 := by
    intro c _ t
    split <;> simp [scaledProduct, hi]
  unfold pad
  rw [scaledProduct_append, scaledProduct_append, h1, h1, one_mul, mul_one]

theorem scaledProduct_eq (ps : List Pulse) :
    scaledProduct k l ps = productOf (ps.map fun p => scaledPulse k l (effective p)) := by
  induction ps with
  | nil => rfl
  | cons p ps ih =>
    simp only [scaledProduct, productOf, List.map_cons, pulseProduct] at ih ⊢
    rw [ih]
    rfl

theorem effective_pure {p : Pulse} (h : PurePulse p) : effective p = p := by
  obtain ⟨h1, h2, h3⟩ := h
  obtain ⟨o, r, a, d⟩ := p
  simp only at h1 h2 h3
  have h0 : Negligible 0 := by simp [Negligible]
  unfold effective
  rcases h2 with rfl | h2
  · rcases h3 with rfl | h3
    · simp [h0]
    · simp [h0, h3]
  · have : d = 0 := by
      rcases h1 with rfl | rfl
      · exact absurd h0 h2
      · rfl
    subst this
    simp [h2]

/-! ## Tables of π-pulses -/

theorem errProduct_scaled (e : ℝ) (t : List (ℝ × Axis)) :
    pulseProduct ((t.map fun p => p.2.rabi).map ((1 + e) * ·)) (t.map fun p => p.2.azimuthal)
      ((t.map fun p => p.2.detuning).map (1 * ·)) = errProduct (fun _ => e) t := by
  rw [← errProduct_pulses]
  congr 1
  · apply List.ext_getElem?
    intro i
    simp only [List.getElem?_map, List.getElem?_mapIdx]
    cases t[i]? with
    | none => rfl
    | some p =>
      have hpi := Real.pi_pos
      obtain ⟨τ, a⟩ := p
      cases a <;> simp [Axis.rabi, hpi.ne]
  · simp

theorem scaled_withPrePost (e : ℝ) (T : ℝ) (t : List (ℝ × Axis)) (name : Option String) (φ : ℝ) :
    pulses (scaledAngles (1 + e) 1 (withPrePost φ (piSequence T t name))) =
      pulseUnitary ((1 + e) * (Real.pi / 2)) φ 0 * errProduct (fun _ => e) t *
        pulseUnitary ((1 + e) * (Real.pi / 2)) 0 0 := by
  unfold pulses scaledAngles withPrePost piSequence
  simp only [List.map_cons, List.map_append, List.map_nil, pulseProduct]
  rw [pulseProduct_append _ _ _ _ _ _ (by simp) (by simp), ← errProduct_scaled]
  simp [pulseProduct]

/-- the sense of rotation after the Z pulses of a table -/
noncomputable def zSign : List (ℝ × Axis) → ℝ
  | [] => 1
  | (_, .z) :: r => -zSign r
  | _ :: r => zSign r

theorem rotation_pi_angle (θ : ℝ) : rotation θ Real.pi = rotation (-θ) 0 := by
  rw [rotation_eq, rotation_eq, su2_inj, neg_div, Real.cos_neg, Real.sin_neg]
  simp

theorem tableProduct_comm (t : List (ℝ × Axis)) (h : ∀ p ∈ t, p.2 ≠ .y) (θ : ℝ) :
    rotation θ 0 * tableProduct t = tableProduct t * rotation (zSign t * θ) 0 := by
  induction t generalizing θ with
  | nil => simp [tableProduct, zSign]
  | cons p r ih =>
    have ih' := ih (fun q hq => h q (List.mem_cons_of_mem _ hq)) θ
    obtain ⟨τ, a⟩ := p
    cases a with
    | x =>
      simp only [tableProduct, zSign, axisPulse_x]
      rw [← Matrix.mul_assoc, ih', Matrix.mul_assoc, Matrix.mul_assoc, rotation_mul_same,
        rotation_mul_same, add_comm]
    | y => exact absurd rfl (h (τ, .y) List.mem_cons_self)
    | z =>
      simp only [tableProduct, zSign]
      rw [← Matrix.mul_assoc, ih', Matrix.mul_assoc, Matrix.mul_assoc]
      congr 1
      rw [rotation_eq, rotation_eq, axisPulse, su2_mul, su2_mul, su2_inj, neg_mul, neg_div,
        Real.cos_neg, Real.sin_neg]
      refine ⟨by ring, by ring, by ring, by ring⟩

theorem finalAngle_cases (t : List (ℝ × Axis)) : finalAngle t = Real.pi ∨ finalAngle t = 0 := by
  unfold finalAngle
  split
  · exact .inl rfl
  · exact .inr rfl

theorem signedError_mul (e : ℝ) (t : List (ℝ × Axis)) :
    signedError (fun _ => e) t = e * signedError (fun _ => 1) t := by
  induction t with
  | nil => simp [signedError]
  | cons p r ih =>
    obtain ⟨τ, a⟩ := p
    cases a <;> simp only [signedError, ih] <;> ring

theorem netRotation_table (t : List (ℝ × Axis)) (h : ∀ p ∈ t, p.2 ≠ .y) (q : Pulse)
    (hq : q.detuning = 0) :
    netRotation (t.map (fun p => ⟨p.1, p.2.rabi, p.2.azimuthal, p.2.detuning⟩) ++ [q]) =
      Real.pi * signedError (fun _ => 1) t + zSign t * (Real.cos q.azimuthal * q.rabi) := by
  have hpi := Real.pi_pos
  induction t with
  | nil => simp [netRotation, signedError, zSign, hq]
  | cons p r ih =>
    have ih' := ih fun q hq => h q (List.mem_cons_of_mem _ hq)
    obtain ⟨τ, a⟩ := p
    cases a with
    | x =>
      rw [List.map_cons, List.cons_append, netRotation, ih', if_neg (by exact hpi.ne)]
      simp only [Axis.rabi, Axis.azimuthal, signedError, zSign]
      simp; ring
    | y => exact absurd rfl (h (τ, .y) List.mem_cons_self)
    | z =>
      rw [List.map_cons, List.cons_append, netRotation, ih']
      simp only [Axis.rabi, Axis.azimuthal, Axis.detuning, signedError, zSign, if_true]
      simp; ring

theorem pulseList_withPrePost (T : ℝ) (t : List (ℝ × Axis)) (name : Option String) (φ : ℝ) :
    pulseList (withPrePost φ (piSequence T t name)) =
      ⟨0, Real.pi / 2, 0, 0⟩ ::
        (t.map (fun p => (⟨p.1, p.2.rabi, p.2.azimuthal, p.2.detuning⟩ : Pulse)) ++
          [⟨T, Real.pi / 2, φ, 0⟩]) := by
  unfold pulseList withPrePost piSequence
  simp only [List.zip_cons_cons, List.zipWith_cons_cons]
  congr 1
  rw [List.zip_append (by simp), List.zip_append (by simp), List.zipWith_append (by simp)]
  congr 1
  induction t with
  | nil => rfl
  | cons p r ih => simpa using ih

theorem amplitude_across {t : List (ℝ × Axis)} (ht : ∀ p ∈ t, p.2 ≠ .y) (T : ℝ)
    (name : Option String) (e : ℝ) :
    returnProbability (pulses (scaledAngles (1 + e) 1
      (withPrePost (finalAngle t) (piSequence T t name)))) =
      Real.cos (e * netRotation (pulseList (withPrePost (finalAngle t) (piSequence T t name))) / 2)
        ^ 2 := by
  have hp := pulses_withPrePost T t name
  rw [pulses_withPrePost_eq] at hp
  have hpi := Real.pi_pos
  rw [scaled_withPrePost, errProduct_x _ _ ht, pulseList_withPrePost, netRotation,
    netRotation_table t ht _ rfl, if_neg hpi.ne]
  simp only [Real.cos_zero, one_mul]
  -- the front rotation, as a rotation about X
  have hfront : pulseUnitary ((1 + e) * (Real.pi / 2)) (finalAngle t) 0 =
      pulseUnitary (Real.pi / 2) (finalAngle t) 0 *
        rotation (e * (Real.cos (finalAngle t) * (Real.pi / 2))) 0 := by
    rw [pulseUnitary_resonant, pulseUnitary_resonant]
    rcases finalAngle_cases t with h | h
    · rw [h, Real.cos_pi, rotation_pi_angle, rotation_pi_angle, rotation_mul_same]
      congr 1; ring
    · rw [h, Real.cos_zero, rotation_mul_same]
      congr 1; ring
  have hback : pulseUnitary ((1 + e) * (Real.pi / 2)) 0 0 =
      rotation (e * (Real.pi / 2)) 0 * pulseUnitary (Real.pi / 2) 0 0 := by
    rw [pulseUnitary_resonant, pulseUnitary_resonant, rotation_mul_same]
    congr 1; ring
  have key : pulseUnitary ((1 + e) * (Real.pi / 2)) (finalAngle t) 0 *
      (tableProduct t * rotation (Real.pi * signedError (fun _ => e) t) 0) *
        pulseUnitary ((1 + e) * (Real.pi / 2)) 0 0 =
      pulseUnitary (Real.pi / 2) (finalAngle t) 0 * tableProduct t *
        rotation (e * (Real.pi / 2 + (Real.pi * signedError (fun _ => 1) t +
          zSign t * (Real.cos (finalAngle t) * (Real.pi / 2))))) 0 *
          pulseUnitary (Real.pi / 2) 0 0 := by
    rw [hfront, hback]
    simp only [Matrix.mul_assoc]
    congr 1
    simp only [← Matrix.mul_assoc]
    rw [tableProduct_comm t ht]
    congr 1
    simp only [Matrix.mul_assoc]
    congr 1
    rw [rotation_mul_same, rotation_mul_same, signedError_mul]
    congr 1; ring
  rw [key, return_x hp]

theorem countAxes_all_y {t : List (ℝ × Axis)} (h : ∀ p ∈ t, p.2 = .y) :
    countAxes .x .y t = countAxes .y .z t := by
  induction t with
  | nil => rfl
  | cons p r ih =>
    have := h p List.mem_cons_self
    have ih' := ih fun q hq => h q (List.mem_cons_of_mem _ hq)
    unfold countAxes at ih' ⊢
    rw [List.countP_cons, List.countP_cons, ih', this]
    simp

theorem signedError_all_y {t : List (ℝ × Axis)} (h : ∀ p ∈ t, p.2 = .y) (e : ℝ) :
    signedError (fun _ => e) t = t.length * e := by
  induction t with
  | nil => simp [signedError]
  | cons p r ih =>
    have ih' := ih fun q hq => h q (List.mem_cons_of_mem _ hq)
    obtain ⟨τ, a⟩ := p
    obtain rfl : a = .y := h (τ, a) List.mem_cons_self
    rw [signedError, ih', List.length_cons]
    · push_cast; ring
    · simp

theorem tableProduct_all_y {t : List (ℝ × Axis)} (h : ∀ p ∈ t, p.2 = .y) :
    tableProduct t = rotation (t.length * Real.pi) (Real.pi / 2) := by
  induction t with
  | nil => simp [tableProduct, rotation_zero]
  | cons p r ih =>
    have ih' := ih fun q hq => h q (List.mem_cons_of_mem _ hq)
    rw [tableProduct, ih', h p List.mem_cons_self, axisPulse_y, rotation_mul_same, List.length_cons]
    congr 1; push_cast; ring

theorem amplitude_along {t : List (ℝ × Axis)} (ht : ∀ p ∈ t, p.2 = .y) (T : ℝ)
    (name : Option String) (e : ℝ) :
    returnProbability (pulses (scaledAngles (1 + e) 1
      (withPrePost (finalAngle t) (piSequence T t name)))) =
      1 - Real.sin (t.length * ((1 + e) * Real.pi) / 2) ^ 2 * Real.sin (Real.pi * e / 2) ^ 2 := by
  have hφ : finalAngle t = Real.pi := by
    unfold finalAngle
    rw [countAxes_all_y ht, if_pos Iff.rfl]
  rw [scaled_withPrePost, errProduct_y _ _ ht, tableProduct_all_y ht, rotation_mul_same,
    signedError_all_y ht, hφ, pulseUnitary_resonant, pulseUnitary_resonant, rotation_pi_angle,
    show (t.length : ℝ) * Real.pi + Real.pi * (t.length * e) = t.length * ((1 + e) * Real.pi) by ring]
  generalize (t.length : ℝ) * ((1 + e) * Real.pi) = b
  have hs : Real.sin (Real.pi * e / 2) ^ 2 = Real.cos ((1 + e) * (Real.pi / 2)) ^ 2 := by
    rw [show (1 + e) * (Real.pi / 2) = Real.pi * e / 2 + Real.pi / 2 by ring, Real.cos_add_pi_div_two]
    ring
  rw [hs, show (1 + e) * (Real.pi / 2) = 2 * ((1 + e) * (Real.pi / 2) / 2) by ring, Real.cos_two_mul,
    ← show (1 + e) * (Real.pi / 2) = 2 * ((1 + e) * (Real.pi / 2) / 2) by ring]
  rw [rotation_eq, rotation_eq, rotation_eq, neg_div, Real.cos_neg, Real.sin_neg]
  have q := Real.sin_sq_add_cos_sq ((1 + e) * (Real.pi / 2) / 2)
  have q' := Real.sin_sq_add_cos_sq (b / 2)
  generalize (1 + e) * (Real.pi / 2) / 2 = a at q ⊢
  simp only [Real.cos_zero, Real.sin_zero, Real.cos_pi_div_two, Real.sin_pi_div_two, mul_one, mul_zero]
  generalize Real.sin a = sa at q ⊢
  generalize Real.cos a = ca at q ⊢
  generalize Real.sin (b / 2) = sb at q' ⊢
  generalize Real.cos (b / 2) = cb at q' ⊢
  rw [su2_mul, su2_mul, returnProbability, ← Complex.normSq_eq_norm_sq]
  simp only [su2, Matrix.of_apply, Matrix.cons_val', Matrix.cons_val_zero, Matrix.cons_val_fin_one,
    Complex.normSq_mk]
  have hs2 : sa ^ 2 = 1 - ca ^ 2 := by linarith
  have hc2 : cb ^ 2 = 1 - sb ^ 2 := by linarith
  ring_nf
  have h4 : sa ^ 4 = (1 - ca ^ 2) ^ 2 := by rw [← hs2]; ring
  simp only [h4, hs2, hc2]
  ring

end OpenControls
