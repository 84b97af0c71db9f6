import Verif.Proofs.NoisySegments
import Verif.Proofs.RoundedSeparated

/-!
# Controls converted in rounded arithmetic on a noisy qubit
-/

namespace OpenControls

open Spec Fl Set

open scoped Matrix.Norms.L2Operator

section Free
variable {N : QubitNoise} {T M : ℝ} {free : ℝ → ℝ → M2}

theorem Spec.FreeEvolution.dist_of_le (h : FreeEvolution N T free) (hN : N.Bounded T M) {a b a' b' : ℝ} (ha : 0 ≤ a)
    (hab : a ≤ b) (hb : b ≤ T) (hab' : a' ≤ b') (hb' : b' ≤ T) (haa : a ≤ a') :
    ‖free a b - free a' b'‖ ≤ M / 2 * (|a - a'| + |b - b'|) := by
  have ha' := ha.trans haa
  have hM : 0 ≤ M := (Real.sqrt_nonneg _).trans (hN 0 ⟨le_rfl, ha.trans (hab.trans hb)⟩)
  rw [abs_of_nonpos (sub_nonpos.mpr haa)]
  rcases le_total b b' with hbb | hbb
  · rw [abs_of_nonpos (sub_nonpos.mpr hbb)]
    rcases le_total a' b with h1 | h1
    · have n1 := h.near hN ha haa (h1.trans hb)
      have n2 := h.near hN (ha'.trans h1) hbb hb'
      have e : free a b - free a' b' = free a' b * (free a a' - 1) - (free b b' - 1) * free a' b := by
        rw [h.comp ha haa h1 hb, h.comp ha' h1 hbb hb']
        noncomm_ring
      have n3 := h.norm ha' h1 hb
      have k1 : ‖free a' b * (free a a' - 1)‖ ≤ ‖free a a' - 1‖ :=
        (norm_mul_le _ _).trans (mul_le_of_le_one_left (norm_nonneg _) n3)
      have k2 : ‖(free b b' - 1) * free a' b‖ ≤ ‖free b b' - 1‖ :=
        (norm_mul_le _ _).trans (mul_le_of_le_one_right (norm_nonneg _) n3)
      rw [e]
      refine (norm_sub_le _ _).trans ?_
      linarith
    · have n1 := h.near hN ha hab hb
      have n2 := h.near hN ha' hab' hb'
      have e : free a b - free a' b' = (free a b - 1) - (free a' b' - 1) := by abel
      rw [e]
      refine (norm_sub_le _ _).trans ((add_le_add n1 n2).trans ?_)
      rw [← mul_add]
      exact mul_le_mul_of_nonneg_left (by linarith) (by positivity)
  · rw [abs_of_nonneg (sub_nonneg.mpr hbb)]
    have n1 := h.near hN ha haa (hab'.trans hb')
    have n2 := h.near hN (ha'.trans hab') hbb hb
    have n3 := h.norm ha' hab' hb'
    have n4 := h.norm (ha'.trans hab') hbb hb
    have e : free a b - free a' b' = free b' b * (free a' b' * (free a a' - 1)) + (free b' b - 1) * free a' b' := by
      rw [h.comp ha haa (hab'.trans hbb) hb, h.comp ha' hab' hbb hb]
      noncomm_ring
    have k1 : ‖free b' b * (free a' b' * (free a a' - 1))‖ ≤ ‖free a a' - 1‖ :=
      (norm_mul_le _ _).trans ((mul_le_of_le_one_left (norm_nonneg _) n4).trans
        ((norm_mul_le _ _).trans (mul_le_of_le_one_left (norm_nonneg _) n3)))
    have k2 : ‖(free b' b - 1) * free a' b'‖ ≤ ‖free b' b - 1‖ :=
      (norm_mul_le _ _).trans (mul_le_of_le_one_right (norm_nonneg _) n3)
    rw [e]
    refine (norm_add_le _ _).trans ?_
    linarith

/-- the evolution under noise alone depends on the times continuously -/
theorem Spec.FreeEvolution.dist (h : FreeEvolution N T free) (hN : N.Bounded T M) {a b a' b' : ℝ} (ha : 0 ≤ a)
    (hab : a ≤ b) (hb : b ≤ T) (ha' : 0 ≤ a') (hab' : a' ≤ b') (hb' : b' ≤ T) :
    ‖free a b - free a' b'‖ ≤ M / 2 * (|a - a'| + |b - b'|) := by
  rcases le_total a a' with h1 | h1
  · exact h.dist_of_le hN ha hab hb hab' hb' h1
  · rw [norm_sub_rev, abs_sub_comm a, abs_sub_comm b]
    exact h.dist_of_le hN ha' hab' hb' hab hb h1

theorem noisy_norm_le (h : FreeEvolution N T free) {S : ℝ} (hS : S ≤ T) (l : List Pulse) (a : ℝ) (ha : 0 ≤ a)
    (haS : a ≤ S) (hl : (a :: l.map Pulse.offset).IsChain (· ≤ ·)) (hb : ∀ p ∈ l, p.offset ≤ S) :
    ‖noisy free S a l‖ ≤ 1 := by
  induction l generalizing a with
  | nil => exact h.norm ha haS hS
  | cons p l ih =>
    rw [List.map_cons, List.isChain_cons_cons] at hl
    have hp := hb p (by simp)
    have i := ih p.offset (ha.trans hl.1) hp hl.2 fun q hq => hb q (by simp [hq])
    have k := h.norm ha hl.1 (hp.trans hS)
    have k2 : ‖pulseUnitary p.rabi p.azimuthal p.detuning‖ ≤ 1 := (isSU2_pulse _ _ _).norm
    simp only [noisy]
    exact (norm_mul_le _ _).trans (mul_le_one₀ ((norm_mul_le _ _).trans (mul_le_one₀ i (norm_nonneg _) k2))
      (norm_nonneg _) k)

end Free

variable {r : Rounding}

/-- the segment in real numbers -/
def segVal (g : Segment (Fl r)) : Segment ℝ := ⟨g.rabi.val, g.azimuthal.val, g.detuning.val, g.duration.val⟩

theorem takesTime_cons_val (g : Segment (Fl r)) (gs : List (Segment (Fl r))) :
    (takesTime (g :: gs)).map segVal = keep (segVal g) ++ (takesTime gs).map segVal := by
  unfold takesTime keep
  by_cases h : 0 < g.duration.val
  · rw [List.filter_cons_of_pos (by rw [gt_iff, val_lit_zero]; exact h), List.filter_cons_of_pos (by simpa [segVal] using h)]
    rfl
  · rw [List.filter_cons_of_neg (by rw [gt_iff, val_lit_zero]; exact h),
      List.filter_cons_of_neg (by simpa [segVal] using h)]
    rfl

theorem ofRounded_val (gs : List (Segment (Fl r))) (name : Option String) :
    (ofRounded gs name).map val = ofSegments (gs.map segVal) name := by
  simp [ofRounded, ofSegments, DrivenControl.map, segVal, Function.comp_def]

theorem total_segVal (gs : List (Segment (Fl r))) : total (gs.map segVal) = totalR gs := by
  simp [total, totalR, segVal, Function.comp_def]

/-- what a pulse with its window adds to the distance from the ideal pulses -/
noncomputable def cost (M : ℝ) (x : Operation (Fl r) × (Fl r × Fl r)) : ℝ :=
  M / 2 * ((1 + r.u) * (x.2.2.val - x.2.1.val) + (|x.2.1.val - x.1.offset.val| + r.u * x.2.2.val) +
    (|x.2.2.val - x.1.offset.val| + r.u * x.2.2.val)) + r.u / 2 * turn (vp x.1)

/-- the noise during one segment -/
theorem segment_noise {N : QubitNoise} {M H : ℝ} (hN : N.Bounded H M) {U : ℝ → M2} {Ω φ Δ a b : ℝ}
    (hU : ContinuousOn U (Icc a b)) (ha : 0 ≤ a) (hab : a ≤ b) (hb : b ≤ H) (h : ∀ t ∈ Ico a b, HasDerivWithinAt U
      (((-Complex.I) • (hamiltonian Ω φ Δ + N.at t)) * U t) (Ici t) t) (hua : star (U a) * U a = 1) :
    ‖U b - segmentUnitary Ω φ Δ (b - a) * U a‖ ≤ M / 2 * (b - a) ∧ star (U b) * U b = 1 := by
  have hsol : Solves (fun t => (-Complex.I) • (hamiltonian Ω φ Δ + N.at t)) a b U :=
    ⟨hU, h⟩
  have hun := hsol.unitary (fun t _ => by
    rw [smul_add, star_add, skew_drive, skew_noise]; abel) hua
  have := hsol.near hab (fun t _ => smul_add _ _ _) (skew_drive _ _ _)
    (fun t ht => noise_norm hN ⟨ha.trans ht.1, ht.2.le.trans hb⟩) (fun t ht => norm_of_isometry (hun t ht))
  rw [exp_drive] at this
  exact ⟨this, hun b ⟨hab, le_rfl⟩⟩

/-- a segment without drive -/
theorem segment_idle {N : QubitNoise} {H : ℝ} {free : ℝ → ℝ → M2} (hfree : FreeEvolution N H free) {U : ℝ → M2}
    {a b : ℝ} (hU : ContinuousOn U (Icc a b)) (ha : 0 ≤ a) (hab : a ≤ b) (hb : b ≤ H)
    (h : ∀ t ∈ Ico a b, HasDerivWithinAt U (((-Complex.I) • (hamiltonian 0 0 0 + N.at t)) * U t) (Ici t) t) :
    U b = free a b * U a := by
  refine Solves.unique (B := fun t => (-Complex.I) • N.at t) (b := b)
    ⟨hU, fun t ht => ?_⟩
    ((hfree.solves ⟨ha, hab.trans hb⟩).mono le_rfl hb) (fun t _ => skew_noise N t)
    (hfree a ⟨ha, hab.trans hb⟩).1 b ⟨hab, le_rfl⟩
  have := h t ht
  rwa [hamiltonian_idle, zero_add] at this

theorem rnd_within {x : ℝ} (h : 0 ≤ x) : 0 ≤ r.rnd x ∧ |r.rnd x - x| ≤ r.u * x := by
  have := r.close x
  rw [abs_of_nonneg h] at this
  exact ⟨r.rnd_nonneg h, this⟩

theorem totalR_nonneg (gs : List (Segment (Fl r))) : 0 ≤ totalR (takesTime gs) := by
  induction gs with
  | nil => simp [takesTime, totalR]
  | cons g gs ih =>
    rw [totalR_takesTime]
    have := le_max_right g.duration.val 0
    linarith

/-- the evolution during the segment of a pulse -/
theorem pulse_near {N : QubitNoise} {M H E : ℝ} (hN : N.Bounded H M) {U : ℝ → M2}
    (hU : ContinuousOn U (Icc 0 E)) (hE : E ≤ H) {o : Operation (Fl r)} {w : Fl r × Fl r} (hc : ClearPulse r.u (vp o)) (hp : PurePulse (vp o))
    (hw : Rotates (vp o) → 0 < (w.2 - w.1).val) {a : ℝ} (ha : 0 ≤ a) (hd : 0 ≤ (w.2 - w.1).val)
    (hb : a + (w.2 - w.1).val ≤ E) (hua : star (U a) * U a = 1) {gs : List (Segment ℝ)}
    (hfol : Follows N U a (keep (segVal (pulseSegment o w)) ++ gs)) :
    ‖U (a + (w.2 - w.1).val) - pulseUnitary (vp o).rabi (vp o).azimuthal (vp o).detuning * U a‖ ≤
        M / 2 * (w.2 - w.1).val + r.u / 2 * turn (vp o) ∧
      star (U (a + (w.2 - w.1).val)) * U (a + (w.2 - w.1).val) = 1 ∧ Follows N U (a + (w.2 - w.1).val) gs := by
  have ed : (segVal (pulseSegment o w)).duration = (w.2 - w.1).val := congrArg val (pulseSegment_duration o w)
  obtain ⟨f1, f2⟩ := hfol.step (b := a + (w.2 - w.1).val) (by rw [ed]; exact hd) (by rw [ed])
  obtain ⟨n1, n2⟩ := segment_noise hN (hU.mono (Icc_subset_Icc ha hb)) ha (by linarith) (hb.trans hE) f1 hua
  refine ⟨?_, n2, f2⟩
  have n3 := (segEvolution_pulse hc hw).1
  rw [realised_pure hp] at n3
  rw [add_sub_cancel_left] at n1
  have e : segmentUnitary (segVal (pulseSegment o w)).rabi (segVal (pulseSegment o w)).azimuthal
      (segVal (pulseSegment o w)).detuning (w.2 - w.1).val = segEvolution (pulseSegment o w) := by
    rw [← ed]; rfl
  rw [e] at n1
  set P := pulseUnitary (vp o).rabi (vp o).azimuthal (vp o).detuning
  set Q := segEvolution (pulseSegment o w)
  have e2 : U (a + (w.2 - w.1).val) - P * U a = (U (a + (w.2 - w.1).val) - Q * U a) + (Q - P) * U a := by noncomm_ring
  rw [e2]
  refine (norm_add_le _ _).trans (add_le_add n1 ((norm_mul_le _ _).trans ?_))
  exact (mul_le_of_le_one_right (norm_nonneg _) (norm_of_isometry hua)).trans n3

theorem rounded_near {N : QubitNoise} {M H E S : ℝ} {free : ℝ → ℝ → M2} (hfree : FreeEvolution N H free)
    (hN : N.Bounded H M) {U : ℝ → M2} (hU : ContinuousOn U (Icc 0 E)) (hE : E ≤ H) (hS : S ≤ H)
    (x : Operation (Fl r) × (Fl r × Fl r)) (L : List (Operation (Fl r) × (Fl r × Fl r)))
    (hc : ∀ y ∈ x :: L, ClearPulse r.u (vp y.1) ∧ PurePulse (vp y.1))
    (hb : ∀ y ∈ x :: L, 0 ≤ y.1.offset.val ∧ y.1.offset.val ≤ S)
    (hw : ∀ y ∈ x :: L, Rotates (vp y.1) → 0 < (y.2.2 - y.2.1).val)
    (ho : ∀ y ∈ x :: L, y.2.1.val ≤ y.2.2.val)
    (hg : ((x :: L).map Prod.snd).IsChain fun v w => v.2.val ≤ w.1.val)
    (hsort : ((x :: L).map fun y => y.1.offset.val).IsChain (· ≤ ·))
    (hlast : ((x :: L).getLast (by simp)).1.offset.val = S)
    (h0 : 0 ≤ x.2.1.val) (a : ℝ) (ha : 0 ≤ a) (hstart : |a - x.2.1.val| ≤ r.u * x.2.1.val)
    (hend : a + totalR (takesTime (buildSegments (x :: L))) ≤ E)
    (hfol : Follows N U a ((takesTime (buildSegments (x :: L))).map segVal)) (hua : star (U a) * U a = 1) :
    ‖U (a + totalR (takesTime (buildSegments (x :: L)))) - noisy free S x.1.offset.val (L.map fun y => vp y.1) *
        pulseUnitary (vp x.1).rabi (vp x.1).azimuthal (vp x.1).detuning * U a‖ +
      M / 2 * (|x.2.1.val - x.1.offset.val| + r.u * x.2.2.val) ≤ ((x :: L).map (cost M)).sum := by
  have hu := r.u_nonneg
  have hM : 0 ≤ M := by
    have : 0 ≤ H := by
      have := totalR_nonneg (buildSegments (x :: L))
      linarith
    exact (Real.sqrt_nonneg _).trans (hN 0 ⟨le_rfl, this⟩)
  induction L generalizing x a with
  | nil =>
    obtain ⟨o, w⟩ := x
    obtain ⟨c1, c2⟩ := hc (o, w) (by simp)
    have hww := ho (o, w) (by simp)
    have hrot := hw (o, w) (by simp)
    have hbo := hb (o, w) (by simp)
    dsimp only at h0 hstart hww hrot hbo c1 c2
    simp only [List.getLast_singleton] at hlast
    obtain ⟨d0, d1⟩ := rnd_within (r := r) (sub_nonneg.mpr hww)
    rw [← val_sub] at d0 d1
    have et : totalR (takesTime (buildSegments [(o, w)])) = (w.2 - w.1).val := by
      simp only [buildSegments]
      rw [totalR_takesTime, totalR_takesTime, pulseSegment_duration, val_lit_zero, max_eq_left d0]
      simp [takesTime, totalR]
    rw [et] at hend ⊢
    simp only [buildSegments] at hfol
    rw [takesTime_cons_val] at hfol
    obtain ⟨n1, -, -⟩ := pulse_near hN hU hE c1 c2 hrot ha d0 hend hua hfol
    simp only [List.map_nil, noisy, List.map_cons, List.sum_cons, List.sum_nil, add_zero, cost]
    rw [hlast, (hfree S ⟨hlast ▸ hbo.1, hS⟩).1, one_mul]
    have d2 := (abs_le.mp d1).2
    have k : (w.2 - w.1).val ≤ (1 + r.u) * (w.2.val - w.1.val) := by linarith
    have k2 := mul_le_mul_of_nonneg_left k (show 0 ≤ M / 2 by positivity)
    have k3 : 0 ≤ M / 2 * (|w.2.val - S| + r.u * w.2.val) := by
      have := h0.trans hww
      positivity
    linarith
  | cons y L ih =>
    obtain ⟨o, w⟩ := x
    obtain ⟨o', w'⟩ := y
    obtain ⟨c1, c2⟩ := hc (o, w) (by simp)
    have hww := ho (o, w) (by simp)
    have hww' := ho (o', w') (by simp)
    have hrot := hw (o, w) (by simp)
    have hbo := hb (o, w) (by simp)
    have hbo' := hb (o', w') (by simp)
    rw [List.map_cons, List.map_cons, List.isChain_cons_cons] at hg hsort
    obtain ⟨hg1, hg2⟩ := hg
    obtain ⟨hs1, hs2⟩ := hsort
    dsimp only at h0 hstart hww hww' hrot hbo hbo' c1 c2 hg1 hs1
    obtain ⟨d0, d1⟩ := rnd_within (r := r) (sub_nonneg.mpr hww)
    obtain ⟨g0, g1⟩ := rnd_within (r := r) (sub_nonneg.mpr hg1)
    rw [← val_sub] at d0 d1 g0 g1
    have et : totalR (takesTime (buildSegments ((o, w) :: (o', w') :: L))) =
        (w.2 - w.1).val + ((w'.1 - w.2).val + totalR (takesTime (buildSegments ((o', w') :: L)))) := by
      simp only [buildSegments]
      rw [totalR_takesTime, totalR_takesTime, pulseSegment_duration, max_eq_left d0, max_eq_left g0]
    have hZ := totalR_nonneg (buildSegments ((o', w') :: L))
    simp only [buildSegments] at hfol
    rw [takesTime_cons_val, takesTime_cons_val] at hfol
    rw [et, ← add_assoc, ← add_assoc] at hend ⊢
    set b := a + (w.2 - w.1).val with hbdef
    obtain ⟨n1, n2, hfol⟩ := pulse_near hN hU hE c1 c2 hrot ha d0 (by linarith) hua hfol
    obtain ⟨f1, hfol⟩ := hfol.step (b := b + (w'.1 - w.2).val) g0 rfl
    set a' := b + (w'.1 - w.2).val with hadef
    have hb0 : 0 ≤ b := by linarith
    have hba : b ≤ a' := by linarith
    have haE : a' ≤ E := by linarith
    have haH : a' ≤ H := haE.trans hE
    have f1 : ∀ t ∈ Ico b a', HasDerivWithinAt U (((-Complex.I) • (hamiltonian 0 0 0 + N.at t)) * U t) (Ici t) t := by
      simpa only [segVal, val_lit_zero] using f1
    have i1 := segment_idle hfree (hU.mono (Icc_subset_Icc hb0 haE)) hb0 hba haH f1
    have n3 := hfree.unitary hb0 hba haH
    have hua' : star (U a') * U a' = 1 := by
      rw [i1, star_mul]
      calc star (U b) * star (free b a') * (free b a' * U b) = star (U b) * (star (free b a') * free b a') * U b := by
            noncomm_ring
        _ = 1 := by rw [n3, mul_one, n2]
    have hb1 : |b - w.2.val| ≤ r.u * w.2.val := by
      have : b - w.2.val = (a - w.1.val) + ((w.2 - w.1).val - (w.2.val - w.1.val)) := by rw [hbdef]; ring
      rw [this]
      refine (abs_add_le _ _).trans ((add_le_add hstart d1).trans (le_of_eq (by ring)))
    have ha1 : |a' - w'.1.val| ≤ r.u * w'.1.val := by
      have : a' - w'.1.val = (b - w.2.val) + ((w'.1 - w.2).val - (w'.1.val - w.2.val)) := by rw [hadef]; ring
      rw [this]
      refine (abs_add_le _ _).trans ((add_le_add hb1 g1).trans (le_of_eq (by ring)))
    have i2 := ih (o', w') (fun y hy => hc y (by simp only [List.mem_cons] at hy ⊢; tauto))
      (fun y hy => hb y (by simp only [List.mem_cons] at hy ⊢; tauto))
      (fun y hy => hw y (by simp only [List.mem_cons] at hy ⊢; tauto))
      (fun y hy => ho y (by simp only [List.mem_cons] at hy ⊢; tauto))
      (by simpa only [List.map_cons] using hg2) (by simpa only [List.map_cons] using hs2)
      (by rw [List.getLast_cons (by simp)] at hlast; exact hlast)
      (by dsimp only; linarith) a' (by linarith) ha1 (by linarith) hfol hua'
    dsimp only at i2
    have hsort' : (o'.offset.val :: (L.map fun y => vp y.1).map Pulse.offset).IsChain (· ≤ ·) := by
      have : (L.map fun y => vp y.1).map Pulse.offset = L.map fun y => y.1.offset.val := by
        rw [List.map_map]; rfl
      rw [this]; exact hs2
    have hA := noisy_norm_le hfree hS (L.map fun y => vp y.1) o'.offset.val hbo'.1 hbo'.2 hsort' (by
      intro p hp
      obtain ⟨y, hy, rfl⟩ := List.mem_map.mp hp
      exact (hb y (by simp [hy])).2)
    have hP : ‖pulseUnitary (vp o).rabi (vp o).azimuthal (vp o).detuning‖ ≤ 1 := (isSU2_pulse _ _ _).norm
    have hP' : ‖pulseUnitary (vp o').rabi (vp o').azimuthal (vp o').detuning‖ ≤ 1 := (isSU2_pulse _ _ _).norm
    have eo : (vp o').offset = o'.offset.val := rfl
    simp only [List.map_cons, noisy, List.sum_cons, eo] at i2 ⊢
    have hF := hfree.dist hN hb0 hba haH hbo.1 hs1 (hbo'.2.trans hS)
    have hnF := hfree.norm hb0 hba haH
    set A := noisy free S o'.offset.val (L.map fun y => vp y.1)
    set P := pulseUnitary (vp o).rabi (vp o).azimuthal (vp o).detuning
    set P' := pulseUnitary (vp o').rabi (vp o').azimuthal (vp o').detuning
    set V := U (a' + totalR (takesTime (buildSegments ((o', w') :: L))))
    have hUa := norm_of_isometry hua
    have k0 : ‖A * P'‖ ≤ 1 := (norm_mul_le _ _).trans (mul_le_one₀ hA (norm_nonneg _) hP')
    have e : V - A * P' * free o.offset.val o'.offset.val * P * U a = (V - A * P' * U a') +
        A * P' * (free b a' * (U b - P * U a) + (free b a' - free o.offset.val o'.offset.val) * (P * U a)) := by
      rw [i1]; noncomm_ring
    have k1 : ‖free b a' * (U b - P * U a)‖ ≤ ‖U b - P * U a‖ :=
      (norm_mul_le _ _).trans (mul_le_of_le_one_left (norm_nonneg _) hnF)
    have k2 : ‖(free b a' - free o.offset.val o'.offset.val) * (P * U a)‖ ≤
        ‖free b a' - free o.offset.val o'.offset.val‖ :=
      (norm_mul_le _ _).trans (mul_le_of_le_one_right (norm_nonneg _)
        ((norm_mul_le _ _).trans (mul_le_one₀ hP (norm_nonneg _) hUa)))
    have k3 : ‖V - A * P' * free o.offset.val o'.offset.val * P * U a‖ ≤ ‖V - A * P' * U a'‖ +
        (‖U b - P * U a‖ + ‖free b a' - free o.offset.val o'.offset.val‖) := by
      rw [e]
      refine (norm_add_le _ _).trans (add_le_add le_rfl ?_)
      refine (norm_mul_le _ _).trans ((mul_le_of_le_one_left (norm_nonneg _) k0).trans ?_)
      exact (norm_add_le _ _).trans (add_le_add k1 k2)
    have t1 : |b - o.offset.val| ≤ |w.2.val - o.offset.val| + r.u * w.2.val := by
      have := abs_sub_le b w.2.val o.offset.val
      linarith
    have t2 : |a' - o'.offset.val| ≤ |w'.1.val - o'.offset.val| + r.u * w'.2.val := by
      have := abs_sub_le a' w'.1.val o'.offset.val
      have := mul_le_mul_of_nonneg_left hww' hu
      linarith
    have t3 := mul_le_mul_of_nonneg_left (add_le_add t1 t2) (show 0 ≤ M / 2 by positivity)
    have d2 := (abs_le.mp d1).2
    have t4 : (w.2 - w.1).val ≤ (1 + r.u) * (w.2.val - w.1.val) := by linarith
    have t5 := mul_le_mul_of_nonneg_left t4 (show 0 ≤ M / 2 by positivity)
    have ec : cost M (o, w) = M / 2 * ((1 + r.u) * (w.2.val - w.1.val)) +
      M / 2 * (|w.1.val - o.offset.val| + r.u * w.2.val) +
      M / 2 * (|w.2.val - o.offset.val| + r.u * w.2.val) + r.u / 2 * turn (vp o) := by
      unfold cost; ring
    rw [ec]
    linarith

/-! ## The whole control -/

theorem noisy_append_idle {free : ℝ → ℝ → M2} {T : ℝ} (h : free T T = 1) (a : ℝ) (l : List Pulse) :
    noisy free T a (l ++ [idlePulse T]) = noisy free T a l := by
  have hi : pulseUnitary (idlePulse T).rabi (idlePulse T).azimuthal (idlePulse T).detuning = 1 := by
    simp [idlePulse, pulseUnitary, hamiltonian]
  have ho : (idlePulse T).offset = T := rfl
  induction l generalizing a with
  | nil => simp only [List.nil_append, noisy, hi, ho, h, one_mul, mul_one]
  | cons p l ih => simp only [List.cons_append, noisy, ih]

/-- pulses that do nothing, at the start and at the end, make no difference -/
theorem noisy_pad {free : ℝ → ℝ → M2} {T : ℝ} (h0 : free 0 0 = 1) (hT : free T T = 1) (l : List Pulse) :
    noisy free T 0 (pad T l) = noisy free T 0 l := by
  have hi : ∀ t, pulseUnitary (idlePulse t).rabi (idlePulse t).azimuthal (idlePulse t).detuning = 1 := by
    intro t
    simp [idlePulse, pulseUnitary, hamiltonian]
  have ho : (idlePulse 0).offset = 0 := rfl
  unfold pad
  split <;> split <;> simp only [List.nil_append, List.append_nil, List.cons_append, noisy, noisy_append_idle hT, hi, ho,
    h0, mul_one]

theorem pad_sum (f : Pulse → ℝ) (hf : ∀ t, f (idlePulse t) = 0) (T : ℝ) (l : List Pulse) :
    ((pad T l).map f).sum = (l.map f).sum := by
  unfold pad
  split <;> split <;> simp [hf]

theorem pad_length (T : ℝ) (l : List Pulse) : (pad T l).length ≤ l.length + 2 := by
  unfold pad
  split <;> split <;> simp

theorem window_cost_le {T M o w t u : ℝ} {W : Fl r × Fl r} {v : ℝ × ℝ} (hM : 0 ≤ M) (hu : 0 ≤ u) (hu' : u ≤ 1 / 2 ^ 20)
    (hT : 0 < T) (hwT : w ≤ T) (hv : v.2 - v.1 = w) (h1 : v.1 ≤ o) (h2 : o ≤ v.2) (ho : o ≤ T) (h : Near u T w W v) :
    M / 2 * ((1 + u) * (W.2.val - W.1.val) + (|W.1.val - o| + u * W.2.val) + (|W.2.val - o| + u * W.2.val)) + t ≤
      M * (w + 28 * u * T) + t := by
  obtain ⟨n1, n2, -⟩ := h
  set δ := 6 * u * (T + w) with hδ
  have huT : 0 ≤ u * T := by positivity
  have hδ' : δ ≤ 12 * (u * T) := by
    have := mul_le_mul_of_nonneg_left hwT hu
    rw [hδ]; linarith
  have huT' : u * T ≤ T / 2 ^ 20 := by
    have := mul_le_mul_of_nonneg_right hu' hT.le
    linarith
  have a1 := abs_le.mp n1
  have a2 := abs_le.mp n2
  have b1 : |W.1.val - o| ≤ o - v.1 + δ := by
    rw [abs_le]; constructor <;> linarith [a1.1, a1.2]
  have b2 : |W.2.val - o| ≤ v.2 - o + δ := by
    rw [abs_le]; constructor <;> linarith [a2.1, a2.2]
  have b3 : W.2.val ≤ 3 * T := by
    norm_num at huT'
    linarith [a2.2]
  have b4 : W.2.val - W.1.val ≤ w + 24 * (u * T) := by linarith [a1.1, a2.2]
  have b5 := mul_le_mul_of_nonneg_left b3 hu
  have b6 := mul_le_mul_of_nonneg_left b4 hu
  have b7 := mul_le_mul_of_nonneg_left hwT hu
  have b8 : u * (24 * (u * T)) ≤ u * T := by
    apply mul_le_mul_of_nonneg_left _ hu
    norm_num at huT'
    linarith
  have b9 := mul_le_mul_of_nonneg_left (show (1 + u) * (W.2.val - W.1.val) + (|W.1.val - o| + u * W.2.val) +
    (|W.2.val - o| + u * W.2.val) ≤ 2 * (w + 28 * u * T) by linarith) (show 0 ≤ M / 2 by positivity)
  linarith

theorem rounded_distance {R D m : Fl r} {s : Sequence (Fl r)} (hs : s.Constructed) (hT : 2 / 10 ^ 8 ≤ s.duration.val)
    (hclear : ∀ p ∈ pulseList (s.map val), ClearPulse r.u p) (hpure : ∀ p ∈ pulseList (s.map val), PurePulse p)
    (hc : ConvertibleWith (32 * r.u * s.duration.val) R.val D.val m.val (s.map val))
    (hwide : ∀ p ∈ pulseList (s.map val), Rotates p → 16 * r.u * s.duration.val < width R.val D.val m.val p)
    {name : Option String} {c : DrivenControl (Fl r)} (hok : convertDDS s R D m name = .ok c) {N : QubitNoise} {M H : ℝ}
    (hH : (1 + 6 * r.u) * s.duration.val ≤ H) (hN : N.Bounded H M) {free : ℝ → ℝ → M2} (hfree : FreeEvolution N H free)
    {U : ℝ → M2} (hU : NoisyEvolution (c.map val) N U) :
    ‖U (c.map val).durations.sum - underNoise free (s.map val)‖ ≤
        M * (pulseTimes R.val D.val m.val (s.map val) + 28 * (s.offsets.length + 2) * r.u * s.duration.val) +
          r.u / 2 * turning (pulseList (s.map val)) ∧
      star (U (c.map val).durations.sum) * U (c.map val).durations.sum = 1 := by
  have hu := r.u_nonneg
  have hsep := separated hs hclear hc
  obtain ⟨⟨hD, hR, hm, hrabi, -, hsort, hpass⟩, h⟩ := (convertDDS_rounded hs R D m name).ok hok
  rcases h with ⟨h, -⟩ | ⟨-, rfl⟩
  · exact absurd h (not_allClose hs hT hm hsort)
  have hT0 : 0 < s.duration.val := (rounded_facts hs).facts.1
  have huT : 0 ≤ r.u * s.duration.val := by positivity
  have hdur := (rounded_duration hs hT hm hsort le_rfl (by norm_num) hsep.apart).2
  rw [mul_zero, mul_zero, add_zero] at hdur
  obtain ⟨hpw, a, mid, b, hpad⟩ := padded_shape hs hsort
  rw [totalR_control]
  rw [ofRounded_val] at hU
  obtain ⟨u1, u2, u3⟩ := noisyEvolution_follows.mp hU
  rw [total_segVal] at u2
  have hSH : s.duration.val ≤ H := by linarith
  have hM : 0 ≤ M := (Real.sqrt_nonneg _).trans (hN 0 ⟨le_rfl, by linarith⟩)
  set E := totalR (takesTime (buildSegments (pairs s R D m))) with hE
  have hE0 : 0 ≤ E := totalR_nonneg _
  refine ⟨?_, ?_⟩
  swap
  · have u2' : ContinuousOn U (Icc 0 (total ((takesTime (buildSegments (pairs s R D m))).map segVal))) := by
      rw [total_segVal]; exact u2
    have := follows_unique u2' u2' u3 u3 E (by rw [total_segVal]; exact ⟨hE0, le_rfl⟩)
    rw [this, u1, star_one, one_mul]
  have hpairs : pairs s R D m = (a, fwin s.duration R D m a) ::
      ((mid ++ [b]).map fun o => (o, fwin s.duration R D m o)) := by
    unfold pairs; rw [hpad.eq]; rfl
  have hmem : ∀ y ∈ pairs s R D m, ∃ o ∈ paddedOps s, y = (o, fwin s.duration R D m o) := by
    intro y hy
    obtain ⟨o, ho, rfl⟩ := List.mem_map.mp hy
    exact ⟨o, ho, rfl⟩
  have hidle : ∀ t, ¬ Rotates (idlePulse t) := fun t h => h (by simp [idlePulse, Negligible])
  have hfa : fwin s.duration R D m a = (PyFloat.lit 0, (fwin s.duration R D m a).2) := by
    unfold fwin
    rw [if_pos hpad.first]
  have hfa0 : (fwin s.duration R D m a).1.val = 0 := by rw [hfa]; exact val_lit_zero
  have hoff : ((pairs s R D m).map fun y => y.1.offset.val) =
      (pad s.duration.val (pulseList (s.map val))).map Pulse.offset := by
    rw [← paddedOps_val]; unfold pairs; rw [List.map_map, List.map_map]; rfl
  have key := rounded_near (r := r) (S := s.duration.val) (E := E) hfree hN u2 (by linarith) hSH
    (a, fwin s.duration R D m a) ((mid ++ [b]).map fun o => (o, fwin s.duration R D m o)) (by
      rw [← hpairs]
      intro y hy
      obtain ⟨o, ho, rfl⟩ := hmem y hy
      refine ⟨(paddedOps_facts hs hrabi hclear ho).2.1, ?_⟩
      rcases paddedOps_mem ho with h | h | h
      · exact hpure _ h
      · dsimp only; rw [h]; simp [PurePulse, idlePulse]
      · dsimp only; rw [h]; simp [PurePulse, idlePulse]) (by
      rw [← hpairs]
      intro y hy
      obtain ⟨o, ho, rfl⟩ := hmem y hy
      exact (paddedOps_facts hs hrabi hclear ho).1) (by
      rw [← hpairs]
      intro y hy hrot
      obtain ⟨o, ho, rfl⟩ := hmem y hy
      rw [val_sub, rnd_pos]
      refine window_not_empty hT0 hu r.u_le (window_width _ _ _ _ _) (hsep.near o ho) ?_
      rcases paddedOps_mem ho with h | h | h
      · exact hwide _ h hrot
      · dsimp only at hrot; rw [h] at hrot; exact absurd hrot (hidle _)
      · dsimp only at hrot; rw [h] at hrot; exact absurd hrot (hidle _)) (by
      rw [← hpairs]
      intro y hy
      obtain ⟨o, ho, rfl⟩ := hmem y hy
      exact (hsep.near o ho).order) (by
      rw [← hpairs]
      have : (pairs s R D m).map Prod.snd = fwindows s R D m := by
        unfold pairs fwindows; rw [List.map_map]; rfl
      rw [this]
      exact hsep.apart.imp fun v w h => by rw [neg_zero] at h; linarith) (by
      rw [← hpairs, hoff]
      exact hpw.isChain.imp fun _ _ h => h.le) (by
      have : ((a, fwin s.duration R D m a) :: ((mid ++ [b]).map fun o => (o, fwin s.duration R D m o))).getLast
          (by simp) = (b, fwin s.duration R D m b) := by simp
      rw [this]
      exact hpad.last) hfa0.ge 0 le_rfl (by
      dsimp only
      rw [hfa0]; simp) (by rw [← hpairs, zero_add]) (by rw [← hpairs]; exact u3)
    (by rw [u1, star_one, one_mul])
  rw [← hpairs, zero_add, u1, mul_one] at key
  have f00 := (hfree 0 ⟨le_rfl, by linarith⟩).1
  have fTT := (hfree s.duration.val ⟨hT0.le, hSH⟩).1
  have eN : noisy free s.duration.val a.offset.val (((mid ++ [b]).map fun o => (o, fwin s.duration R D m o)).map
      fun y => vp y.1) * pulseUnitary (vp a).rabi (vp a).azimuthal (vp a).detuning = underNoise free (s.map val) := by
    rw [underNoise_noisy]
    have e1 : (s.map val).duration = s.duration.val := rfl
    rw [e1, ← noisy_pad f00 fTT, ← paddedOps_val, hpad.eq]
    have e2 : (vp a).offset = 0 := hpad.first
    simp only [List.map_cons, noisy, e2, f00, mul_one]
    rw [hpad.first, List.map_map]
    rfl
  dsimp only at key
  rw [eN] at key
  have hpos : 0 ≤ M / 2 * (|(fwin s.duration R D m a).1.val - a.offset.val| + r.u * (fwin s.duration R D m a).2.val) := by
    have := (hsep.near a (by rw [hpad.eq]; simp)).order
    rw [hfa0] at this
    positivity
  have hcost : ((pairs s R D m).map (cost M)).sum ≤ ((pairs s R D m).map fun y =>
      M * (width R.val D.val m.val (vp y.1) + 28 * r.u * s.duration.val) + r.u / 2 * turn (vp y.1)).sum := by
    apply List.sum_le_sum
    intro y hy
    obtain ⟨o, ho, rfl⟩ := hmem y hy
    obtain ⟨⟨h1, h2⟩, -, -⟩ := paddedOps_facts hs hrabi hclear ho
    obtain ⟨w1, w2⟩ := window_order (T := s.duration.val) (R := R.val) (D := D.val) hm (p := vp o) h1 h2
    exact window_cost_le hM hu r.u_le hT0 (hsep.width_le o ho) (window_width _ _ _ _ _) w1 w2 h2 (hsep.near o ho)
  have esum : ((pairs s R D m).map fun y => M * (width R.val D.val m.val (vp y.1) + 28 * r.u * s.duration.val) +
      r.u / 2 * turn (vp y.1)).sum = M * pulseTimes R.val D.val m.val (s.map val) +
        (paddedOps s).length * (M * (28 * r.u * s.duration.val)) + r.u / 2 * turning (pulseList (s.map val)) := by
    have e1 : ((pairs s R D m).map fun y => M * (width R.val D.val m.val (vp y.1) + 28 * r.u * s.duration.val) +
        r.u / 2 * turn (vp y.1)) = ((paddedOps s).map vp).map fun p =>
          M * width R.val D.val m.val p + M * (28 * r.u * s.duration.val) + r.u / 2 * turn p := by
      unfold pairs
      rw [List.map_map, List.map_map]
      refine List.map_congr_left fun o _ => ?_
      simp only [Function.comp_apply]
      ring
    have ht0 : ∀ t, turn (idlePulse t) = 0 := fun t => (realised_nothing (p := idlePulse t)
      (by simp [idlePulse, Negligible]) (by simp [idlePulse, Negligible])).2
    have ew := pad_sum (width R.val D.val m.val) (width_idle _ _ _) s.duration.val (pulseList (s.map val))
    have et := pad_sum turn ht0 s.duration.val (pulseList (s.map val))
    have et' : ((pad s.duration.val (pulseList (s.map val))).map fun p => r.u / 2 * turn p).sum =
        r.u / 2 * ((pulseList (s.map val)).map turn).sum := by rw [List.sum_map_mul_left, et]
    have ew' : ((pad s.duration.val (pulseList (s.map val))).map fun p => M * width R.val D.val m.val p).sum =
        M * ((pulseList (s.map val)).map (width R.val D.val m.val)).sum := by rw [List.sum_map_mul_left, ew]
    rw [e1, List.sum_map_add, List.sum_map_add, paddedOps_val, ew', et']
    have el : (paddedOps s).length = (pad s.duration.val (pulseList (s.map val))).length := by
      rw [← paddedOps_val, List.length_map]
    rw [el]
    simp only [List.map_const', List.sum_replicate, nsmul_eq_mul]
    rfl
  have hlen : ((paddedOps s).length : ℝ) ≤ s.offsets.length + 2 := by
    have h1 := pad_length s.duration.val (pulseList (s.map val))
    rw [← paddedOps_val, List.length_map] at h1
    obtain ⟨-, -, hr, ha, hd⟩ := (rounded_facts hs).facts
    have ho := congrArg List.length (pulseList_offsets (s.map val) hr ha hd)
    rw [List.length_map] at ho
    have : (s.map val).offsets.length = s.offsets.length := List.length_map ..
    rw [ho, this] at h1
    exact_mod_cast h1
  have hl := mul_le_mul_of_nonneg_right hlen (show 0 ≤ M * (28 * r.u * s.duration.val) by positivity)
  rw [esum] at hcost
  linarith

end OpenControls
