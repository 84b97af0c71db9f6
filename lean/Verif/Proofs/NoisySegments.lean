import Verif.Proofs.NoisyExistence
import Verif.Proofs.Control

/-!
# Controls on a noisy qubit, segment by segment
-/

namespace OpenControls

open Spec Set
open scoped Matrix.Norms.L2Operator

/-! ## Controls as lists of segments -/

theorem constructed_segments {c : DrivenControl ℝ} (hc : c.Constructed) :
    ∃ gs, c = ofSegments gs c.name ∧ ∀ g ∈ gs, 0 < g.duration := by
  obtain ⟨l1, l2, l3, l4⟩ := hc.lengths
  have hpos : ∀ t ∈ c.durations, 0 < t := by
    obtain ⟨t, r, a, d, n, h⟩ := hc
    rw [DrivenControl.new_eq] at h
    split at h
    · rename_i h1
      split at h
      · split at h
        · injection h with h
          subst h
          intro x hx
          simpa using List.all_eq_true.mp h1 x hx
        · cases h
      · cases h
    · cases h
  refine ⟨List.zipWith (fun r x => ⟨r, x.1, x.2.1, x.2.2⟩) c.rabiRates
    (c.azimuthalAngles.zip (c.detunings.zip c.durations)), ?_, ?_⟩
  · cases c with
    | mk r a d t n =>
      simp only [DrivenControl.numberOfSegments] at l1 l2 l3 l4
      simp only [ofSegments, DrivenControl.mk.injEq, and_true]
      refine ⟨?_, ?_, ?_, ?_⟩ <;> apply List.ext_getElem <;> simp <;> omega
  · intro g hg
    obtain ⟨i, hi, rfl⟩ := List.getElem_of_mem hg
    simp only [List.getElem_zipWith, List.getElem_zip]
    exact hpos _ (List.getElem_mem _)

theorem drivesList_ofSegments {gs : List (Segment ℝ)} {name : Option String} {t : ℝ} {v : ℝ × ℝ × ℝ}
    (h : DrivesAt (ofSegments gs name) t v) : DrivesList gs t v := by
  obtain ⟨k, h1, h2, h3, h4, h5⟩ := h
  simp only [ofSegments, List.getElem?_map, Option.map_eq_some_iff] at h1 h2 h3
  obtain ⟨g, hg, e1⟩ := h1
  obtain ⟨g', hg', e2⟩ := h2
  obtain ⟨g'', hg'', e3⟩ := h3
  rw [hg] at hg' hg''
  cases hg'
  cases hg''
  refine ⟨k, g, hg, ?_, ?_, ?_⟩
  · simp only [Segment.value, e1, e2, e3]
  · simpa [ofSegments, total, List.map_take] using h4
  · simpa [ofSegments, total, List.map_take] using h5

theorem total_cons (g : Segment ℝ) (gs : List (Segment ℝ)) : total (g :: gs) = g.duration + total gs := by
  simp [total]

theorem total_nonneg {gs : List (Segment ℝ)} (h : ∀ g ∈ gs, 0 < g.duration) : 0 ≤ total gs :=
  List.sum_nonneg fun x hx => by
    obtain ⟨g, hg, rfl⟩ := List.mem_map.mp hx
    exact (h g hg).le

/-- at every time one of the segments is active -/
theorem drivesList_exists {gs : List (Segment ℝ)} {t : ℝ} (h0 : 0 ≤ t) (ht : t < total gs) :
    ∃ v, DrivesList gs t v := by
  induction gs generalizing t with
  | nil => simp [total] at ht; linarith
  | cons g gs ih =>
    rcases lt_or_ge t g.duration with h | h
    · exact ⟨_, DrivesList.head h0 h⟩
    · obtain ⟨v, hv⟩ := ih (t := t - g.duration) (by linarith) (by rw [total_cons] at ht; linarith)
      exact ⟨v, hv.tail⟩

theorem drivesList_cons {g : Segment ℝ} {gs : List (Segment ℝ)} (h : ∀ x ∈ g :: gs, 0 < x.duration) {t : ℝ}
    {v : ℝ × ℝ × ℝ} (hv : DrivesList (g :: gs) t v) :
    (0 ≤ t ∧ t < g.duration ∧ v = g.value) ∨
      (g.duration ≤ t ∧ t < total (g :: gs) ∧ DrivesList gs (t - g.duration) v) := by
  obtain ⟨k, x, h1, h2, h3, h4⟩ := hv
  cases k with
  | zero =>
    left
    simp at h1
    subst h1
    refine ⟨by simpa [total] using h3, by simpa [total] using h4, h2.symm⟩
  | succ k =>
    right
    rw [List.take_succ_cons, total_cons] at h3 h4
    have h5 : 0 ≤ total (gs.take k) := total_nonneg fun y hy => h y (by simp [List.mem_of_mem_take hy])
    have h6 : total (gs.take (k + 1)) ≤ total gs := by
      conv_rhs => rw [← List.take_append_drop (k + 1) gs, total_append]
      have : 0 ≤ total (gs.drop (k + 1)) := total_nonneg fun y hy => h y (by simp [List.mem_of_mem_drop hy])
      linarith
    refine ⟨by linarith, by rw [total_cons]; linarith, k, x, by simpa using h1, h2, by linarith, by linarith⟩

/-! ## Existence and uniqueness -/

theorem Spec.QubitNoise.continuous {N : QubitNoise} (hx : Continuous N.x) (hy : Continuous N.y) (hz : Continuous N.z) :
    Continuous N.at := by
  unfold QubitNoise.at
  have h : ∀ f : ℝ → ℝ, Continuous f → Continuous fun t => (f t : ℂ) := fun f hf => Complex.continuous_ofReal.comp hf
  have h1 := h _ hx
  have h2 := h _ hy
  have h3 := h _ hz
  fun_prop

theorem skew_total (v : ℝ × ℝ × ℝ) (N : QubitNoise) (t : ℝ) :
    star ((-Complex.I) • (hamiltonian v.1 v.2.1 v.2.2 + N.at t)) =
      -((-Complex.I) • (hamiltonian v.1 v.2.1 v.2.2 + N.at t)) := by
  rw [smul_add, star_add, skew_drive, skew_noise]; abel

theorem follows_exists {N : QubitNoise} (hN : Continuous N.at) {gs : List (Segment ℝ)} (hg : ∀ g ∈ gs, 0 < g.duration)
    (a : ℝ) {V : M2} (hV : star V * V = 1) :
    ∃ U, U a = V ∧ ContinuousOn U (Icc a (a + total gs)) ∧ Follows N U a gs := by
  induction gs generalizing a V with
  | nil =>
    refine ⟨fun _ => V, rfl, continuousOn_const, fun t v h => ?_⟩
    obtain ⟨k, g, h, -⟩ := h
    simp at h
  | cons g gs ih =>
    have hg0 := hg g (by simp)
    have hb : a ≤ a + g.duration := by linarith
    obtain ⟨U, hU, hUs⟩ := solves_exists hb (B := fun t => (-Complex.I) •
      (hamiltonian g.rabi g.azimuthal g.detuning + N.at t)) (by fun_prop)
      (fun t _ => skew_total g.value N t) hV
    have hu := hUs.unitary (fun t _ => skew_total g.value N t) (by rw [hU, hV]) _ ⟨hb, le_rfl⟩
    obtain ⟨W, hW, hWc, hWf⟩ := ih (fun x hx => hg x (by simp [hx])) (a + g.duration) hu
    have ht := total_nonneg (gs := gs) fun x hx => hg x (by simp [hx])
    classical
    set Z : ℝ → M2 := fun t => if t ≤ a + g.duration then U t else W t with hZ
    have z1 : ∀ t, t ≤ a + g.duration → Z t = U t := fun t h => if_pos h
    have z2 : ∀ t, a + g.duration ≤ t → Z t = W t := by
      intro t h
      by_cases h' : t ≤ a + g.duration
      · rw [z1 t h', le_antisymm h' h, hW]
      · exact if_neg h'
    refine ⟨Z, by rw [z1 a hb, hU], ?_, fun t v hv => ?_⟩
    · rw [total_cons, ← add_assoc, ← Icc_union_Icc_eq_Icc hb (show a + g.duration ≤ a + g.duration + total gs by linarith)]
      exact (hUs.1.congr fun t h => z1 t h.2).union_of_isClosed (hWc.congr fun t h => z2 t h.1) isClosed_Icc isClosed_Icc
    · rcases drivesList_cons hg hv with ⟨h1, h2, rfl⟩ | ⟨h1, h2, h3⟩
      · have htm : t ∈ Ico a (a + g.duration) := ⟨by linarith, by linarith⟩
        rw [z1 t htm.2.le]
        refine (hUs.2 t htm).congr_of_eventuallyEq ?_ (z1 t htm.2.le)
        filter_upwards [Icc_mem_nhdsGE_of_mem htm] with s hs using z1 s hs.2
      · have htm : a + g.duration ≤ t := by linarith
        rw [z2 t htm]
        rw [sub_sub] at h3
        refine (hWf t v h3).congr_of_eventuallyEq ?_ (z2 t htm)
        filter_upwards [self_mem_nhdsWithin] with s hs using z2 s (htm.trans hs)

theorem noisyEvolution_follows {gs : List (Segment ℝ)} {name : Option String} {N : QubitNoise} {U : ℝ → M2} :
    NoisyEvolution (ofSegments gs name) N U ↔ U 0 = 1 ∧ ContinuousOn U (Icc 0 (total gs)) ∧ Follows N U 0 gs := by
  unfold NoisyEvolution
  rw [continuousOn_entries]
  have e : (ofSegments gs name).durations.sum = total gs := rfl
  rw [e]
  refine and_congr_right fun _ => and_congr_right fun _ => ⟨fun h t v hv => ?_, fun h t v hv => ?_⟩
  · rw [sub_zero] at hv
    have := hasRightDeriv_iff.mp (h t v (drivesAt_ofSegments gs name t v hv))
    rwa [← smul_mul_assoc] at this
  · have := h t v (by rw [sub_zero]; exact drivesList_ofSegments hv)
    rw [hasRightDeriv_iff, ← smul_mul_assoc]
    exact this

theorem follows_unique {N : QubitNoise} {gs : List (Segment ℝ)} {U V : ℝ → M2}
    (hU : ContinuousOn U (Icc 0 (total gs))) (hV : ContinuousOn V (Icc 0 (total gs))) (fU : Follows N U 0 gs)
    (fV : Follows N V 0 gs) : ∀ t ∈ Icc 0 (total gs), star (V t) * U t = star (V 0) * U 0 := by
  refine constant_of_has_deriv_right_zero (f := fun t => star (V t) * U t) (hV.star.mul hU) fun s hs => ?_
  obtain ⟨v, hv⟩ := drivesList_exists hs.1 hs.2
  have h1 := fU s v (by rw [sub_zero]; exact hv)
  have h2 := fV s v (by rw [sub_zero]; exact hv)
  refine (h2.star.mul h1).congr_deriv ?_
  rw [star_mul, skew_total]
  noncomm_ring

theorem follows_evolution {U : ℝ → M2} {gs : List (Segment ℝ)} (hg : ∀ g ∈ gs, 0 < g.duration) (name : Option String)
    {N : QubitNoise} (hN : ∀ t, N.at t = 0) (a : ℝ) (hU : ContinuousOn U (Icc a (a + total gs)))
    (hf : Follows N U a gs) (hn : ∀ t ∈ Icc a (a + total gs), ‖U t‖ ≤ 1) :
    U (a + total gs) = evolution (ofSegments gs name) * U a := by
  induction gs generalizing a with
  | nil => simp [total, evolution, ofSegments, controlEvolution]
  | cons g gs ih =>
    have hg0 := hg g (by simp)
    have ht := total_nonneg (gs := gs) fun x hx => hg x (by simp [hx])
    have hb : a ≤ a + g.duration := by linarith
    have hbc : a + g.duration + total gs = a + total (g :: gs) := by rw [total_cons]; ring
    obtain ⟨f1, f2⟩ := Follows.step (g := g) (gs := gs) (by rw [keep_pos hg0]; exact hf) hg0.le rfl
    have i := ih (fun x hx => hg x (by simp [hx])) (a + g.duration)
      (hU.mono (Icc_subset_Icc hb hbc.le)) f2 fun t h => hn t ⟨hb.trans h.1, h.2.trans hbc.le⟩
    have hs : Solves (fun t => (-Complex.I) • (hamiltonian g.rabi g.azimuthal g.detuning + N.at t)) a (a + g.duration) U :=
      ⟨hU.mono (Icc_subset_Icc le_rfl (by linarith)), f1⟩
    have := hs.near hb (B₀ := (-Complex.I) • hamiltonian g.rabi g.azimuthal g.detuning) (N := fun _ => 0) (M := 0)
      (fun t _ => by rw [hN, add_zero, add_zero]) (skew_drive _ _ _) (fun _ _ => by simp)
      (fun t h => hn t ⟨h.1, h.2.trans (by linarith)⟩)
    rw [zero_mul, norm_le_zero_iff, sub_eq_zero, exp_drive] at this
    rw [← hbc, i, this, evolution_ofSegments_cons, add_sub_cancel_left, mul_assoc]

end OpenControls
