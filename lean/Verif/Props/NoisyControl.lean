import Verif.Proofs.NoisySegments
import Verif.Props.NoisyRounding
import Verif.Props.EndToEnd
import Verif.Props.FiniteWidthRotations

/-!
# C113: converted controls on a noisy qubit
-/

namespace OpenControls

open Spec RealInst Set
open scoped Matrix.Norms.L2Operator

/-! ## Helpers -/

theorem isometry_returnProbability {U P : M2} (hU : star U * U = 1) (hP : EqUpToPhase P 1 ∨ EqUpToPhase P σz) {d : ℝ}
    (h : ‖U - P‖ ≤ d) : 1 - d ^ 2 ≤ returnProbability U := by
  have h0 : P 1 0 = 0 := by
    rcases hP with ⟨z, -, rfl⟩ | ⟨z, -, rfl⟩
    · simp
    · simp [σz]
  have h1 : ‖U 1 0‖ ≤ d := by
    have := (entry_le_norm (U - P) 1 0).trans h
    rwa [Matrix.sub_apply, h0, sub_zero] at this
  have h2 : ‖U 1 0‖ ^ 2 ≤ d ^ 2 := pow_le_pow_left₀ (norm_nonneg _) h1 2
  have h3 : ‖U 0 0‖ ^ 2 + ‖U 1 0‖ ^ 2 = 1 := by
    have := congrFun (congrFun hU 0) 0
    rw [Matrix.mul_apply, Fin.sum_univ_two] at this
    simp only [Matrix.star_apply, Matrix.one_apply_eq, RCLike.star_def, ← Complex.normSq_eq_conj_mul_self] at this
    rw [Complex.sq_norm, Complex.sq_norm]
    exact_mod_cast this
  unfold Spec.returnProbability
  linarith

theorem total_keptFrom {T R D m : ℝ} (hm : 0 ≤ m) (l : List Pulse) (a : ℝ) (h : fitsFrom T R D m a l) :
    total (keptFrom T R D m a l) = T - a := by
  induction l generalizing a with
  | nil =>
    simp only [keptFrom, total_keep]
    exact max_eq_left (sub_nonneg.mpr h)
  | cons p r ih =>
    simp only [keptFrom, total_append, total_keep, ih _ h.2]
    rw [max_eq_left (sub_nonneg.mpr h.1), max_eq_left (show 0 ≤ (pulseSeg R D m p).duration from width_nonneg hm R D p)]
    have := window_width T R D m p
    simp only [pulseSeg]
    linarith

/-! ## The equation and the closed forms -/

/-- **C113.** Schrödinger's equation for a control and continuous noise has a solution, and only one. -/
theorem C113_exists (c : DrivenControl ℝ) (hc : c.Constructed) (N : QubitNoise) (hx : Continuous N.x)
    (hy : Continuous N.y) (hz : Continuous N.z) :
    ∃ U, NoisyEvolution c N U ∧ ∀ V, NoisyEvolution c N V → ∀ t ∈ Icc 0 c.durations.sum, V t = U t := by
  obtain ⟨gs, e, hg⟩ := constructed_segments hc
  obtain ⟨U, h1, h2, h3⟩ := follows_exists (QubitNoise.continuous hx hy hz) hg 0 (V := 1) (by simp)
  rw [zero_add] at h2
  have hU : NoisyEvolution c N U := by rw [e]; exact noisyEvolution_follows.mpr ⟨h1, h2, h3⟩
  refine ⟨U, hU, fun V hV t ht => ?_⟩
  rw [e] at hV ht
  obtain ⟨k1, k2, k3⟩ := noisyEvolution_follows.mp hV
  have ht' : t ∈ Icc 0 (total gs) := ht
  have a1 := follows_unique h2 k2 h3 k3 t ht'
  have a2 := follows_unique k2 k2 k3 k3 t ht'
  rw [k1, star_one, one_mul] at a2
  rw [k1, h1, star_one, one_mul] at a1
  rw [← mul_one (V t), ← a1, ← mul_assoc, mul_eq_one_comm.mp a2, one_mul]

/-- **C113.** Without noise the solution ends with the evolution of the control, as it is used in all the other claims. -/
theorem C113_noiseless (c : DrivenControl ℝ) (hc : c.Constructed) (U : ℝ → M2)
    (hU : NoisyEvolution c ⟨fun _ => 0, fun _ => 0, fun _ => 0⟩ U) : U c.durations.sum = evolution c := by
  obtain ⟨gs, e, hg⟩ := constructed_segments hc
  rw [e] at hU ⊢
  obtain ⟨k1, k2, k3⟩ := noisyEvolution_follows.mp hU
  have hn : ∀ t ∈ Icc 0 (total gs), ‖U t‖ ≤ 1 := fun t ht => norm_of_isometry (by
    rw [follows_unique k2 k2 k3 k3 t ht, k1, star_one, one_mul])
  have := follows_evolution hg c.name (fun t => by simp [QubitNoise.at]) 0 (by rwa [zero_add]) k3 (by rwa [zero_add])
  rw [zero_add, k1, mul_one] at this
  exact this

/-- **C113.** The evolution under dephasing noise of C81 solves the equation without a control. -/
theorem C113_dephasing_free (β : ℝ → ℝ) (hβ : Continuous β) (T : ℝ) :
    FreeEvolution ⟨fun _ => 0, fun _ => 0, β⟩ T (dephasing β) := by
  have hd : ∀ a t, HasDerivAt (dephasing β a) ((-Complex.I) • ((⟨fun _ => 0, fun _ => 0, β⟩ : QubitNoise).at t *
      dephasing β a t)) t := by
    intro a t
    have e : dephasing β a = fun b => NormedSpace.exp ((∫ s in a..b, β s) • ((-Complex.I / 2) • σz)) := by
      funext b
      unfold dephasing
      congr 1
      ext i j
      simp
      ring
    have h1 : HasDerivAt (fun b => ∫ s in a..b, β s) (β t) t :=
      (hβ.integral_hasStrictDerivAt a t).hasDerivAt
    have h2 := (hasDerivAt_exp_smul_const' (𝕂 := ℝ) ((-Complex.I / 2) • σz) (∫ s in a..t, β s)).scomp t h1
    rw [e]
    refine h2.congr_deriv ?_
    rw [← smul_mul_assoc, ← smul_mul_assoc]
    congr 1
    ext i j
    simp [QubitNoise.at]
    ring
  intro a _
  refine ⟨by simp [dephasing], continuousOn_entries.mpr fun t _ => (hd a t).continuousAt.continuousWithinAt, fun t _ => ?_⟩
  exact hasRightDeriv_iff.mpr (hd a t).hasDerivWithinAt

/-- **C113.** The evolution under static noise of C82 solves the equation without a control. -/
theorem C113_static_free (x y z T : ℝ) :
    FreeEvolution ⟨fun _ => x, fun _ => y, fun _ => z⟩ T (staticNoise x y z) := by
  have hd : ∀ a t, HasDerivAt (staticNoise x y z a) ((-Complex.I) •
      ((⟨fun _ => x, fun _ => y, fun _ => z⟩ : QubitNoise).at t * staticNoise x y z a t)) t := by
    intro a t
    have e : staticNoise x y z a = fun b => NormedSpace.exp ((b - a) • ((-Complex.I) •
        (⟨fun _ => x, fun _ => y, fun _ => z⟩ : QubitNoise).at t)) := by
      funext b
      unfold staticNoise
      congr 1
      ext i j
      simp [QubitNoise.at]
      ring
    have h2 := (hasDerivAt_exp_smul_const' (𝕂 := ℝ) ((-Complex.I) •
        (⟨fun _ => x, fun _ => y, fun _ => z⟩ : QubitNoise).at t) (t - a)).comp_sub_const t a
    rw [← smul_mul_assoc, e]
    exact h2
  intro a _
  refine ⟨by simp [staticNoise], continuousOn_entries.mpr fun t _ => (hd a t).continuousAt.continuousWithinAt, fun t _ => ?_⟩
  exact hasRightDeriv_iff.mpr (hd a t).hasDerivWithinAt

/-! ## Converted sequences -/

/-- **C113.** A sequence of pulses that the conversion carries out (each a rotation about an axis in the XY plane or about
Z) is converted to a control whose pulses do not overlap.  Under noise of any direction and time dependence, never
stronger than `M`, the evolution of the qubit under the control is the one with instantaneous pulses up to `M` times the
time the pulses take on the hardware. -/
theorem C113_distance (s : Sequence ℝ) (hs : s.Constructed) (hT : 1 / 10 ^ 8 < s.duration)
    (hp : ∀ p ∈ pulseList s, PurePulse p) (R D m : ℝ) (hno : NoOverlap R D m s) (name : Option String)
    (c : DrivenControl ℝ) (h : convertDDS s R D m name = .ok c) (N : QubitNoise) (M : ℝ) (hN : N.Bounded s.duration M)
    (U : ℝ → M2) (hU : NoisyEvolution c N U) (free : ℝ → ℝ → M2) (hfree : FreeEvolution N s.duration free) :
    ‖U s.duration - underNoise free s‖ ≤ M * pulseTimes R D m s ∧ star (U s.duration) * U s.duration = 1 := by
  obtain ⟨hc, h | h⟩ := converted hs h
  · exact absurd (allSmall_duration hs hc h.1) (not_le.mpr hT)
  · obtain ⟨-, rfl⟩ := h
    obtain ⟨hT0, hb, hr, ha, hd⟩ := hs.facts
    obtain ⟨hR, hD, hm, hrabi, -⟩ := hc
    have ho := pulseList_offsets s hr ha hd
    unfold NoOverlap at hno
    rw [windows_eq hs] at hno
    have hf := fits_pad hT0 _ hno
    rw [kept_pad hT0] at hU
    obtain ⟨u1, u2, u3⟩ := noisyEvolution_follows.mp hU
    have ht := total_keptFrom hm _ 0 hf
    rw [sub_zero] at ht
    refine ⟨?_, ?_⟩
    · have := converted_near hfree hN hR hD hm (by rw [ht] at u2; exact u2) (pulseList s)
        (fun p hq => ⟨hb _ (ho ▸ List.mem_map_of_mem hq), hrabi p hq, hp p hq⟩) 0 le_rfl hf u3
        (by rw [u1, star_one, one_mul])
      rw [u1, mul_one] at this
      rw [underNoise_noisy]
      exact this
    · have := follows_unique u2 u2 u3 u3 s.duration (by rw [ht]; exact ⟨hT0.le, le_rfl⟩)
      rw [this, u1, star_one, one_mul]

theorem family_converted (family : Family) {T : ℝ} {prePost : Bool} {name : Option String} {s : Sequence ℝ}
    (hs : family.call T prePost name = .ok s) :
    s.Constructed ∧ s.duration = T ∧ ∀ p ∈ pulseList s, PurePulse p := by
  obtain ⟨⟨hT, hv⟩, hw⟩ := (C43_well_formed family T prePost name).ok hs
  exact ⟨hw.constructed hT, hw.1, fun p hp => standard_pure (hw.standard' p hp)⟩

/-- **C113.** Predefined sequences on the hardware and slow dephasing noise: the evolution of the qubit is that of the ideal
pulses up to what the instantaneous pulses leave of the noise (C98) and the strength of the noise times the time of the
pulses. With pre and post rotations the qubit returns to its initial state but for the square of this. -/
theorem C113_dephasing (family : Family) (T : ℝ) (hT : 1 / 10 ^ 8 < T) (prePost : Bool) (name : Option String)
    (s : Sequence ℝ) (hs : family.call T prePost name = .ok s) (R D m : ℝ) (hno : NoOverlap R D m s)
    (cname : Option String) (c : DrivenControl ℝ) (h : convertDDS s R D m cname = .ok c)
    (k : ℕ) (hk : k ≤ family.cancellationOrder) (β : ℝ → ℝ) (hβ : ContDiff ℝ k β)
    (M : ℝ) (hM : ∀ t ∈ Icc 0 T, |β t| ≤ M) (B : ℝ) (hB : ∀ t ∈ Icc 0 T, |iteratedDeriv k β t| ≤ B)
    (U : ℝ → M2) (hU : NoisyEvolution c ⟨fun _ => 0, fun _ => 0, β⟩ U) :
    ‖U T - pulses s‖ ≤ B * T ^ (k + 1) / (2 ^ k * (k + 1).factorial) / 2 + M * pulseTimes R D m s ∧
    (prePost = true → 1 - (B * T ^ (k + 1) / (2 ^ k * (k + 1).factorial) / 2 + M * pulseTimes R D m s) ^ 2 ≤
      returnProbability (U T)) := by
  obtain ⟨hcon, hd, hp⟩ := family_converted family hs
  have hN : (⟨fun _ => 0, fun _ => 0, β⟩ : QubitNoise).Bounded s.duration M := by
    rw [hd]
    intro t ht
    simp only [ne_eq, OfNat.ofNat_ne_zero, not_false_eq_true, zero_pow, add_zero, zero_add, Real.sqrt_sq_eq_abs]
    exact hM t ht
  obtain ⟨h1, hu⟩ := C113_distance s hcon (by rw [hd]; exact hT) hp R D m hno cname c h _ M hN U hU _
    (C113_dephasing_free β hβ.continuous _)
  rw [hd] at h1 hu
  have h2 := C98_evolution family T prePost name s hs k hk β hβ B hB
  have h3 := norm_sub_le_norm_sub_add_norm_sub (U T) (underNoise (dephasing β) s) (pulses s)
  have h4 : ‖U T - pulses s‖ ≤ B * T ^ (k + 1) / (2 ^ k * (k + 1).factorial) / 2 + M * pulseTimes R D m s := by
    linarith
  refine ⟨h4, ?_⟩
  rintro rfl
  refine isometry_returnProbability hu ?_ h4
  obtain ⟨⟨hT0, hv⟩, -⟩ := (C43_well_formed family T true name).ok hs
  rw [Family.call_eq hv hT0] at hs
  injection hs with hs
  subst hs
  exact pulses_withPrePost T (family.table T) name

/-- **C113.** The same for static noise of every direction and the sequences that decouple from it. -/
theorem C113_universal (family : Family) (hf : family.Universal) (T : ℝ) (hT : 1 / 10 ^ 8 < T) (prePost : Bool)
    (name : Option String) (s : Sequence ℝ) (hs : family.call T prePost name = .ok s) (R D m : ℝ)
    (hno : NoOverlap R D m s) (cname : Option String) (c : DrivenControl ℝ) (h : convertDDS s R D m cname = .ok c)
    (x y z : ℝ) (U : ℝ → M2) (hU : NoisyEvolution c ⟨fun _ => x, fun _ => y, fun _ => z⟩ U) :
    ‖U T - pulses s‖ ≤ (x ^ 2 + y ^ 2 + z ^ 2) * T ^ 2 / 8 + √(x ^ 2 + y ^ 2 + z ^ 2) * pulseTimes R D m s ∧
    (prePost = true → 1 - ((x ^ 2 + y ^ 2 + z ^ 2) * T ^ 2 / 8 + √(x ^ 2 + y ^ 2 + z ^ 2) * pulseTimes R D m s) ^ 2 ≤
      returnProbability (U T)) := by
  obtain ⟨hcon, hd, hp⟩ := family_converted family hs
  obtain ⟨h1, hu⟩ := C113_distance s hcon (by rw [hd]; exact hT) hp R D m hno cname c h _ (√(x ^ 2 + y ^ 2 + z ^ 2)) (fun t _ => le_rfl) U hU _
    (C113_static_free x y z _)
  rw [hd] at h1 hu
  have h2 := C111_universal family hf T prePost name s hs x y z
  have h3 := norm_sub_le_norm_sub_add_norm_sub (U T) (underNoise (staticNoise x y z) s) (pulses s)
  have h4 : ‖U T - pulses s‖ ≤ (x ^ 2 + y ^ 2 + z ^ 2) * T ^ 2 / 8 + √(x ^ 2 + y ^ 2 + z ^ 2) * pulseTimes R D m s := by
    linarith
  refine ⟨h4, ?_⟩
  rintro rfl
  refine isometry_returnProbability hu ?_ h4
  obtain ⟨⟨hT0, hv⟩, -⟩ := (C43_well_formed family T true name).ok hs
  rw [Family.call_eq hv hT0] at hs
  injection hs with hs
  subst hs
  exact pulses_withPrePost T (family.table T) name

/-- **C113.** On fast hardware the pulses can be taken to be instantaneous: for every sequence with at most one pulse at
each time, every strength of noise and every `ε`, there are rates above which every noise of that strength acts on the
control (converted without a minimum segment duration) as on instantaneous pulses, up to `ε`. -/
theorem C113_fast_hardware (family : Family) (T : ℝ) (hT : 1 / 10 ^ 8 < T) (prePost : Bool) (name : Option String)
    (s : Sequence ℝ) (hs : family.call T prePost name = .ok s) (hsep : family.Separate prePost) (M ε : ℝ) (hM : 0 ≤ M)
    (hε : 0 < ε) :
    ∃ B : ℝ, 0 < B ∧ ∀ R D : ℝ, B ≤ R → B ≤ D → ∀ cname : Option String, ∃ c, convertDDS s R D 0 cname = .ok c ∧
      NoOverlap R D 0 s ∧ ∀ N : QubitNoise, N.Bounded T M → ∀ U, NoisyEvolution c N U → ∀ free, FreeEvolution N T free →
        ‖U T - underNoise free s‖ ≤ ε := by
  obtain ⟨hcon, hd, hp⟩ := family_converted family hs
  obtain ⟨-, hw⟩ := (C43_well_formed family T prePost name).ok hs
  obtain ⟨B₀, hB₀, h₀⟩ := C60_fast_hardware family T prePost name s hs hsep
  have hpi := Real.pi_pos
  set n : ℝ := ((pulseList s).length : ℝ) with hn
  have hn0 : 0 ≤ n := Nat.cast_nonneg _
  refine ⟨max B₀ (M * n * Real.pi / ε), lt_max_of_lt_left hB₀, fun R D hR hD cname => ?_⟩
  obtain ⟨c, hc, hcar⟩ := h₀ R D ((le_max_left _ _).trans hR) ((le_max_left _ _).trans hD) cname
  have hR0 := hB₀.trans_le ((le_max_left _ _).trans hR)
  have hD0 := hB₀.trans_le ((le_max_left _ _).trans hD)
  have hno := (C47_duration_exact_partial s hcon R D 0 cname c hc).2 (by rwa [hd]) (by rw [hd]; exact hcar.1)
  refine ⟨c, hc, hno, fun N hN U hU free hfree => ?_⟩
  have h1 := (C113_distance s hcon (by rwa [hd]) hp R D 0 hno cname c hc N M (by rwa [hd]) U hU free
    (by rwa [hd])).1
  rw [hd] at h1
  refine h1.trans ?_
  have h2 : pulseTimes R D 0 s ≤ n * pulseTime R D 0 := by
    unfold pulseTimes
    have := List.sum_le_card_nsmul ((pulseList s).map (width R D 0)) (pulseTime R D 0) (by
      intro x hx
      obtain ⟨p, hp, rfl⟩ := List.mem_map.mp hx
      exact standard_width hR0 hD0 le_rfl (hw.standard p hp))
    rw [List.length_map, nsmul_eq_mul] at this
    exact this
  have key : ∀ x : ℝ, 0 < x → M * n * Real.pi / ε ≤ x → M * (n * (Real.pi / x)) ≤ ε := by
    intro x hx h
    rw [div_le_iff₀ hε] at h
    rw [← mul_div_assoc, ← mul_div_assoc, div_le_iff₀ hx]
    linarith
  refine (mul_le_mul_of_nonneg_left h2 hM).trans ?_
  unfold pulseTime
  rcases max_choice (max (Real.pi / R) (Real.pi / D)) 0 with e | e
  · rcases max_choice (Real.pi / R) (Real.pi / D) with e' | e'
    · rw [e, e']; exact key R hR0 ((le_max_right _ _).trans hR)
    · rw [e, e']; exact key D hD0 ((le_max_right _ _).trans hD)
  · rw [e]; simpa using hε.le

/-! ### Non-vacuity -/

/-- A spin echo of duration 1 with rotations, carried out on some hardware under the noise `t / 100` about Z: the qubit
returns with a probability of at least 0.999. -/
example : ∃ s R D c U, newSpinEchoSequence (1 : ℝ) true none = .ok s ∧ NoOverlap R D 0 s ∧
    convertDDS s R D 0 none = .ok c ∧ NoisyEvolution c ⟨fun _ => 0, fun _ => 0, fun t => t / 100⟩ U ∧
    pulseTimes R D 0 s ≤ 1 / 10 ∧ 999 / 1000 ≤ returnProbability (U 1) := by
  obtain ⟨s, hs, hwf⟩ := (C43_well_formed .spinEcho 1 true none).1 ⟨one_pos, trivial⟩
  have hpi := Real.pi_pos
  have hw : pulseTime (40 * Real.pi) (40 * Real.pi) 0 = 1 / 40 := by
    have : Real.pi / (40 * Real.pi) = 1 / 40 := by field_simp
    rw [pulseTime, this]; norm_num
  have hs' := hs
  rw [Family.call_eq (family := .spinEcho) trivial one_pos] at hs'
  injection hs' with hs'
  obtain ⟨c, hc, hcar⟩ := C60_enough_room .spinEcho 1 true none s hs trivial (40 * Real.pi) (40 * Real.pi) 0
    (by positivity) (by positivity) le_rfl (by
      rw [hw, ← hs']
      simp [Apart, finished, withPrePost, piSequence, Family.table]
      norm_num) none
  have hcon := hwf.constructed one_pos
  have hdur : s.duration = 1 := hwf.1
  have hno := (C47_duration_exact_partial s hcon _ _ 0 none c hc).2 (by rw [hdur]; norm_num)
    (by rw [hdur]; exact hcar.1)
  have hcc := ((C46_convertible s (hwf.constructed one_pos) _ _ 0 none).ok hc).2.1
  obtain ⟨U, hU, -⟩ := C113_exists c hcc ⟨fun _ => 0, fun _ => 0, fun t => t / 100⟩ continuous_const continuous_const
    (by fun_prop)
  have ht : pulseTimes (40 * Real.pi) (40 * Real.pi) 0 s ≤ 1 / 10 := by
    have hpl : pulseList s = ⟨0, Real.pi / 2, 0, 0⟩ :: ([(1 / 2, Axis.x)].map tablePulse ++
        [⟨1, Real.pi / 2, finalAngle [(1 / 2, Axis.x)], 0⟩]) := by
      rw [← hs']; exact pulseList_prePost _ _ _ _
    have h3 := List.sum_le_card_nsmul ((pulseList s).map (width (40 * Real.pi) (40 * Real.pi) 0)) (1 / 40) (by
      intro x hx
      obtain ⟨p, hp, rfl⟩ := List.mem_map.mp hx
      rw [← hw]
      exact standard_width (by positivity) (by positivity) le_rfl (hwf.standard p hp))
    unfold pulseTimes
    refine h3.trans ?_
    rw [hpl]
    norm_num
  refine ⟨s, _, _, c, U, hs, hno, hc, hU, ht, ?_⟩
  have key := (C113_dephasing .spinEcho 1 (by norm_num) true none s hs _ _ 0 hno none c hc 1 (by
      simp [Family.cancellationOrder]) (fun t => t / 100) (by fun_prop) (1 / 100) (by
      rintro t ⟨h0, h1⟩
      rw [abs_of_nonneg (by positivity)]
      linarith) (1 / 100) (by
      intro t _
      simp) U hU).2 rfl
  have h0 : 0 ≤ pulseTimes (40 * Real.pi) (40 * Real.pi) 0 s := List.sum_nonneg (by
    intro x hx
    obtain ⟨p, hp, rfl⟩ := List.mem_map.mp hx
    exact width_nonneg le_rfl _ _ _)
  refine le_trans ?_ key
  norm_num [Nat.factorial]
  nlinarith

/-- The XY-concatenated sequence of order 2, converted for fast hardware: the theorem on static noise applies. -/
example : ∃ s R D c U, newXYConcatenatedSequence (1 : ℝ) 2 true none = .ok s ∧ NoOverlap R D 0 s ∧
    convertDDS s R D 0 none = .ok c ∧ NoisyEvolution c ⟨fun _ => 1 / 10, fun _ => 1 / 20, fun _ => -(1 / 10)⟩ U ∧
    Family.Universal (.xyConcatenated 2) := by
  have hv : Family.Valid (.xyConcatenated 2) := by norm_num [Family.Valid]
  obtain ⟨s, hs, hwf⟩ := (C43_well_formed (.xyConcatenated 2) 1 true none).1 ⟨one_pos, hv⟩
  obtain ⟨B, hB, h⟩ := C113_fast_hardware (.xyConcatenated 2) 1 (by norm_num) true none s hs (by
    norm_num [Family.Separate]) 1 1 zero_le_one one_pos
  obtain ⟨c, hc, hno, -⟩ := h B B le_rfl le_rfl none
  have hcc := ((C46_convertible s (hwf.constructed one_pos) _ _ 0 none).ok hc).2.1
  obtain ⟨U, hU, -⟩ := C113_exists c hcc ⟨fun _ => 1 / 10, fun _ => 1 / 20, fun _ => -(1 / 10)⟩ continuous_const
    continuous_const continuous_const
  exact ⟨s, B, B, c, U, hs, hno, hc, hU, by norm_num [Family.Universal]⟩

end OpenControls
