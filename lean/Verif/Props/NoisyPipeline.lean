import Verif.Spec.NoisyPipeline
import Verif.Proofs.NoisyRounded
import Verif.Props.NoisyControl

/-!
# C115: sequences computed and converted in floating point, on a noisy qubit

Both calls, the predefined constructor and `convert_dds_to_driven_control`, are run in the floating-point arithmetic `r`,
with unit roundoff `r.u`.  The resulting control acts on a qubit together with noise; the evolution is the solution of
Schrödinger's equation.
-/

namespace OpenControls

open Spec Fl Set
open scoped Matrix.Norms.L2Operator

variable {r : Rounding}

/-! ## Helpers -/

theorem noisy_dist_sorted {N : QubitNoise} {H M T ε δ : ℝ} {free : ℝ → ℝ → M2} (hfree : FreeEvolution N H free)
    (hN : N.Bounded H M) (hM : 0 ≤ M) (hTH : T ≤ H) {l' l : List Pulse} (h : List.Forall₂ (ClosePulse ε δ T) l' l)
    {a' a : ℝ} (ha' : a' ∈ Icc 0 T) (ha : a ∈ Icc 0 T) (hs' : (a' :: l'.map Pulse.offset).IsChain (· ≤ ·))
    (hs : (a :: l.map Pulse.offset).IsChain (· ≤ ·)) :
    ‖noisy free T a' l' - noisy free T a l‖ ≤ M / 2 * |a' - a| + l.length * (ε + M * δ) := by
  induction h generalizing a' a with
  | nil =>
    have := hfree.dist hN ha'.1 ha'.2 hTH ha.1 ha.2 hTH
    simpa [noisy] using this
  | @cons p' p l' l hp hl ih =>
    obtain ⟨h1, h2, h3, h4⟩ := hp
    rw [List.map_cons, List.isChain_cons_cons] at hs' hs
    have i1 := ih h3 h4 hs'.2 hs.2
    have hF := hfree.dist hN ha'.1 hs'.1 (h3.2.trans hTH) ha.1 hs.1 (h4.2.trans hTH)
    have nA' : ‖noisy free T p'.offset l'‖ ≤ 1 := by
      refine noisy_norm_le hfree hTH l' _ h3.1 h3.2 hs'.2 fun q hq => ?_
      obtain ⟨i, hi, rfl⟩ := List.getElem_of_mem hq
      exact (hl.get hi (hl.length_eq ▸ hi)).2.2.1.2
    have t := triple_dist (A := noisy free T p.offset l) (A' := noisy free T p'.offset l')
      (B := pulseUnitary p.rabi p.azimuthal p.detuning) (B' := pulseUnitary p'.rabi p'.azimuthal p'.detuning)
      (C := free a p.offset) (C' := free a' p'.offset) nA' (isSU2_pulse _ _ _).norm (isSU2_pulse _ _ _).norm
      (hfree.norm ha.1 hs.1 (h4.2.trans hTH))
    simp only [noisy, List.length_cons]
    refine t.trans ?_
    push_cast
    have := mul_le_mul_of_nonneg_left h2 hM
    linarith

theorem family_close (family : RoundedFamily r) {T : Fl r} (hT : 0 < T.val) {prePost : Bool} {name : Option String}
    {s : Sequence (Fl r)} {e : Sequence ℝ} (he : family.exact.call T.val prePost name = .ok e)
    (happ : Approximates family.error s e) :
    List.Forall₂ (ClosePulse (5 * r.u) (family.error * T.val) T.val) (pulseList (s.map val)) (pulseList e) := by
  have hu := r.u_nonneg
  obtain ⟨-, hw⟩ := (C43_well_formed family.exact T.val prePost name).ok he
  have hcon := approximates_constructed happ hT hw
  have hdur : e.duration = T.val := hw.1
  have hsd : (s.map val).duration = T.val := happ.duration.trans hdur
  obtain ⟨-, hb, hr1, hr2, hr3⟩ := (rounded_facts hcon).facts
  have ho' := pulseList_offsets _ hr1 hr2 hr3
  have ho := pulseList_offsets e hw.2.1 hw.2.2.1 hw.2.2.2.1
  have hlen : (pulseList e).length = e.offsets.length := by rw [← ho, List.length_map]
  have hpulses := approximates_pulses happ
  have hlen' : (pulseList (s.map val)).length = (pulseList e).length := hpulses.length_eq
  rw [List.forall₂_iff_get]
  refine ⟨hlen', fun i h1 h2 => ?_⟩
  have hp := hpulses.get h1 h2
  have hst := hw.standard' _ (List.get_mem (pulseList e) ⟨i, h2⟩)
  have hpf := pulse_facts hp hst
  have i1 : i < (s.map val).offsets.length := by rw [← ho', List.length_map]; exact h1
  have i2 : i < e.offsets.length := by rw [← hlen]; exact h2
  have k1 : ((pulseList (s.map val)).get ⟨i, h1⟩).offset = (s.map val).offsets[i] := by
    simp only [← ho', List.getElem_map, List.get_eq_getElem]
  have k2 : ((pulseList e).get ⟨i, h2⟩).offset = e.offsets[i] := by
    simp only [← ho, List.getElem_map, List.get_eq_getElem]
  have i3 : i < s.offsets.length := by rw [happ.count]; exact i2
  have k3 : (s.map val).offsets[i] = (s.offsets[i]).val := by
    simp [Sequence.map]
  refine ⟨?_, ?_, ?_, ?_⟩
  · have h := hpf.dist
    rw [realised_pure hpf.pure, realised_pure (standard_pure hst)] at h
    refine h.trans ?_
    have := Real.pi_lt_d2
    have := mul_le_mul_of_nonneg_right this.le hu
    linarith
  · rw [k1, k2, k3, ← hdur]
    exact happ.offsets (s.offsets[i], e.offsets[i]) (by
      rw [List.mem_iff_getElem]
      exact ⟨i, by simp [i3, i2], by simp⟩)
  · rw [k1, ← hsd]
    exact hb _ (List.getElem_mem _)
  · rw [k2]
    exact hw.2.2.2.2.1 _ (List.getElem_mem _)

/-- what is known about the sequence computed in floating point before it is converted -/
structure PipelineFacts (s : Sequence (Fl r)) (e : Sequence ℝ) (T R D m : Fl r) : Prop where
  constructed : s.Constructed
  duration : s.duration.val = T.val
  duration' : e.duration = T.val
  pulses : List.Forall₂ (fun p' p => PulseFacts r p' p) (pulseList (s.map val)) (pulseList e)
  facts : ∀ p' ∈ pulseList (s.map val), ∃ p, PulseFacts r p' p
  count : (pulseList e).length = e.offsets.length
  time : 2 * pulseTime R.val D.val m.val ≤ T.val
  sorted : ((s.map val).offsets).Pairwise (· < ·)
  sorted' : e.offsets.Pairwise (· < ·)
  convertible : ConvertibleWith (32 * r.u * s.duration.val) R.val D.val m.val (s.map val)

theorem pipeline_facts (family : RoundedFamily r) {T : Fl r} (hT0 : 0 < T.val) {prePost : Bool}
    (hsep : family.exact.Separate prePost) {name : Option String} {s : Sequence (Fl r)} {e : Sequence ℝ}
    (hexact : family.exact.call T.val prePost name = .ok e) (happ : Approximates family.error s e) {R D m : Fl r}
    (hR : 0 < R.val) (hD : 0 < D.val) (hm : 0 ≤ m.val) {gap : ℝ} (hroom : Apart gap e)
    (hgap : 2 * pulseTime R.val D.val m.val + m.val + (35 * r.u + 2 * family.error) * T.val < gap) :
    PipelineFacts s e T R D m := by
  have hu := r.u_nonneg
  have hu20 := r.u_le
  have hpi := Real.pi_pos
  have herr := family.error_nonneg
  obtain ⟨-, hw⟩ := (C43_well_formed family.exact T.val prePost name).ok hexact
  have hinc := (Family.increasing_iff hexact).mpr hsep
  have hdur : e.duration = T.val := hw.1
  have hsd : s.duration.val = T.val := happ.duration.trans hdur
  have hcon := approximates_constructed happ hT0 hw
  have hpulses : List.Forall₂ (fun p' p => PulseFacts r p' p) (pulseList (s.map val)) (pulseList e) := by
    have h := approximates_pulses happ
    have hst := hw.standard'
    generalize pulseList (s.map val) = l' at h
    generalize pulseList e = l at h hst
    induction h with
    | nil => exact .nil
    | cons hp _ ih =>
      exact .cons (pulse_facts hp (hst _ (by simp))) (ih fun p hp => hst p (by simp [hp]))
  have hfacts : ∀ p' ∈ pulseList (s.map val), ∃ p, PulseFacts r p' p := by
    intro p' hp'
    obtain ⟨i, hi, rfl⟩ := List.getElem_of_mem hp'
    exact ⟨_, List.Forall₂.get hpulses hi (hpulses.length_eq ▸ hi)⟩
  have hlen : (pulseList e).length = e.offsets.length := by
    have := pulseList_offsets e hw.2.1 hw.2.2.1 hw.2.2.2.1
    rw [← this, List.length_map]
  set w := pulseTime R.val D.val m.val with hwdef
  have hw0 : 0 ≤ w := hm.trans (le_max_right _ _)
  have hεT : 0 ≤ family.error * e.duration := by rw [hdur]; positivity
  have hgT : gap ≤ T.val := by
    have := hroom 0 (by simp) e.duration (by simp) (by rw [hdur]; exact hT0)
    rw [hdur] at this
    linarith
  have hεT' : 0 ≤ family.error * T.val := by positivity
  have huT : 0 ≤ r.u * T.val := by positivity
  have hwT : 2 * w ≤ T.val := by linarith
  have hap := approximates_apart happ hεT hroom
  rw [hdur] at hap
  have huw : r.u * (2 * w) ≤ r.u * T.val := mul_le_mul_of_nonneg_left hwT hu
  have hinc' := approximates_increasing happ hinc
  have hgaps := eachGap_of_room' (R := R.val) (D := D.val) (m := m.val) (w := (1 + r.u) * w)
    (G := gap - 2 * (family.error * T.val) - 2 * ((1 + r.u) * w)) (rounded_facts hcon) hm hinc'
    (by positivity) (fun p hp => by
      obtain ⟨q, hq⟩ := hfacts p hp
      exact hq.width_le _ _ _ hR hD hm) (by
      have e1 : 2 * ((1 + r.u) * w) + (gap - 2 * (family.error * T.val) - 2 * ((1 + r.u) * w)) =
        gap - 2 * (family.error * T.val) := by ring
      rw [e1]; exact hap)
  have hconv : ConvertibleWith (32 * r.u * s.duration.val) R.val D.val m.val (s.map val) := by
    refine ⟨hR, hD, hm, fun p hp => (hfacts p hp).choose_spec.nonneg,
      fun p hp => (hfacts p hp).choose_spec.notBoth, hinc', EachGap.mono hgaps fun g h => ?_⟩
    rw [hsd]
    linarith
  exact ⟨hcon, hsd, hdur, hpulses, hfacts, hlen, hwT, hinc', hinc, hconv⟩

theorem chain_zero {s : Sequence ℝ} {T : ℝ} (hs : s.Constructed) (hinc : s.offsets.Pairwise (· < ·)) (_ : s.duration = T) :
    ((0 : ℝ) :: (pulseList s).map Pulse.offset).IsChain (· ≤ ·) := by
  obtain ⟨-, hb, hr, ha, hd⟩ := hs.facts
  rw [pulseList_offsets s hr ha hd]
  refine List.IsChain.imp (fun _ _ h => h) (List.isChain_iff_pairwise.mpr ?_)
  rw [List.pairwise_cons]
  exact ⟨fun x hx => (hb x hx).1, hinc.imp fun h => h.le⟩

/-! ## Converted controls -/

/-- **C115.** A sequence of pulses that the conversion carries out (each a rotation about an axis in the XY plane or about
Z), with time to spare between the pulses, is converted in floating point.  Under noise of any direction and time
dependence, never stronger than `M`, the evolution of the qubit under the control is the one with instantaneous pulses up
to `M` times the time the pulses take on the hardware, and rounding errors. -/
theorem C115_distance (s : Sequence (Fl r)) (hs : s.Constructed) (hT : 2 / 10 ^ 8 ≤ s.duration.val)
    (hclear : ∀ p ∈ pulseList (s.map val), ClearPulse r.u p) (hpure : ∀ p ∈ pulseList (s.map val), PurePulse p)
    (R D m : Fl r) (hc : ConvertibleWith (32 * r.u * s.duration.val) R.val D.val m.val (s.map val))
    (hwide : ∀ p ∈ pulseList (s.map val), Rotates p → 16 * r.u * s.duration.val < width R.val D.val m.val p)
    (name : Option String) (c : DrivenControl (Fl r)) (hok : convertDDS s R D m name = .ok c) (N : QubitNoise) (M : ℝ)
    (hN : N.Bounded ((1 + 6 * r.u) * s.duration.val) M) (free : ℝ → ℝ → M2)
    (hfree : FreeEvolution N ((1 + 6 * r.u) * s.duration.val) free) (U : ℝ → M2) (hU : NoisyEvolution (c.map val) N U) :
    ‖U (c.map val).durations.sum - underNoise free (s.map val)‖ ≤
        M * (pulseTimes R.val D.val m.val (s.map val) + 28 * (s.offsets.length + 2) * r.u * s.duration.val) +
          r.u / 2 * turning (pulseList (s.map val)) ∧
      star (U (c.map val).durations.sum) * U (c.map val).durations.sum = 1 :=
  rounded_distance hs hT hclear hpure hc hwide hok le_rfl hN hfree hU

/-- **C115.** A predefined sequence with at most one pulse at each time, computed and converted in floating point: if there
is room for two π-pulses, a minimum segment and the rounding errors between any two instants of the exact sequence, and
the pulses are long compared with the rounding of times, both calls succeed.  Under noise of any direction and time
dependence, never stronger than `M`, the evolution of the qubit under the control is that with the instantaneous pulses of
the exact sequence, up to the defect. -/
theorem C115_pipeline (family : RoundedFamily r) (T : Fl r) (hT : 2 / 10 ^ 8 ≤ T.val) (hv : family.exact.Valid)
    (hsmall : family.Small) (prePost : Bool) (hsep : family.exact.Separate prePost) (name : Option String)
    (exact : Sequence ℝ) (hexact : family.exact.call T.val prePost name = .ok exact) (R D m : Fl r) (hR : 0 < R.val)
    (hD : 0 < D.val) (hm : 0 ≤ m.val) (gap : ℝ) (hroom : Apart gap exact)
    (hgap : 2 * pulseTime R.val D.val m.val + m.val + (35 * r.u + 2 * family.error) * T.val < gap)
    (hwide : 17 * r.u * T.val < shortestPulse R.val D.val m.val) (cname : Option String) :
    ∃ s c, family.call T prePost name = .ok s ∧ convertDDS s R D m cname = .ok c ∧
      ∀ (N : QubitNoise) (M : ℝ), N.Bounded ((1 + 6 * r.u) * T.val) M →
      ∀ free, FreeEvolution N ((1 + 6 * r.u) * T.val) free → ∀ U, NoisyEvolution (c.map val) N U →
        ‖U (c.map val).durations.sum - underNoise free exact‖ ≤
          family.defect T.val M (pulseTime R.val D.val m.val) exact.offsets.length ∧
        star (U (c.map val).durations.sum) * U (c.map val).durations.sum = 1 := by
  have hu := r.u_nonneg
  have hu20 := r.u_le
  have hT0 : 0 < T.val := lt_of_lt_of_le (by norm_num) hT
  have huT : 0 ≤ r.u * T.val := by positivity
  obtain ⟨s, e, hs, he, happ⟩ := C78_agrees family T hT0 hv hsmall prePost name
  obtain rfl : e = exact := by rw [hexact] at he; injection he with he; exact he.symm
  have F := pipeline_facts family hT0 hsep hexact happ hR hD hm hroom hgap
  obtain ⟨-, hwf⟩ := (C43_well_formed family.exact T.val prePost name).ok hexact
  have hclear := fun p hp => (F.facts p hp).choose_spec.clear
  have hpure := fun p hp => (F.facts p hp).choose_spec.pure
  have hw : ∀ p ∈ pulseList (s.map val), Rotates p → 16 * r.u * s.duration.val < width R.val D.val m.val p := by
    intro p hp _
    rw [F.duration]
    have h1 := (F.facts p hp).choose_spec.width_ge _ _ _ hR hD hm
    have h2 := mul_lt_mul_of_pos_left hwide (show 0 < 1 - r.u by norm_num at hu20; linarith)
    have h3 : r.u * (17 * r.u * T.val) ≤ r.u * T.val := by
      apply mul_le_mul_of_nonneg_left _ hu
      have := mul_le_mul_of_nonneg_right hu20 hT0.le
      norm_num at this
      linarith
    linarith
  have hcv := F.convertible
  obtain ⟨-, -, -, hrabi, hboth, hsort, -⟩ := hcv
  have hgaps := (separated F.constructed hclear F.convertible).gaps
  obtain ⟨c, hok, -⟩ := (convertDDS_rounded F.constructed R D m cname).1
    ⟨hD, hR, hm, hrabi, hboth, hsort, fun g hg =>
      .inl ((gaps_chain (fun g => m.val < g.val) (fwindows s R D m)).mpr hgaps g hg)⟩
  refine ⟨s, c, hs, hok, fun N M hN free hfree U hU => ?_⟩
  obtain ⟨h1, h2⟩ := rounded_distance F.constructed (by rw [F.duration]; exact hT) hclear hpure F.convertible hw hok
    (H := (1 + 6 * r.u) * T.val) (by rw [F.duration]) hN hfree hU
  refine ⟨?_, h2⟩
  have hTH : T.val ≤ (1 + 6 * r.u) * T.val := by linarith
  have hM : 0 ≤ M := (Real.sqrt_nonneg _).trans (hN 0 ⟨le_rfl, by linarith⟩)
  have h3 : ‖underNoise free (s.map val) - underNoise free e‖ ≤
      e.offsets.length * (5 * r.u + M * (family.error * T.val)) := by
    rw [underNoise_noisy, underNoise_noisy]
    have d1 : (s.map val).duration = T.val := F.duration
    rw [d1, F.duration', ← F.count]
    have := noisy_dist_sorted hfree hN hM hTH (family_close family hT0 hexact happ) (a' := 0) (a := 0)
      ⟨le_rfl, hT0.le⟩ ⟨le_rfl, hT0.le⟩ (chain_zero (rounded_facts F.constructed) F.sorted d1)
      (chain_zero (hwf.constructed hT0) F.sorted' F.duration')
    simpa using this
  have h4 : pulseTimes R.val D.val m.val (s.map val) ≤
      e.offsets.length * ((1 + r.u) * pulseTime R.val D.val m.val) := by
    unfold pulseTimes
    have := List.sum_le_card_nsmul ((pulseList (s.map val)).map (width R.val D.val m.val))
      ((1 + r.u) * pulseTime R.val D.val m.val) (by
        intro x hx
        obtain ⟨p, hp, rfl⟩ := List.mem_map.mp hx
        exact (F.facts p hp).choose_spec.width_le _ _ _ hR hD hm)
    rwa [List.length_map, nsmul_eq_mul, F.pulses.length_eq, F.count] at this
  have h5 := turning_le F.pulses
  rw [F.count] at h5
  have h6 := norm_sub_le_norm_sub_add_norm_sub (U (c.map val).durations.sum) (underNoise free (s.map val)) (underNoise free e)
  rw [happ.count, F.duration] at h1
  unfold Spec.RoundedFamily.defect
  set n : ℝ := (e.offsets.length : ℝ)
  have hn : 0 ≤ n := Nat.cast_nonneg _
  set w := pulseTime R.val D.val m.val
  have hπ := Real.pi_lt_d2
  have k1 : r.u / 2 * (n * ((1 + r.u) * Real.pi)) ≤ n * (2 * r.u) := by
    have : (1 + r.u) * Real.pi ≤ 4 := by
      norm_num at hu20; nlinarith [Real.pi_pos]
    have := mul_le_mul_of_nonneg_left this (show 0 ≤ r.u / 2 * n by positivity)
    linarith
  have k2 : n * (r.u * w) ≤ n * (r.u * T.val) := by
    have := F.time
    have hw0 : 0 ≤ w := hm.trans (le_max_right _ _)
    exact mul_le_mul_of_nonneg_left (mul_le_mul_of_nonneg_left (by linarith) hu) hn
  have k3 := mul_le_mul_of_nonneg_left (show pulseTimes R.val D.val m.val (s.map val) + 28 * (n + 2) * r.u * T.val ≤
    n * w + 29 * (n + 2) * r.u * T.val by linarith) hM
  have k4 := mul_le_mul_of_nonneg_left h5 (show 0 ≤ r.u / 2 by positivity)
  linarith

/-- **C115.** The same under slow dephasing noise: the qubit undergoes the ideal pulses, up to what the instantaneous pulses
leave of the noise (C98) and the defect.  With pre and post rotations it returns to its initial state but for the square
of this. -/
theorem C115_dephasing (family : RoundedFamily r) (T : Fl r) (hT : 2 / 10 ^ 8 ≤ T.val) (hv : family.exact.Valid)
    (hsmall : family.Small) (prePost : Bool) (hsep : family.exact.Separate prePost) (name : Option String)
    (exact : Sequence ℝ) (hexact : family.exact.call T.val prePost name = .ok exact) (R D m : Fl r) (hR : 0 < R.val)
    (hD : 0 < D.val) (hm : 0 ≤ m.val) (gap : ℝ) (hroom : Apart gap exact)
    (hgap : 2 * pulseTime R.val D.val m.val + m.val + (35 * r.u + 2 * family.error) * T.val < gap)
    (hwide : 17 * r.u * T.val < shortestPulse R.val D.val m.val) (cname : Option String) :
    ∃ s c, family.call T prePost name = .ok s ∧ convertDDS s R D m cname = .ok c ∧
      ∀ k ≤ family.exact.cancellationOrder, ∀ β : ℝ → ℝ, ContDiff ℝ k β →
      ∀ M, (∀ t ∈ Icc 0 ((1 + 6 * r.u) * T.val), |β t| ≤ M) → ∀ B, (∀ t ∈ Icc 0 T.val, |iteratedDeriv k β t| ≤ B) →
      ∀ U, NoisyEvolution (c.map val) ⟨fun _ => 0, fun _ => 0, β⟩ U →
        ‖U (c.map val).durations.sum - pulses exact‖ ≤ B * T.val ^ (k + 1) / (2 ^ k * (k + 1).factorial) / 2 +
          family.defect T.val M (pulseTime R.val D.val m.val) exact.offsets.length ∧
        (prePost = true → 1 - (B * T.val ^ (k + 1) / (2 ^ k * (k + 1).factorial) / 2 +
          family.defect T.val M (pulseTime R.val D.val m.val) exact.offsets.length) ^ 2 ≤
            returnProbability (U (c.map val).durations.sum)) := by
  obtain ⟨s, c, hs, hc, h⟩ := C115_pipeline family T hT hv hsmall prePost hsep name exact hexact R D m hR hD hm gap hroom
    hgap hwide cname
  refine ⟨s, c, hs, hc, fun k hk β hβ M hM B hB U hU => ?_⟩
  have hN : (⟨fun _ => 0, fun _ => 0, β⟩ : QubitNoise).Bounded ((1 + 6 * r.u) * T.val) M := by
    intro t ht
    simp only [ne_eq, OfNat.ofNat_ne_zero, not_false_eq_true, zero_pow, add_zero, zero_add, Real.sqrt_sq_eq_abs]
    exact hM t ht
  obtain ⟨h1, hu⟩ := h _ M hN _ (C113_dephasing_free β hβ.continuous _) U hU
  have h2 := C98_evolution family.exact T.val prePost name exact hexact k hk β hβ B hB
  have h3 := norm_sub_le_norm_sub_add_norm_sub (U (c.map val).durations.sum) (underNoise (dephasing β) exact) (pulses exact)
  have h4 : ‖U (c.map val).durations.sum - pulses exact‖ ≤ B * T.val ^ (k + 1) / (2 ^ k * (k + 1).factorial) / 2 +
      family.defect T.val M (pulseTime R.val D.val m.val) exact.offsets.length := by linarith
  refine ⟨h4, ?_⟩
  rintro rfl
  refine isometry_returnProbability hu ?_ h4
  rw [Family.call_eq hv (lt_of_lt_of_le (by norm_num) hT)] at hexact
  injection hexact with hexact
  subst hexact
  exact pulses_withPrePost T.val (family.exact.table T.val) name

/-- **C115.** The same under static noise of every direction, for the sequences that decouple from it. -/
theorem C115_universal (family : RoundedFamily r) (hf : family.exact.Universal) (T : Fl r) (hT : 2 / 10 ^ 8 ≤ T.val)
    (hv : family.exact.Valid) (hsmall : family.Small) (prePost : Bool) (hsep : family.exact.Separate prePost)
    (name : Option String) (exact : Sequence ℝ) (hexact : family.exact.call T.val prePost name = .ok exact) (R D m : Fl r)
    (hR : 0 < R.val) (hD : 0 < D.val) (hm : 0 ≤ m.val) (gap : ℝ) (hroom : Apart gap exact)
    (hgap : 2 * pulseTime R.val D.val m.val + m.val + (35 * r.u + 2 * family.error) * T.val < gap)
    (hwide : 17 * r.u * T.val < shortestPulse R.val D.val m.val) (cname : Option String) :
    ∃ s c, family.call T prePost name = .ok s ∧ convertDDS s R D m cname = .ok c ∧
      ∀ (x y z : ℝ) (U : ℝ → M2), NoisyEvolution (c.map val) ⟨fun _ => x, fun _ => y, fun _ => z⟩ U →
        ‖U (c.map val).durations.sum - pulses exact‖ ≤ (x ^ 2 + y ^ 2 + z ^ 2) * T.val ^ 2 / 8 +
          family.defect T.val (√(x ^ 2 + y ^ 2 + z ^ 2)) (pulseTime R.val D.val m.val) exact.offsets.length ∧
        (prePost = true → 1 - ((x ^ 2 + y ^ 2 + z ^ 2) * T.val ^ 2 / 8 +
          family.defect T.val (√(x ^ 2 + y ^ 2 + z ^ 2)) (pulseTime R.val D.val m.val) exact.offsets.length) ^ 2 ≤
            returnProbability (U (c.map val).durations.sum)) := by
  obtain ⟨s, c, hs, hc, h⟩ := C115_pipeline family T hT hv hsmall prePost hsep name exact hexact R D m hR hD hm gap hroom
    hgap hwide cname
  refine ⟨s, c, hs, hc, fun x y z U hU => ?_⟩
  obtain ⟨h1, hu⟩ := h _ (√(x ^ 2 + y ^ 2 + z ^ 2)) (fun t _ => le_rfl) _ (C113_static_free x y z _) U hU
  have h2 := C111_universal family.exact hf T.val prePost name exact hexact x y z
  have h3 := norm_sub_le_norm_sub_add_norm_sub (U (c.map val).durations.sum) (underNoise (staticNoise x y z) exact)
    (pulses exact)
  have h4 : ‖U (c.map val).durations.sum - pulses exact‖ ≤ (x ^ 2 + y ^ 2 + z ^ 2) * T.val ^ 2 / 8 +
      family.defect T.val (√(x ^ 2 + y ^ 2 + z ^ 2)) (pulseTime R.val D.val m.val) exact.offsets.length := by linarith
  refine ⟨h4, ?_⟩
  rintro rfl
  refine isometry_returnProbability hu ?_ h4
  rw [Family.call_eq hv (lt_of_lt_of_le (by norm_num) hT)] at hexact
  injection hexact with hexact
  subst hexact
  exact pulses_withPrePost T.val (family.exact.table T.val) name

/-- **C115.** For continuous noise there is a solution for the control that the conversion returns, and only one. -/
theorem C115_exists (s : Sequence (Fl r)) (hs : s.Constructed) (R D m : Fl r) (name : Option String)
    (c : DrivenControl (Fl r)) (hok : convertDDS s R D m name = .ok c) (N : QubitNoise) (hx : Continuous N.x)
    (hy : Continuous N.y) (hz : Continuous N.z) :
    ∃ U, NoisyEvolution (c.map val) N U ∧
      ∀ V, NoisyEvolution (c.map val) N V → ∀ t ∈ Icc 0 (c.map val).durations.sum, V t = U t := by
  have hT0 : 0 < s.duration.val := (rounded_facts hs).facts.1
  have hform : ∃ gs : List (Segment (Fl r)), c = ofRounded gs name ∧ ∀ g ∈ gs, 0 < g.duration.val := by
    obtain ⟨-, ⟨-, rfl⟩ | ⟨-, rfl⟩⟩ := (convertDDS_rounded hs R D m name).ok hok
    · exact ⟨_, rfl, fun g hg => by rw [List.mem_singleton] at hg; subst hg; exact hT0⟩
    · refine ⟨_, rfl, fun g hg => ?_⟩
      have := (List.mem_filter.mp hg).2
      rwa [gt_iff, val_lit_zero] at this
  obtain ⟨gs, rfl, hg⟩ := hform
  have hg' : ∀ g ∈ gs.map segVal, 0 < g.duration := by
    intro g h
    obtain ⟨x, hx, rfl⟩ := List.mem_map.mp h
    exact hg x hx
  rw [ofRounded_val]
  obtain ⟨U, h1, h2, h3⟩ := follows_exists (QubitNoise.continuous hx hy hz) hg' 0 (V := 1) (by simp)
  rw [zero_add] at h2
  refine ⟨U, noisyEvolution_follows.mpr ⟨h1, h2, h3⟩, fun V hV t ht => ?_⟩
  obtain ⟨k1, k2, k3⟩ := noisyEvolution_follows.mp hV
  have ht' : t ∈ Icc 0 (total (gs.map segVal)) := ht
  have a1 := follows_unique h2 k2 h3 k3 t ht'
  have a2 := follows_unique k2 k2 k3 k3 t ht'
  rw [k1, star_one, one_mul] at a2
  rw [k1, h1, star_one, one_mul] at a1
  rw [← mul_one (V t), ← a1, ← mul_assoc, mul_eq_one_comm.mp a2, one_mul]

/-! ### Non-vacuity -/

/-- The CPMG sequence of two pulses and duration 1 with pre and post rotations, computed in double precision and converted
for hardware with maximum rates 64, under a detuning that drifts from 0 to 1/100: the qubit returns with a probability of
at least 0.99998. -/
example : ∃ s c U, newCPMGSequence (round Rounding.double 1) (round Rounding.double 2) true none = .ok s ∧
    convertDDS s (round Rounding.double 64) (round Rounding.double 64) (round Rounding.double 0) none = .ok c ∧
    NoisyEvolution (c.map val) ⟨fun _ => 0, fun _ => 0, fun t => t / 100⟩ U ∧
    99998 / 100000 ≤ returnProbability (U (c.map val).durations.sum) := by
  have h0 : (round Rounding.double 0).val = 0 := Rounding.double.rnd_zero
  have h1 : (round Rounding.double 1).val = 1 := Rounding.double.rnd_one
  have h2 : (round Rounding.double 2).val = 2 := Rounding.double.rnd_two
  have h64 : (round Rounding.double 64).val = 64 := by simpa using double_nat (n := 64) (by norm_num)
  have hu : Rounding.double.u = 1 / 2 ^ 53 := double_u
  have hpi := Real.pi_gt_three
  have hpi' := Real.pi_lt_d2
  obtain ⟨e, he, -⟩ := (C43_well_formed (.cpmg 2) 1 true none).1 ⟨one_pos, by norm_num [Family.Valid]⟩
  have he' := he
  rw [Family.call_eq (by norm_num [Family.Valid]) one_pos] at he'
  injection he' with he'
  have hlen : e.offsets.length = 4 := by
    subst he'
    simp [finished, withPrePost, piSequence, Family.table, onAxis, cpmgTimes]
  have hp : pulseTime 64 64 0 = Real.pi / 64 := by
    rw [pulseTime, max_self, max_eq_left (by positivity)]
  have hv : (RoundedFamily.cpmg (round Rounding.double 2)).exact.Valid := by
    simp only [RoundedFamily.exact, Family.Valid]; rw [h2]; norm_num
  have hsm : (RoundedFamily.cpmg (round Rounding.double 2)).Small := by
    simp only [RoundedFamily.Small]; rw [h2, hu]; norm_num
  obtain ⟨s, c, a1, a2, a3⟩ := C115_dephasing (.cpmg (round Rounding.double 2))
    (round Rounding.double 1) (by rw [h1]; norm_num) hv hsm true trivial none e
    (by simp only [RoundedFamily.exact]; rw [h2, h1]; exact he)
    (round _ 64) (round _ 64) (round _ 0) (by rw [h64]; norm_num) (by rw [h64]; norm_num)
    (by rw [h0]) (1 / 4) (by
      subst he'
      simp [Apart, finished, withPrePost, piSequence, Family.table, onAxis, cpmgTimes,
        List.range']
      norm_num) (by
      simp only [RoundedFamily.error]
      rw [h64, h0, h1, hu, hp]
      norm_num
      linarith) (by
      have hp : shortestPulse 64 64 0 = Real.pi / 2 / 64 := by
        rw [shortestPulse, min_eq_left (by linarith), max_eq_left (by positivity)]
      rw [h64, h0, h1, hu, hp]
      norm_num
      linarith) none
  have hcon : s.Constructed := by
    obtain ⟨s', e', hs', he', happ⟩ := C78_agrees (.cpmg (round Rounding.double 2)) (round Rounding.double 1)
      (by rw [h1]; norm_num) hv hsm true none
    obtain rfl : s' = s := by rw [a1] at hs'; injection hs' with h; exact h.symm
    exact approximates_constructed happ (by rw [h1]; norm_num) ((C43_well_formed _ _ true none).ok he').2
  obtain ⟨U, hU, -⟩ := C115_exists s hcon _ _ _ none c a2 ⟨fun _ => 0, fun _ => 0, fun t => t / 100⟩ continuous_const
    continuous_const (by fun_prop)
  refine ⟨s, c, U, a1, a2, hU, ?_⟩
  have key := (a3 1 (by
      simp only [RoundedFamily.exact, h2, Family.cancellationOrder]
      norm_num) (fun t => t / 100) (by fun_prop) (1 / 99) (by
      rintro t ⟨h0, ht⟩
      rw [h1, hu] at ht
      rw [abs_of_nonneg (by positivity)]
      norm_num at ht
      linarith) (1 / 100) (by
      intro t _
      simp) U hU).2 rfl
  refine le_trans ?_ key
  rw [hlen, h1, h64, h0, hp]
  simp only [RoundedFamily.defect, RoundedFamily.error]
  rw [hu]
  norm_num [Nat.factorial]
  nlinarith

/-- The sequence with one pulse of Rabi rotation 3 at time 1 of 2, converted in double precision for hardware with
maximum rates 100, under static noise of strength 1 about X: as with an instantaneous pulse up to 1/30. -/
example : ∃ c U, convertDDS oneOfTwo (round _ 100) (round _ 100) (round _ 0) none = .ok c ∧
    NoisyEvolution (c.map val) ⟨fun _ => 1, fun _ => 0, fun _ => 0⟩ U ∧
    ‖U (c.map val).durations.sum - underNoise (staticNoise 1 0 0) (oneOfTwo.map val)‖ ≤ 1 / 30 := by
  have h0 : Rounding.double.rnd 0 = 0 := Rounding.double.rnd_zero
  have h100 : Rounding.double.rnd 100 = 100 := by simpa using rnd_small 100 (by norm_num)
  have hT : oneOfTwo.duration.val = 2 := by
    have := rnd_small 2 (by norm_num)
    simpa [oneOfTwo, val_round] using this
  have hu : Rounding.double.u = 1 / 2 ^ 53 := double_u
  have hn : ¬ Negligible 3 := by unfold Negligible; norm_num
  have hw : width 100 100 0 ⟨1, 3, 0, 0⟩ = 3 / 100 := by
    unfold width; rw [if_pos hn, max_eq_left (by norm_num)]
  have hclear : ∀ p ∈ pulseList (oneOfTwo.map val), ClearPulse Rounding.double.u p := by
    rw [oneOfTwo_val, hu]
    simp only [pulseList, single, List.zip_cons_cons, List.zipWith_cons_cons, List.zip_nil_left,
      List.zipWith_nil_left, List.mem_singleton, forall_eq, ClearPulse, Clear]
    norm_num
  have hcw : ConvertibleWith (32 * Rounding.double.u * oneOfTwo.duration.val) (round Rounding.double 100).val
      (round Rounding.double 100).val (round Rounding.double 0).val (oneOfTwo.map val) := by
    rw [oneOfTwo_val, hT, hu, val_round, val_round, h100, h0]
    refine ⟨by norm_num, by norm_num, le_rfl, ?_, ?_, by simp [single], ?_⟩
    · simp [pulseList, single]
    · simp [pulseList, single]
    · rw [single_windows (by norm_num) (by norm_num), hw]
      simp only [EachGap, List.isChain_cons_cons]
      norm_num
  obtain ⟨c, hc, -⟩ := C77_converts oneOfTwo oneOfTwo_constructed (round _ 100) (round _ 100) (round _ 0) none
    (by rw [hT]; norm_num) hclear hcw (1 / 2 ^ 20) (by positivity) (by norm_num) (by
      rw [oneOfTwo_val, hT, hu, val_round, val_round, h100, h0]
      simp only [pulseList, single, List.zip_cons_cons, List.zipWith_cons_cons, List.zip_nil_left,
        List.zipWith_nil_left, List.mem_singleton, forall_eq, hw]
      norm_num)
  obtain ⟨U, hU, -⟩ := C115_exists oneOfTwo oneOfTwo_constructed _ _ _ none c hc ⟨fun _ => 1, fun _ => 0, fun _ => 0⟩
    continuous_const continuous_const continuous_const
  refine ⟨c, U, hc, hU, ?_⟩
  have key := (C115_distance oneOfTwo oneOfTwo_constructed (by rw [hT]; norm_num) hclear (by
      rw [oneOfTwo_val]
      simp only [pulseList, single, List.zip_cons_cons, List.zipWith_cons_cons, List.zip_nil_left,
        List.zipWith_nil_left, List.mem_singleton, forall_eq, PurePulse]
      exact ⟨.inr trivial, .inr hn, .inl trivial⟩) _ _ _ hcw (by
      rw [oneOfTwo_val, hT, hu, val_round, val_round, h100, h0]
      simp only [pulseList, single, List.zip_cons_cons, List.zipWith_cons_cons, List.zip_nil_left,
        List.zipWith_nil_left, List.mem_singleton, forall_eq, hw]
      norm_num) none c hc ⟨fun _ => 1, fun _ => 0, fun _ => 0⟩ 1 (fun t _ => by norm_num) _
    (C113_static_free 1 0 0 _) U hU).1
  refine key.trans ?_
  have he : effective ⟨1, 3, 0, 0⟩ = ⟨1, 3, 0, 0⟩ := by unfold effective; rw [if_pos hn]
  have e1 : turning (pulseList (single 2 1 3 0 0)) = 3 := by
    simp only [turning, pulseList, single, List.zip_cons_cons, List.zipWith_cons_cons,
      List.zip_nil_left, List.zipWith_nil_left, List.map_cons, List.map_nil, he]
    norm_num
  have e2 : pulseTimes 100 100 0 (single 2 1 3 0 0) = 3 / 100 := by
    simp only [pulseTimes, pulseList, single, List.zip_cons_cons, List.zipWith_cons_cons,
      List.zip_nil_left, List.zipWith_nil_left, List.map_cons, List.map_nil, hw]
    norm_num
  have e3 : oneOfTwo.offsets.length = 1 := rfl
  rw [oneOfTwo_val, val_round, val_round, h100, h0, e1, e2, e3, hT, hu]
  norm_num

/-- The XY-concatenated sequence of order 1 (pulses at 1/4, 1/2, 3/4 and 1), computed in double precision and converted
for hardware with maximum rates 64, under static noise of every direction. -/
example : ∃ s c, newXYConcatenatedSequence (round Rounding.double 1) (round Rounding.double 1) false none = .ok s ∧
    convertDDS s (round Rounding.double 64) (round Rounding.double 64) (round Rounding.double 0) none = .ok c ∧
    ∃ e : Sequence ℝ, newXYConcatenatedSequence (1 : ℝ) 1 false none = .ok e ∧ ∀ U, NoisyEvolution (c.map val)
      ⟨fun _ => 1 / 10, fun _ => 1 / 5, fun _ => 1 / 5⟩ U → ‖U (c.map val).durations.sum - pulses e‖ ≤ 1 / 10 := by
  have h0 : (round Rounding.double 0).val = 0 := Rounding.double.rnd_zero
  have h1 : (round Rounding.double 1).val = 1 := Rounding.double.rnd_one
  have h64 : (round Rounding.double 64).val = 64 := by simpa using double_nat (n := 64) (by norm_num)
  have hu : Rounding.double.u = 1 / 2 ^ 53 := double_u
  have hpi := Real.pi_gt_three
  have hpi' := Real.pi_lt_d2
  have hval : Family.Valid (.xyConcatenated 1) := by norm_num [Family.Valid]
  obtain ⟨e, he, -⟩ := (C43_well_formed (.xyConcatenated 1) 1 false none).1 ⟨one_pos, hval⟩
  have he' := he
  rw [Family.call_eq hval one_pos] at he'
  injection he' with he'
  have htab : Family.table (.xyConcatenated 1) 1 = [(1 / 4, .x), (1 / 2, .y), (3 / 4, .x), (1, .y)] := by
    simp only [Family.table, Nat.floor_one, xyTable_one one_pos]
    norm_num
  have hlen : e.offsets.length = 4 := by
    subst he'
    simp [finished, piSequence, htab]
  have hp : pulseTime 64 64 0 = Real.pi / 64 := by
    rw [pulseTime, max_self, max_eq_left (by positivity)]
  obtain ⟨s, c, a1, a2, a3⟩ := C115_universal (.xyConcatenated (round Rounding.double 1)) (by
      simp only [RoundedFamily.exact, h1, Family.Universal]; norm_num)
    (round Rounding.double 1) (by rw [h1]; norm_num) (by simp only [RoundedFamily.exact, h1]; exact hval) (by
      simp only [RoundedFamily.Small, h1, hu]; norm_num) false (by
      simp only [RoundedFamily.exact, h1, Family.Separate]; norm_num) none e
    (by simp only [RoundedFamily.exact]; rw [h1]; exact he)
    (round _ 64) (round _ 64) (round _ 0) (by rw [h64]; norm_num) (by rw [h64]; norm_num)
    (by rw [h0]) (1 / 4) (by
      subst he'
      simp [Apart, finished, piSequence, htab]
      norm_num) (by
      simp only [RoundedFamily.error]
      rw [h64, h0, h1, hu, hp]
      norm_num
      linarith) (by
      have hp : shortestPulse 64 64 0 = Real.pi / 2 / 64 := by
        rw [shortestPulse, min_eq_left (by linarith), max_eq_left (by positivity)]
      rw [h64, h0, h1, hu, hp]
      norm_num
      linarith) none
  refine ⟨s, c, a1, a2, e, he, fun U hU => ?_⟩
  have key := (a3 (1 / 10) (1 / 5) (1 / 5) U hU).1
  refine key.trans ?_
  have hsq : √((1 / 10 : ℝ) ^ 2 + (1 / 5) ^ 2 + (1 / 5) ^ 2) = 3 / 10 := by
    rw [Real.sqrt_eq_iff_mul_self_eq (by norm_num) (by norm_num)]; norm_num
  rw [hlen, h1, h64, h0, hp, hsq]
  simp only [RoundedFamily.defect, RoundedFamily.error, h1]
  rw [hu]
  norm_num
  linarith

end OpenControls
