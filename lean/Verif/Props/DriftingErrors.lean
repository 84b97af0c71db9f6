import Verif.Proofs.DriftingErrors
import Verif.Proofs.RoundedErrors
import Verif.Props.ResidualError

/-!
# C116: predefined controls under errors that change during the control

C102 is about errors that stay constant.  Here they may depend on time.
-/

namespace OpenControls

open Spec RealInst Set
open scoped Matrix.Norms.L2Operator

/-! ## Helpers -/

theorem elapsed_constructed {c : DrivenControl ℝ} (h : c.Constructed) : elapsedTime c = c.durations.sum := by
  rw [(C102_units c h).2, DrivenControl.duration, sum_eq]

theorem swept_segments (x y : ℝ) (gs : List (Segment ℝ)) (hg : ∀ g ∈ gs, 0 < g.duration) (name : Option String) :
    (gs.map fun g => (|g.value.1| * x + y) / 2 * g.duration).sum =
      (sweptAngle (ofSegments gs name) * x + (ofSegments gs name).durations.sum * y) / 2 := by
  simp only [sweptAngle, ofSegments]
  induction gs with
  | nil => simp
  | cons g gs ih =>
    have h := ih fun q hq => hg q (List.mem_cons_of_mem _ hq)
    simp only [List.map_cons, List.sum_cons, List.zipWith_cons_cons]
    rw [h, abs_mul, abs_of_pos (hg g (by simp))]
    simp only [Segment.value]
    ring

/-! ## The equation -/

/-- **C116.** For errors that change continuously, Schrödinger's equation has a solution, and only one. -/
theorem C116_exists (c : DrivenControl ℝ) (hc : c.Constructed) (e : DriftingErrors) (ha : Continuous e.amplitude)
    (hp : Continuous e.phase) (hd : Continuous e.detuning) :
    ∃ U, ErrantEvolution c e U ∧ ∀ V, ErrantEvolution c e V → ∀ t ∈ Icc 0 c.durations.sum, V t = U t := by
  obtain ⟨gs, eq, hg⟩ := constructed_segments hc
  obtain ⟨U, h1, h2, h3⟩ := obeys_exists (errors_continuous ha hp hd) (skew_errors e) hg 0 (V := 1) (by simp)
  rw [zero_add] at h2
  refine ⟨U, by rw [eq]; exact errant_obeys.mpr ⟨h1, h2, h3⟩, fun V hV t ht => ?_⟩
  rw [eq] at hV ht
  obtain ⟨k1, k2, k3⟩ := errant_obeys.mp hV
  have ht' : t ∈ Icc 0 (total gs) := ht
  have a1 := obeys_unique (skew_errors e) h2 k2 h3 k3 t ht'
  have a2 := obeys_unique (skew_errors e) k2 k2 k3 k3 t ht'
  rw [k1, star_one, one_mul] at a2
  rw [k1, h1, star_one, one_mul] at a1
  rw [← mul_one (V t), ← a1, ← mul_assoc, mul_eq_one_comm.mp a2, one_mul]

/-- **C116.** Constant errors: the evolution of the control with the errors added to its values, as in C26-C28, C83 and
C102. -/
theorem C116_constant (c : DrivenControl ℝ) (hc : c.Constructed) (a p d : ℝ) (U : ℝ → M2)
    (hU : ErrantEvolution c ⟨fun _ => a, fun _ => p, fun _ => d⟩ U) :
    U c.durations.sum = evolution (withAmplitudeError a (withPhaseError p (withDetuningError d c))) := by
  obtain ⟨gs, eq, hg⟩ := constructed_segments hc
  rw [eq] at hU ⊢
  obtain ⟨k1, k2, k3⟩ := errant_obeys.mp hU
  have := obeys_constant hg c.name 0 (by rwa [zero_add]) k3 (by rw [k1, star_one, one_mul])
  rw [zero_add, k1, mul_one] at this
  rw [ofSegments_errors]
  exact this

/-- **C116.** If the errors of two pieces of hardware never differ by more than `A` (relative error of the Rabi rate), `P`
(phase) and `D` (detuning), and the Rabi rate of the second is never more than `G` times the requested one, the evolutions
differ by at most half of (swept angle) `(A + G P)` + (duration) `D`. -/
theorem C116_compare (c : DrivenControl ℝ) (hc : c.Constructed) (e e' : DriftingErrors) (A P D G : ℝ)
    (hA : ∀ t ∈ Ico 0 c.durations.sum, |e.amplitude t - e'.amplitude t| ≤ A)
    (hP : ∀ t ∈ Ico 0 c.durations.sum, |e.phase t - e'.phase t| ≤ P)
    (hD : ∀ t ∈ Ico 0 c.durations.sum, |e.detuning t - e'.detuning t| ≤ D)
    (hG : ∀ t ∈ Ico 0 c.durations.sum, |1 + e'.amplitude t| ≤ G) (U V : ℝ → M2) (hU : ErrantEvolution c e U)
    (hV : ErrantEvolution c e' V) :
    ‖U c.durations.sum - V c.durations.sum‖ ≤ (sweptAngle c * (A + G * P) + c.durations.sum * D) / 2 := by
  obtain ⟨gs, eq, hg⟩ := constructed_segments hc
  rw [eq] at hU hV hA hP hD hG ⊢
  obtain ⟨h1, h2, h3⟩ := errant_obeys.mp hU
  obtain ⟨k1, k2, k3⟩ := errant_obeys.mp hV
  have := obeys_apart (skew_errors e) (skew_errors e') (k := fun v => (|v.1| * (A + G * P) + D) / 2) hg 0
    (fun g hgm t ht => by
      rw [zero_add] at ht
      have t' : t ∈ Ico 0 (ofSegments gs c.name).durations.sum := ht
      have b1 := hA t t'
      have b2 := hP t t'
      have b3 := hD t t'
      have b4 := hG t t'
      refine (drive_distance _ _ _ _ _ _).trans ?_
      have e1 : (1 + e.amplitude t) * g.value.1 - (1 + e'.amplitude t) * g.value.1 =
          (e.amplitude t - e'.amplitude t) * g.value.1 := by ring
      have e2 : g.value.2.1 + e.phase t - (g.value.2.1 + e'.phase t) = e.phase t - e'.phase t := by ring
      have e3 : g.value.2.2 + e.detuning t - (g.value.2.2 + e'.detuning t) = e.detuning t - e'.detuning t := by ring
      rw [e1, e2, e3, abs_mul, abs_mul]
      have i1 : |e.amplitude t - e'.amplitude t| * |g.value.1| ≤ A * |g.value.1| := by gcongr
      have i2 : |1 + e'.amplitude t| * |g.value.1| * |e.phase t - e'.phase t| ≤ G * |g.value.1| * P := by
        have : 0 ≤ G := (abs_nonneg _).trans b4
        gcongr
      linarith)
    (by rwa [zero_add]) (by rwa [zero_add]) h3 k3 (by rw [h1, star_one, one_mul]) (by rw [k1, star_one, one_mul])
  rw [zero_add, h1, k1, sub_self, norm_zero, zero_add, swept_segments _ _ gs hg c.name] at this
  exact this

/-- **C116.** Amplitude errors of a control without detunings: only the average of the error in each segment matters.  (So
two errors with the same averages, however fast they oscillate, cannot be told apart.) -/
theorem C116_average (c : DrivenControl ℝ) (hc : c.Constructed) (h0 : ∀ d ∈ c.detunings, d = 0) (a : ℝ → ℝ)
    (ha : Continuous a) (U : ℝ → M2) (hU : ErrantEvolution c ⟨a, fun _ => 0, fun _ => 0⟩ U) :
    U c.durations.sum = evolution (withAveragedError a c) := by
  obtain ⟨gs, eq, hg⟩ := constructed_segments hc
  rw [eq] at hU h0 ⊢
  obtain ⟨k1, k2, k3⟩ := errant_obeys.mp hU
  have := obeys_averaged ha hg (fun g h => h0 _ (List.mem_map_of_mem h)) c.name 0 (by rwa [zero_add]) k3
  rw [zero_add, k1, mul_one] at this
  rw [ofSegments_averaged]
  exact this

/-! ## Composite pulses -/

/-- what the composite pulses do about an amplitude error that stays within `A` of the constant `a`, when the phase of the
drive is never off by more than `P` and the detuning never by more than `D` -/
theorem drifting_amplitude (c : DrivenControl ℝ) (hc : c.Constructed) (e : DriftingErrors) (a A P D : ℝ)
    (hA : ∀ t ∈ Ico 0 c.durations.sum, |e.amplitude t - a| ≤ A) (hP : ∀ t ∈ Ico 0 c.durations.sum, |e.phase t| ≤ P)
    (hD : ∀ t ∈ Ico 0 c.durations.sum, |e.detuning t| ≤ D) (U : ℝ → M2) (hU : ErrantEvolution c e U) (B : ℝ)
    (hB : ‖evolution (withAmplitudeError a c) - evolution c‖ ≤ B) :
    ‖U c.durations.sum - evolution c‖ ≤ B + (sweptAngle c * (A + |1 + a| * P) + c.durations.sum * D) / 2 := by
  obtain ⟨V, hV, -⟩ := C116_exists c hc ⟨fun _ => a, fun _ => 0, fun _ => 0⟩ continuous_const continuous_const
    continuous_const
  have h1 := C116_compare c hc e ⟨fun _ => a, fun _ => 0, fun _ => 0⟩ A P D |1 + a| hA (by simpa using hP)
    (by simpa using hD) (fun t _ => le_rfl) U V hU hV
  rw [C116_constant c hc a 0 0 V hV, withDetuningError_zero] at h1
  have e0 : withPhaseError 0 c = c := by cases c; simp [withPhaseError]
  rw [e0] at h1
  have := norm_sub_le_norm_sub_add_norm_sub (U c.durations.sum) (evolution (withAmplitudeError a c)) (evolution c)
  linarith

theorem drifting_detuning (c : DrivenControl ℝ) (hc : c.Constructed) (e : DriftingErrors) (d A P D : ℝ)
    (hA : ∀ t ∈ Ico 0 c.durations.sum, |e.amplitude t| ≤ A) (hP : ∀ t ∈ Ico 0 c.durations.sum, |e.phase t| ≤ P)
    (hD : ∀ t ∈ Ico 0 c.durations.sum, |e.detuning t - d| ≤ D) (U : ℝ → M2) (hU : ErrantEvolution c e U) (B : ℝ)
    (hB : ‖evolution (withDetuningError d c) - evolution c‖ ≤ B) :
    ‖U c.durations.sum - evolution c‖ ≤ B + (sweptAngle c * (A + P) + c.durations.sum * D) / 2 := by
  obtain ⟨V, hV, -⟩ := C116_exists c hc ⟨fun _ => 0, fun _ => 0, fun _ => d⟩ continuous_const continuous_const
    continuous_const
  have h1 := C116_compare c hc e ⟨fun _ => 0, fun _ => 0, fun _ => d⟩ A P D 1 (by simpa using hA) (by simpa using hP)
    hD (fun t _ => by simp) U V hU hV
  rw [C116_constant c hc 0 0 d V hV, withAmplitudeError_zero, one_mul] at h1
  have e0 : withPhaseError 0 (withDetuningError d c) = withDetuningError d c := by cases c; simp [withPhaseError]
  rw [e0] at h1
  have := norm_sub_le_norm_sub_add_norm_sub (U c.durations.sum) (evolution (withDetuningError d c)) (evolution c)
  linarith

/-- **C116**, the composite pulses: they suppress what is constant of an error as C102 says, and the rest adds at most what
it would do to any control with the same swept angle and duration. -/
theorem C116_schemes (s : Scheme) (θ Ω φ : ℝ) (name : Option String) (c : DrivenControl ℝ)
    (hc : s.call θ Ω φ name = .ok c) (e : DriftingErrors) (U : ℝ → M2) (hU : ErrantEvolution c e U) (A P D : ℝ)
    (hP : ∀ t ∈ Ico 0 c.durations.sum, |e.phase t| ≤ P) :
    (s.cancelsAmplitude → ∀ a, (∀ t ∈ Ico 0 c.durations.sum, |e.amplitude t - a| ≤ A) →
      (∀ t ∈ Ico 0 c.durations.sum, |e.detuning t| ≤ D) →
      ‖U c.durations.sum - evolution c‖ ≤ (sweptAngle c / 2 * |a|) ^ 2 / 2 +
        (sweptAngle c * (A + |1 + a| * P) + c.durations.sum * D) / 2) ∧
    (s.cancelsAmplitudeTwice θ → ∀ a, (∀ t ∈ Ico 0 c.durations.sum, |e.amplitude t - a| ≤ A) →
      (∀ t ∈ Ico 0 c.durations.sum, |e.detuning t| ≤ D) →
      ‖U c.durations.sum - evolution c‖ ≤ (sweptAngle c / 2 * |a|) ^ 3 / 6 +
        (sweptAngle c * (A + |1 + a| * P) + c.durations.sum * D) / 2) ∧
    (s.cancelsDetuning θ → ∀ d, (∀ t ∈ Ico 0 c.durations.sum, |e.amplitude t| ≤ A) →
      (∀ t ∈ Ico 0 c.durations.sum, |e.detuning t - d| ≤ D) →
      ‖U c.durations.sum - evolution c‖ ≤ (c.durations.sum / 2 * |d|) ^ 2 / 2 +
        (sweptAngle c * (A + P) + c.durations.sum * D) / 2) := by
  have h := call_constructed _ _ _ _ _ _ hc
  obtain ⟨b1, b2, b3⟩ := C102_schemes s θ Ω φ name c hc
  rw [elapsed_constructed h] at b3
  exact ⟨fun hs a hA hD => drifting_amplitude c h e a A P D hA hP hD U hU _ (b1 hs a),
    fun hs a hA hD => drifting_amplitude c h e a A P D hA hP hD U hU _ (b2 hs a),
    fun hs d hA hD => drifting_detuning c h e d A P D hA hP hD U hU _ (b3 hs d)⟩

/-- **C116**, BB1: within `((θ/2 + 2π) |a|)³ / 6 + (θ/2 + 2π) (A + |1 + a| P) + (θ + 4π) D / (2 Ω)` of the requested
rotation. -/
theorem C116_bb1 (θ Ω φ : ℝ) (name : Option String) (c : DrivenControl ℝ) (hc : newBB1Control θ Ω φ name = .ok c)
    (e : DriftingErrors) (U : ℝ → M2) (hU : ErrantEvolution c e U) (a A P D : ℝ)
    (hA : ∀ t ∈ Ico 0 c.durations.sum, |e.amplitude t - a| ≤ A) (hP : ∀ t ∈ Ico 0 c.durations.sum, |e.phase t| ≤ P)
    (hD : ∀ t ∈ Ico 0 c.durations.sum, |e.detuning t| ≤ D) :
    ‖U c.durations.sum - rotation θ φ‖ ≤ ((θ / 2 + 2 * Real.pi) * |a|) ^ 3 / 6 +
      (θ / 2 + 2 * Real.pi) * (A + |1 + a| * P) + (θ + 4 * Real.pi) / (2 * Ω) * D := by
  have h := (C116_schemes .bb1 θ Ω φ name c hc e U hU A P D hP).2.1 trivial a hA hD
  have hcon := call_constructed .bb1 _ _ _ _ _ hc
  have hE := elapsed_constructed hcon
  rw [(C17_bb1 θ Ω φ name).2 c hc] at h
  obtain ⟨⟨hΩ, h0, -⟩, rfl⟩ := (newBB1Control_spec θ Ω φ name).ok hc
  have hp := Real.pi_pos
  have hnn : ∀ p ∈ bb1Table θ φ, 0 ≤ p.1 := by
    intro p hp'
    simp only [bb1Table, List.mem_cons, List.not_mem_nil, or_false] at hp'
    rcases hp' with rfl | rfl | rfl | rfl <;> simp only <;> linarith
  have es : ((bb1Table θ φ).map Prod.fst).sum = θ + 4 * Real.pi := by
    simp only [bb1Table, List.map_cons, List.map_nil, List.sum_cons, List.sum_nil]
    ring
  rw [sweptAngle_ofTable hΩ _ _ hnn, es] at h
  refine h.trans (le_of_eq ?_)
  rw [← hE, elapsedTime_ofTable hΩ _ _ hnn, es]
  field_simp
  ring

/-- **C116**, the primitive pulse: exactly the rotation by the requested angle plus `Ω` times the integral of the
amplitude error. -/
theorem C116_primitive (θ Ω φ : ℝ) (name : Option String) (c : DrivenControl ℝ)
    (hc : newPrimitiveControl θ Ω φ name = .ok c) (a : ℝ → ℝ) (ha : Continuous a) (U : ℝ → M2)
    (hU : ErrantEvolution c ⟨a, fun _ => 0, fun _ => 0⟩ U) :
    U c.durations.sum = rotation (θ + Ω * ∫ t in (0 : ℝ)..θ / Ω, a t) φ := by
  have hcon := call_constructed .primitive _ _ _ _ _ hc
  obtain ⟨⟨hΩ, h0⟩, rfl⟩ := (newPrimitiveControl_spec θ Ω φ name).ok hc
  rw [C116_average _ hcon (by simp [ofTable, primitiveTable]) a ha U hU]
  have := hΩ.ne'
  have := h0.ne'
  simp only [withAveragedError, ofTable, primitiveTable, List.map_cons, List.map_nil, averagedRates, evolution,
    controlEvolution, zero_add, List.length_cons, List.length_nil, List.replicate, one_mul, segmentUnitary_resonant]
  congr 1
  field_simp

/-! ### Non-vacuity -/

/-- A BB1 half turn on hardware with a Rabi rate that is too large by 5%, and oscillates by 0.1%: within 1/50. -/
example : ∃ c U, newBB1Control (α := ℝ) Real.pi 1 0 none = .ok c ∧
    ErrantEvolution c ⟨fun t => 1 / 20 + 1 / 1000 * Real.sin t, fun _ => 0, fun _ => 0⟩ U ∧
    ‖U c.durations.sum - rotation Real.pi 0‖ ≤ 1 / 50 := by
  have hpi := Real.pi_pos
  have h1 := (newBB1Control_spec Real.pi 1 0 none).1 ⟨one_pos, hpi, by linarith⟩
  obtain ⟨U, hU, -⟩ := C116_exists _ (call_constructed .bb1 _ _ _ _ _ h1)
    ⟨fun t => 1 / 20 + 1 / 1000 * Real.sin t, fun _ => 0, fun _ => 0⟩ (by fun_prop) (by fun_prop) (by fun_prop)
  refine ⟨_, U, h1, hU, (C116_bb1 _ _ _ _ _ h1 _ U hU (1 / 20) (1 / 1000) 0 0 (fun t _ => ?_) (by simp) (by simp)).trans ?_⟩
  · have := Real.abs_sin_le_one t
    simp only [add_sub_cancel_left, abs_mul]
    norm_num
    linarith
  · have h3 : Real.pi ^ 3 < 3.15 ^ 3 := by gcongr; exact Real.pi_lt_d2
    have h4 := Real.pi_lt_d2
    rw [abs_of_pos (by norm_num : (0 : ℝ) < 1 / 20)]
    have e : ((Real.pi / 2 + 2 * Real.pi) * (1 / 20)) ^ 3 = 1 / 512 * Real.pi ^ 3 := by ring
    rw [e]
    norm_num at h3 h4 ⊢
    nlinarith

end OpenControls
