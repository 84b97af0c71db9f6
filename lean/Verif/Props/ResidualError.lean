import Verif.Proofs.ResidualError
import Verif.Props.RobustnessTable
import Verif.Props.Composite

/-!
# C102: how large the remaining error of a control is

C26-C28, C58, C59 and C83 say which derivatives vanish.  Here: what this is worth for an error that is not
infinitesimal, in the operator norm.
-/

namespace OpenControls

open Spec RealInst
open scoped Matrix.Norms.L2Operator

/-- **C102**, amplitude errors: for every control and every relative error `e` of the Rabi rates, the evolution is
off by at most `x = (swept angle)/2 · |e|`; by at most `x²/2` if the control is insensitive to first order, and by at
most `x³/6` if it is insensitive to second order. -/
theorem C102_amplitude (c : DrivenControl ℝ) (e : ℝ) :
    ‖evolution (withAmplitudeError e c) - evolution c‖ ≤ sweptAngle c / 2 * |e| ∧
    (FirstOrderInsensitive (fun e => evolution (withAmplitudeError e c)) →
      ‖evolution (withAmplitudeError e c) - evolution c‖ ≤ (sweptAngle c / 2 * |e|) ^ 2 / 2) ∧
    (SecondOrderInsensitive (fun e => evolution (withAmplitudeError e c)) →
      ‖evolution (withAmplitudeError e c) - evolution c‖ ≤ (sweptAngle c / 2 * |e|) ^ 3 / 6) := by
  have h := (tame_amplitude c).bounds e
  simp only [withAmplitudeError_zero] at h
  exact h

/-- **C102**, detuning errors: for every control and every constant error `d` of the detuning, the same with
`x = (elapsed time)/2 · |d|`. -/
theorem C102_detuning (c : DrivenControl ℝ) (d : ℝ) :
    ‖evolution (withDetuningError d c) - evolution c‖ ≤ elapsedTime c / 2 * |d| ∧
    (FirstOrderInsensitive (fun d => evolution (withDetuningError d c)) →
      ‖evolution (withDetuningError d c) - evolution c‖ ≤ (elapsedTime c / 2 * |d|) ^ 2 / 2) ∧
    (SecondOrderInsensitive (fun d => evolution (withDetuningError d c)) →
      ‖evolution (withDetuningError d c) - evolution c‖ ≤ (elapsedTime c / 2 * |d|) ^ 3 / 6) := by
  have h := (tame_detuning c).bounds d
  simp only [withDetuningError_zero] at h
  exact h

/-- **C102**, what the two numbers are for a control that the constructor returned: the sum of Rabi rate times
duration, and the duration of the control. -/
theorem C102_units (c : DrivenControl ℝ) (h : c.Constructed) :
    sweptAngle c = (List.zipWith (· * ·) c.rabiRates c.durations).sum ∧ elapsedTime c = c.duration := by
  obtain ⟨ht, -, -, -, hr⟩ := c.constructed_iff.1 h
  constructor
  · unfold sweptAngle
    congr 1
    have key : ∀ l l' : List ℝ, (∀ x ∈ l, 0 ≤ x) → (∀ x ∈ l', 0 < x) →
        List.zipWith (fun Ω t => |Ω * t|) l l' = List.zipWith (· * ·) l l' := by
      intro l
      induction l with
      | nil => intros; rfl
      | cons a l ih =>
        intro l' h1 h2
        cases l' with
        | nil => rfl
        | cons b l' =>
          rw [List.zipWith_cons_cons, List.zipWith_cons_cons,
            abs_of_nonneg (mul_nonneg (h1 a List.mem_cons_self) (h2 b List.mem_cons_self).le),
            ih l' (fun x hx => h1 x (List.mem_cons_of_mem _ hx)) fun x hx => h2 x (List.mem_cons_of_mem _ hx)]
    exact key _ _ hr ht
  · unfold elapsedTime DrivenControl.duration
    rw [sum_eq]
    congr 1
    conv_rhs => rw [← List.map_id c.durations]
    exact List.map_congr_left fun x hx => abs_of_pos (ht x hx)

/-- **C102**, the composite pulses: every accepted one keeps to these bounds, of the order that the table of C83
gives for it. -/
theorem C102_schemes (s : Scheme) (θ Ω φ : ℝ) (name : Option String) (c : DrivenControl ℝ)
    (hc : s.call θ Ω φ name = .ok c) :
    (s.cancelsAmplitude → ∀ e : ℝ, ‖evolution (withAmplitudeError e c) - evolution c‖ ≤
      (sweptAngle c / 2 * |e|) ^ 2 / 2) ∧
    (s.cancelsAmplitudeTwice θ → ∀ e : ℝ, ‖evolution (withAmplitudeError e c) - evolution c‖ ≤
      (sweptAngle c / 2 * |e|) ^ 3 / 6) ∧
    (s.cancelsDetuning θ → ∀ d : ℝ, ‖evolution (withDetuningError d c) - evolution c‖ ≤
      (elapsedTime c / 2 * |d|) ^ 2 / 2) :=
  ⟨fun h e => (C102_amplitude c e).2.1 ((C83_amplitude_iff s θ Ω φ name c hc).2 h),
    fun h e => (C102_amplitude c e).2.2 ((C83_amplitude_twice_iff s θ Ω φ name c hc).2 h),
    fun h d => (C102_detuning c d).2.1 ((C83_detuning_iff s θ Ω φ name c hc).2 h)⟩

/-- **C102**, the primitive pulse: exactly `2 |sin(θ e / 4)|` from the requested rotation. -/
theorem C102_primitive (θ Ω φ : ℝ) (name : Option String) (c : DrivenControl ℝ)
    (hc : newPrimitiveControl θ Ω φ name = .ok c) (e : ℝ) :
    ‖evolution (withAmplitudeError e c) - rotation θ φ‖ = 2 * |Real.sin (θ * e / 4)| := by
  obtain ⟨⟨hΩ, -⟩, rfl⟩ := (newPrimitiveControl_spec θ Ω φ name).ok hc
  simp only [evolution_amplitude hΩ.ne', primitiveTable, List.map_cons, List.map_nil,
    tableEvolution_cons, tableEvolution_nil, one_mul]
  rw [rotation_chord]
  congr 3
  ring

/-- **C102**, BB1: within `(θ/2 + 2π)³ |e|³ / 6` of the requested rotation, for every error. -/
theorem C102_bb1 (θ Ω φ : ℝ) (name : Option String) (c : DrivenControl ℝ)
    (hc : newBB1Control θ Ω φ name = .ok c) (e : ℝ) :
    ‖evolution (withAmplitudeError e c) - rotation θ φ‖ ≤ ((θ / 2 + 2 * Real.pi) * |e|) ^ 3 / 6 := by
  have h := (C102_amplitude c e).2.2 (C27_bb1_amplitude θ Ω φ name c hc)
  rw [(C17_bb1 θ Ω φ name).2 c hc] at h
  obtain ⟨⟨hΩ, h0, -⟩, rfl⟩ := (newBB1Control_spec θ Ω φ name).ok hc
  have hp := Real.pi_pos
  rw [sweptAngle_ofTable hΩ _ _ (by
    intro p hp'
    simp only [bb1Table, List.mem_cons, List.not_mem_nil, or_false] at hp'
    rcases hp' with rfl | rfl | rfl | rfl <;> simp only <;> linarith)] at h
  refine h.trans (le_of_eq ?_)
  simp only [bb1Table, List.map_cons, List.map_nil, List.sum_cons, List.sum_nil]
  congr 3
  ring

/-- **C102**, SK1: within `(θ/2 + 2π)² e² / 2` of the requested rotation, for every error. -/
theorem C102_sk1 (θ Ω φ : ℝ) (name : Option String) (c : DrivenControl ℝ)
    (hc : newSK1Control θ Ω φ name = .ok c) (e : ℝ) :
    ‖evolution (withAmplitudeError e c) - rotation θ φ‖ ≤ ((θ / 2 + 2 * Real.pi) * |e|) ^ 2 / 2 := by
  have h := (C102_amplitude c e).2.1 (C26_sk1_amplitude θ Ω φ name c hc)
  rw [(C18_sk1 θ Ω φ name).2 c hc] at h
  obtain ⟨⟨hΩ, h0, -⟩, rfl⟩ := (newSK1Control_spec θ Ω φ name).ok hc
  have hp := Real.pi_pos
  rw [sweptAngle_ofTable hΩ _ _ (by
    intro p hp'
    simp only [sk1Table, List.mem_cons, List.not_mem_nil, or_false] at hp'
    rcases hp' with rfl | rfl | rfl <;> simp only <;> linarith)] at h
  refine h.trans (le_of_eq ?_)
  simp only [sk1Table, List.map_cons, List.map_nil, List.sum_cons, List.sum_nil]
  congr 3
  ring

/-- **C102**, CORPSE: under a detuning error `d` within `((θ/2 + 2π - 2k) d/Ω)² / 2` of the requested rotation, where
`k = arcsin(sin(θ/2)/2)`. -/
theorem C102_corpse (θ Ω φ : ℝ) (name : Option String) (c : DrivenControl ℝ)
    (hc : newCorpseControl θ Ω φ name = .ok c) (d : ℝ) :
    ‖evolution (withDetuningError d c) - rotation θ φ‖ ≤
      ((θ / 2 + 2 * Real.pi - 2 * corpseAngle θ) * |d| / Ω) ^ 2 / 2 := by
  have h := (C102_detuning c d).2.1 (C28_corpse_detuning θ Ω φ name c hc)
  rw [(C19_corpse θ Ω φ name).2 c hc] at h
  obtain ⟨⟨hΩ, h0⟩, rfl⟩ := (newCorpseControl_spec θ Ω φ name).ok hc
  have hp := Real.pi_pos
  have h1 := corpseAngle_lt h0
  have h2 := corpseAngle_lt_half_pi θ
  rw [elapsedTime_ofTable hΩ _ _ (by
    intro p hp'
    simp only [corpseTable, List.mem_cons, List.not_mem_nil, or_false] at hp'
    rcases hp' with rfl | rfl | rfl <;> simp only <;> linarith)] at h
  refine h.trans (le_of_eq ?_)
  simp only [corpseTable, List.map_cons, List.map_nil, List.sum_cons, List.sum_nil]
  congr 2
  ring

/-- **C102**, when BB1 pays: for every nonzero error with `π (θ/2 + 2π)³ e² < 6 θ` the BB1 control is closer to the
requested rotation than the primitive control. -/
theorem C102_bb1_better (θ Ω φ : ℝ) (name name' : Option String) (c p : DrivenControl ℝ)
    (hc : newBB1Control θ Ω φ name = .ok c) (hp : newPrimitiveControl θ Ω φ name' = .ok p) (e : ℝ)
    (he : e ≠ 0) (hs : Real.pi * (θ / 2 + 2 * Real.pi) ^ 3 * e ^ 2 < 6 * θ) :
    ‖evolution (withAmplitudeError e c) - rotation θ φ‖ <
      ‖evolution (withAmplitudeError e p) - rotation θ φ‖ := by
  rw [C102_primitive θ Ω φ name' p hp e]
  refine (C102_bb1 θ Ω φ name c hc e).trans_lt ?_
  obtain ⟨⟨hΩ, h0, h4⟩, -⟩ := (newBB1Control_spec θ Ω φ name).ok hc
  have hpi := Real.pi_pos
  have hpi3 := Real.pi_gt_three
  have ha : 0 < |e| := abs_pos.2 he
  -- the error is small enough for the sine to be at least the chord
  have hle : |e| ≤ 1 / 2 := by
    by_contra hcon
    push Not at hcon
    have h1 : 1 / 4 < e ^ 2 := by rw [← sq_abs]; nlinarith
    have h2 : (2 * Real.pi) ^ 3 ≤ (θ / 2 + 2 * Real.pi) ^ 3 := by gcongr; linarith
    have h3 : Real.pi * (2 * Real.pi) ^ 3 * (1 / 4) ≤ Real.pi * (θ / 2 + 2 * Real.pi) ^ 3 * e ^ 2 := by
      gcongr
    have h4' : 6 * θ ≤ 24 * Real.pi := by linarith
    have h5 : 2 * Real.pi ^ 4 < 24 * Real.pi := by
      have : Real.pi * (2 * Real.pi) ^ 3 * (1 / 4) = 2 * Real.pi ^ 4 := by ring
      linarith
    have h6 : 27 < Real.pi ^ 3 := by
      have : (3 : ℝ) ^ 3 < Real.pi ^ 3 := by gcongr
      linarith
    nlinarith
  have hx0 : 0 ≤ θ * |e| / 4 := by positivity
  have hx1 : θ * |e| / 4 ≤ Real.pi / 2 := by nlinarith
  have hj := Real.mul_le_sin hx0 hx1
  have hsin : |Real.sin (θ * e / 4)| = Real.sin (θ * |e| / 4) := by
    have hnn : 0 ≤ Real.sin (θ * |e| / 4) := Real.sin_nonneg_of_nonneg_of_le_pi hx0 (by linarith)
    rcases abs_cases e with ⟨h, -⟩ | ⟨h, -⟩
    · rw [h] at hnn ⊢
      exact abs_of_nonneg hnn
    · rw [h] at hnn ⊢
      rw [mul_neg, neg_div, Real.sin_neg] at hnn ⊢
      exact abs_of_nonpos (by linarith)
  rw [hsin]
  refine lt_of_lt_of_le ?_ (mul_le_mul_of_nonneg_left hj two_pos.le)
  rw [mul_pow]
  have e1 : 2 * (2 / Real.pi * (θ * |e| / 4)) = θ * |e| / Real.pi := by ring
  rw [e1, div_lt_div_iff₀ (by norm_num) hpi]
  have e2 : (θ / 2 + 2 * Real.pi) ^ 3 * |e| ^ 3 * Real.pi =
      Real.pi * (θ / 2 + 2 * Real.pi) ^ 3 * e ^ 2 * |e| := by
    rw [← sq_abs e]; ring
  rw [e2]
  have := mul_lt_mul_of_pos_right hs ha
  linarith

/-! ### Non-vacuity -/

/-- A BB1 half turn and the primitive one exist, and with 5% too large a Rabi rate BB1 is the better one. -/
example : ∃ c p : DrivenControl ℝ, newBB1Control Real.pi 1 0 none = .ok c ∧
    newPrimitiveControl Real.pi 1 0 none = .ok p ∧
    ‖evolution (withAmplitudeError (1 / 20) c) - rotation Real.pi 0‖ <
      ‖evolution (withAmplitudeError (1 / 20) p) - rotation Real.pi 0‖ := by
  have hpi := Real.pi_pos
  have h1 := (newBB1Control_spec Real.pi 1 0 none).1 ⟨one_pos, hpi, by linarith⟩
  have h2 := (newPrimitiveControl_spec Real.pi 1 0 none).1 ⟨one_pos, hpi⟩
  refine ⟨_, _, h1, h2, C102_bb1_better _ _ _ _ _ _ _ h1 h2 _ (by norm_num) ?_⟩
  have h3 : Real.pi ^ 3 < 3.15 ^ 3 := by gcongr; exact Real.pi_lt_d2
  have e : (Real.pi / 2 + 2 * Real.pi) ^ 3 = 125 / 8 * Real.pi ^ 3 := by ring
  rw [e]
  norm_num at h3 ⊢
  nlinarith

/-- The bounds of `C102_schemes` apply: BB1 cancels amplitude errors twice, CORPSE cancels detuning errors. -/
example (θ : ℝ) : Scheme.cancelsAmplitude .sk1 ∧ Scheme.cancelsAmplitudeTwice θ .bb1 ∧
    Scheme.cancelsDetuning θ .corpse := ⟨trivial, trivial, trivial⟩

end OpenControls
