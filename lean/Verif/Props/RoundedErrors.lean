import Verif.Proofs.RoundedErrors
import Verif.Props.ResidualError
import Verif.Props.RoundedComposite

/-!
# C105: composite pulses that are computed in floating-point arithmetic and performed with systematic errors

C102 bounds what an error of the Rabi rates or of the detuning does to the exact composite pulses, C76 how well the
computed composite pulses perform without such an error.  Neither says that the computed pulses still cancel the
errors.  They do: each of their segments is within a few unit roundoffs of its exact counterpart, and this moves the
evolution, whatever the systematic errors are, by a few unit roundoffs.
-/

namespace OpenControls

open Spec Fl
open scoped Matrix.Norms.L2Operator

variable {r : Rounding}

/-- **C105**, segment by segment: whenever a scheme accepts the numbers both in floating-point and in exact
arithmetic, the computed control has the same number of segments as the exact one, and rotation angles, azimuthal
angles and durations agree up to the given deviation: a few unit roundoffs `u`, and for BB1 and SK1 with a rotation
angle above 3π a few `√u`. -/
theorem C105_segments (s : Scheme) (θ Ω φ : Fl r) (name : Option String) (c : DrivenControl (Fl r))
    (hc : s.call θ Ω φ name = .ok c) (c₀ : DrivenControl ℝ) (h₀ : s.call θ.val Ω.val φ.val name = .ok c₀) :
    NearSegments (s.deviation r.u θ.val φ.val) Ω.val (c.map val) c₀ := by
  have hu0 := r.u_nonneg
  have hφ := mul_nonneg (abs_nonneg φ.val) hu0
  cases s
  case primitive =>
    obtain ⟨⟨hΩ, h0⟩, rfl⟩ := (newPrimitive_rounded θ Ω φ name).ok hc
    obtain ⟨-, rfl⟩ := (newPrimitiveControl_spec _ _ _ name).ok h₀
    rw [deviation_other (s := .primitive) id]
    exact near_tables hΩ _ _ (.cons ⟨exact_pulse h0 le_rfl, same_axis (mul_nonneg h0.le hu0)⟩ .nil)
  case bb1 =>
    obtain ⟨⟨hΩ, h0, -⟩, rfl⟩ := (newBB1_rounded θ Ω φ name).ok hc
    obtain ⟨⟨-, -, h4⟩, rfl⟩ := (newBB1Control_spec _ _ _ name).ok h₀
    have h5 := four_pi_u (r := r) h4
    obtain ⟨d1, d2, d3⟩ := deviation_phiP (r := r) (s := .bb1) trivial θ.val φ.val
    simp only [Scheme.roundoffs] at d1 d2 d3
    refine near_tables hΩ _ _ (.cons ⟨exact_pulse h0 ?_, same_axis ?_⟩ (bb1_tail_near h0 h4 ?_)) <;> linarith
  case sk1 =>
    obtain ⟨⟨hΩ, h0, -⟩, rfl⟩ := (newSK1_rounded θ Ω φ name).ok hc
    obtain ⟨⟨-, -, h4⟩, rfl⟩ := (newSK1Control_spec _ _ _ name).ok h₀
    have h5 := four_pi_u (r := r) h4
    obtain ⟨d1, d2, d3⟩ := deviation_phiP (r := r) (s := .sk1) trivial θ.val φ.val
    simp only [Scheme.roundoffs] at d1 d2 d3
    refine near_tables hΩ _ _ (.cons ⟨exact_pulse h0 ?_, same_axis ?_⟩ (sk1_tail_near h0 h4 ?_ ?_)) <;> linarith
  case corpse =>
    obtain ⟨⟨hΩ, h0⟩, rfl⟩ := (newCorpse_rounded θ Ω φ name).ok hc
    obtain ⟨-, rfl⟩ := (newCorpseControl_spec _ _ _ name).ok h₀
    have hθ := mul_nonneg h0.le hu0
    rw [deviation_other (s := .corpse) id]
    refine near_tables hΩ _ _ (corpse_near h0 (η := 0) (by simp) ?_ (same_axis ?_)
      ((axis_rounded φ).trans ?_)) <;> simp only [Scheme.roundoffs] <;> linarith
  case corpseInBB1 =>
    obtain ⟨⟨hΩ, h0, -⟩, rfl⟩ := (newCorpseInBB1_rounded θ Ω φ name).ok hc
    obtain ⟨⟨-, -, h4⟩, rfl⟩ := (newCorpseInBB1Control_spec _ _ _ name).ok h₀
    have hθ := mul_nonneg h0.le hu0
    obtain ⟨d1, d2, d3⟩ := deviation_phiP (r := r) (s := .corpseInBB1) trivial θ.val φ.val
    simp only [Scheme.roundoffs] at d1 d2 d3
    refine near_tables hΩ _ _ (List.rel_append (corpse_near h0 (η := 0) (by simp) ?_ (same_axis ?_)
      ((axis_rounded φ).trans ?_)) (bb1_tail_near h0 h4 ?_)) <;> linarith
  case corpseInSK1 =>
    obtain ⟨⟨hΩ, h0, -⟩, rfl⟩ := (newCorpseInSK1_rounded θ Ω φ name).ok hc
    obtain ⟨⟨-, -, h4⟩, rfl⟩ := (newCorpseInSK1Control_spec _ _ _ name).ok h₀
    have hθ := mul_nonneg h0.le hu0
    obtain ⟨d1, d2, d3⟩ := deviation_phiP (r := r) (s := .corpseInSK1) trivial θ.val φ.val
    simp only [Scheme.roundoffs] at d1 d2 d3
    refine near_tables hΩ _ _ (List.rel_append (corpse_near h0 (η := 0) (by simp) ?_ (same_axis ?_)
      ((axis_rounded φ).trans ?_)) (sk1_tail_near h0 h4 ?_ ?_)) <;> linarith
  case scrofulous =>
    obtain ⟨⟨hΩ, hs⟩, rfl⟩ := (newScrofulous_rounded θ Ω φ name).ok hc
    obtain ⟨⟨-, hT⟩, rfl⟩ := (newScrofulousControl_spec _ _ _ name).ok h₀
    rw [deviation_other (s := .scrofulous) id]
    exact near_tables hΩ _ _ (scrofulous_near (roundedAngle_same hs hT) φ le_rfl)
  case corpseInScrofulous =>
    obtain ⟨⟨hΩ, hs⟩, rfl⟩ := (newCorpseInScrofulous_rounded θ Ω φ name).ok hc
    obtain ⟨⟨-, hT⟩, rfl⟩ := (newCorpseInScrofulousControl_spec _ _ _ name).ok h₀
    rw [deviation_other (s := .corpseInScrofulous) id]
    exact near_tables hΩ _ _ (corpseScrofulous_near (roundedAngle_same hs hT) φ le_rfl)
  case wamf1 =>
    obtain ⟨⟨hΩ, hs⟩, rfl⟩ := (newWamf1_rounded θ Ω φ name).ok hc
    obtain ⟨⟨-, hT⟩, rfl⟩ := (newWamf1Control_spec _ _ _ name).ok h₀
    rw [deviation_other (s := .wamf1) id]
    exact wamf_near hΩ (roundedWamf_same hs hT) name

/-- **C105**, what nearby segments are worth: for any two controls whose segments are near each other, and any errors
`e` of the Rabi rates and `d` of the detuning, the two evolutions differ by at most the given multiple of `δ`. -/
theorem C105_evolution (c c₀ : DrivenControl ℝ) (h₀ : c₀.Constructed) (δ Ω : ℝ) (hΩ : 0 < Ω)
    (h : NearSegments δ Ω c c₀) (e d : ℝ) :
    ‖evolution (withErrors e d c) - evolution (withErrors e d c₀)‖ ≤
      δ / 2 * ((1 + |e|) * (c₀.durations.length + sweptAngle c₀) + c₀.durations.length * (|d| / Ω)) := by
  rw [evolution_withErrors, evolution_withErrors]
  obtain ⟨-, h1, h2, h3, -⟩ := c₀.constructed_iff.1 h₀
  obtain ⟨l, s⟩ := segmentList_length (c := c₀) (by omega) (by omega) (by omega)
  rw [← l, ← s]
  exact faulty_dist hΩ e d h

/-- **C105**, the composite pulses: under any systematic errors a computed control does what the exact control does
under the same errors, up to the deviation of the segments. -/
theorem C105_schemes (s : Scheme) (θ Ω φ : Fl r) (name : Option String) (c : DrivenControl (Fl r))
    (hc : s.call θ Ω φ name = .ok c) (c₀ : DrivenControl ℝ) (h₀ : s.call θ.val Ω.val φ.val name = .ok c₀)
    (e d : ℝ) :
    ‖evolution (withErrors e d (c.map val)) - evolution (withErrors e d c₀)‖ ≤
      s.deviation r.u θ.val φ.val / 2 *
        ((1 + |e|) * (c₀.durations.length + sweptAngle c₀) + c₀.durations.length * (|d| / Ω.val)) :=
  C105_evolution _ _ (call_constructed s _ _ _ _ _ h₀) _ _ (call_rate s _ _ _ _ _ h₀)
    (C105_segments s θ Ω φ name c hc c₀ h₀) e d

/-- **C105**, amplitude errors: the computed control keeps to the bounds of C102, up to rounding. -/
theorem C105_amplitude (s : Scheme) (θ Ω φ : Fl r) (name : Option String) (c : DrivenControl (Fl r))
    (hc : s.call θ Ω φ name = .ok c) (c₀ : DrivenControl ℝ) (h₀ : s.call θ.val Ω.val φ.val name = .ok c₀)
    (e : ℝ) :
    (s.cancelsAmplitude → ‖evolution (withAmplitudeError e (c.map val)) - evolution c₀‖ ≤
      (sweptAngle c₀ / 2 * |e|) ^ 2 / 2 + s.deviation r.u θ.val φ.val / 2 *
        ((1 + |e|) * (c₀.durations.length + sweptAngle c₀))) ∧
    (s.cancelsAmplitudeTwice θ.val → ‖evolution (withAmplitudeError e (c.map val)) - evolution c₀‖ ≤
      (sweptAngle c₀ / 2 * |e|) ^ 3 / 6 + s.deviation r.u θ.val φ.val / 2 *
        ((1 + |e|) * (c₀.durations.length + sweptAngle c₀))) := by
  have h := C105_schemes s θ Ω φ name c hc c₀ h₀ e 0
  simp only [withErrors, withDetuningError_zero, abs_zero, zero_div, mul_zero, add_zero] at h
  have t := norm_sub_le_norm_sub_add_norm_sub (evolution (withAmplitudeError e (c.map val)))
    (evolution (withAmplitudeError e c₀)) (evolution c₀)
  obtain ⟨b1, b2, -⟩ := C102_schemes s θ.val Ω.val φ.val name c₀ h₀
  exact ⟨fun hs => by linarith [b1 hs e], fun hs => by linarith [b2 hs e]⟩

/-- **C105**, detuning errors: the computed control keeps to the bound of C102, up to rounding. -/
theorem C105_detuning (s : Scheme) (θ Ω φ : Fl r) (name : Option String) (c : DrivenControl (Fl r))
    (hc : s.call θ Ω φ name = .ok c) (c₀ : DrivenControl ℝ) (h₀ : s.call θ.val Ω.val φ.val name = .ok c₀)
    (d : ℝ) (hs : s.cancelsDetuning θ.val) :
    ‖evolution (withDetuningError d (c.map val)) - evolution c₀‖ ≤
      (elapsedTime c₀ / 2 * |d|) ^ 2 / 2 + s.deviation r.u θ.val φ.val / 2 *
        (c₀.durations.length + sweptAngle c₀ + c₀.durations.length * (|d| / Ω.val)) := by
  have h := C105_schemes s θ Ω φ name c hc c₀ h₀ 0 d
  simp only [withErrors, withAmplitudeError_zero, abs_zero, add_zero, one_mul] at h
  have t := norm_sub_le_norm_sub_add_norm_sub (evolution (withDetuningError d (c.map val)))
    (evolution (withDetuningError d c₀)) (evolution c₀)
  obtain ⟨-, -, b⟩ := C102_schemes s θ.val Ω.val φ.val name c₀ h₀
  linarith [b hs d]

/-- **C105**, BB1: the computed control is within `(θ/2 + 2π)³ |e|³ / 6` of the requested rotation, up to rounding,
for every error `e` of the Rabi rates. -/
theorem C105_bb1 (θ Ω φ : Fl r) (name : Option String) (c : DrivenControl (Fl r))
    (hc : newBB1Control θ Ω φ name = .ok c) (h3 : θ.val ≤ 3 * Real.pi) (e : ℝ) :
    ‖evolution (withAmplitudeError e (c.map val)) - rotation θ.val φ.val‖ ≤
      ((θ.val / 2 + 2 * Real.pi) * |e|) ^ 3 / 6 +
        (|φ.val| + 75) * (θ.val / 2 + 2 * Real.pi + 2) * (1 + |e|) * r.u := by
  obtain ⟨⟨hΩ, h0, -⟩, -⟩ := (newBB1_rounded θ Ω φ name).ok hc
  have hp := Real.pi_pos
  have h₀ := (newBB1Control_spec θ.val Ω.val φ.val name).1 ⟨hΩ, h0, by linarith⟩
  have h := C105_schemes .bb1 θ Ω φ name c hc _ h₀ e 0
  rw [deviation_three h3] at h
  have b := C102_bb1 θ.val Ω.val φ.val name _ h₀ e
  rw [sweptAngle_ofTable hΩ _ _ (by
    intro p hp'
    simp only [bb1Table, List.mem_cons, List.not_mem_nil, or_false] at hp'
    rcases hp' with rfl | rfl | rfl | rfl <;> simp only <;> linarith)] at h
  simp only [withErrors, withDetuningError_zero, abs_zero, zero_div, mul_zero, add_zero, Scheme.roundoffs,
    bb1Table, List.map_cons, List.map_nil, List.sum_cons, List.sum_nil, ofTable, List.length_cons,
    List.length_nil] at h
  have t := norm_sub_le_norm_sub_add_norm_sub (evolution (withAmplitudeError e (c.map val)))
    (evolution (withAmplitudeError e (ofTable Ω.val (bb1Table θ.val φ.val) name))) (rotation θ.val φ.val)
  refine t.trans ((add_le_add h b).trans (le_of_eq ?_))
  push_cast
  ring

/-- **C105**, SK1: the same with `(θ/2 + 2π)² e² / 2`. -/
theorem C105_sk1 (θ Ω φ : Fl r) (name : Option String) (c : DrivenControl (Fl r))
    (hc : newSK1Control θ Ω φ name = .ok c) (h3 : θ.val ≤ 3 * Real.pi) (e : ℝ) :
    ‖evolution (withAmplitudeError e (c.map val)) - rotation θ.val φ.val‖ ≤
      ((θ.val / 2 + 2 * Real.pi) * |e|) ^ 2 / 2 +
        (|φ.val| + 25) * (θ.val / 2 + 2 * Real.pi + 3 / 2) * (1 + |e|) * r.u := by
  obtain ⟨⟨hΩ, h0, -⟩, -⟩ := (newSK1_rounded θ Ω φ name).ok hc
  have hp := Real.pi_pos
  have h₀ := (newSK1Control_spec θ.val Ω.val φ.val name).1 ⟨hΩ, h0, by linarith⟩
  have h := C105_schemes .sk1 θ Ω φ name c hc _ h₀ e 0
  rw [deviation_three h3] at h
  have b := C102_sk1 θ.val Ω.val φ.val name _ h₀ e
  rw [sweptAngle_ofTable hΩ _ _ (by
    intro p hp'
    simp only [sk1Table, List.mem_cons, List.not_mem_nil, or_false] at hp'
    rcases hp' with rfl | rfl | rfl <;> simp only <;> linarith)] at h
  simp only [withErrors, withDetuningError_zero, abs_zero, zero_div, mul_zero, add_zero, Scheme.roundoffs,
    sk1Table, List.map_cons, List.map_nil, List.sum_cons, List.sum_nil, ofTable, List.length_cons,
    List.length_nil] at h
  have t := norm_sub_le_norm_sub_add_norm_sub (evolution (withAmplitudeError e (c.map val)))
    (evolution (withAmplitudeError e (ofTable Ω.val (sk1Table θ.val φ.val) name))) (rotation θ.val φ.val)
  refine t.trans ((add_le_add h b).trans (le_of_eq ?_))
  push_cast
  ring

/-- **C105**, BB1 for all rotation angles up to 4π: beyond 3π the rounding may count as `√u`. -/
theorem C105_bb1_all (θ Ω φ : Fl r) (name : Option String) (c : DrivenControl (Fl r))
    (hc : newBB1Control θ Ω φ name = .ok c) (h4 : θ.val ≤ 4 * Real.pi) (e : ℝ) :
    ‖evolution (withAmplitudeError e (c.map val)) - rotation θ.val φ.val‖ ≤
      ((θ.val / 2 + 2 * Real.pi) * |e|) ^ 3 / 6 +
        ((|φ.val| + 75) * r.u + 14 * Real.sqrt r.u) * (θ.val / 2 + 2 * Real.pi + 2) * (1 + |e|) := by
  obtain ⟨⟨hΩ, h0, -⟩, -⟩ := (newBB1_rounded θ Ω φ name).ok hc
  have hp := Real.pi_pos
  have h₀ := (newBB1Control_spec θ.val Ω.val φ.val name).1 ⟨hΩ, h0, by linarith⟩
  have h := C105_schemes .bb1 θ Ω φ name c hc _ h₀ e 0
  have b := C102_bb1 θ.val Ω.val φ.val name _ h₀ e
  rw [sweptAngle_ofTable hΩ _ _ (by
    intro p hp'
    simp only [bb1Table, List.mem_cons, List.not_mem_nil, or_false] at hp'
    rcases hp' with rfl | rfl | rfl | rfl <;> simp only <;> linarith)] at h
  simp only [withErrors, withDetuningError_zero, abs_zero, zero_div, mul_zero, add_zero, Scheme.roundoffs,
    bb1Table, List.map_cons, List.map_nil, List.sum_cons, List.sum_nil, ofTable, List.length_cons,
    List.length_nil] at h
  have hd : Scheme.deviation r.u θ.val φ.val .bb1 ≤ (|φ.val| + 75) * r.u + 14 * Real.sqrt r.u := deviation_le _ _ _
  have t := norm_sub_le_norm_sub_add_norm_sub (evolution (withAmplitudeError e (c.map val)))
    (evolution (withAmplitudeError e (ofTable Ω.val (bb1Table θ.val φ.val) name))) (rotation θ.val φ.val)
  refine t.trans ((add_le_add (h.trans (mul_le_mul_of_nonneg_right (div_le_div_of_nonneg_right hd two_pos.le)
    (by positivity))) b).trans (le_of_eq ?_))
  push_cast
  ring

/-- **C105**, SK1 for all rotation angles up to 4π: beyond 3π the rounding may count as `√u`. -/
theorem C105_sk1_all (θ Ω φ : Fl r) (name : Option String) (c : DrivenControl (Fl r))
    (hc : newSK1Control θ Ω φ name = .ok c) (h4 : θ.val ≤ 4 * Real.pi) (e : ℝ) :
    ‖evolution (withAmplitudeError e (c.map val)) - rotation θ.val φ.val‖ ≤
      ((θ.val / 2 + 2 * Real.pi) * |e|) ^ 2 / 2 +
        ((|φ.val| + 25) * r.u + 14 * Real.sqrt r.u) * (θ.val / 2 + 2 * Real.pi + 3 / 2) * (1 + |e|) := by
  obtain ⟨⟨hΩ, h0, -⟩, -⟩ := (newSK1_rounded θ Ω φ name).ok hc
  have hp := Real.pi_pos
  have h₀ := (newSK1Control_spec θ.val Ω.val φ.val name).1 ⟨hΩ, h0, by linarith⟩
  have h := C105_schemes .sk1 θ Ω φ name c hc _ h₀ e 0
  have b := C102_sk1 θ.val Ω.val φ.val name _ h₀ e
  rw [sweptAngle_ofTable hΩ _ _ (by
    intro p hp'
    simp only [sk1Table, List.mem_cons, List.not_mem_nil, or_false] at hp'
    rcases hp' with rfl | rfl | rfl <;> simp only <;> linarith)] at h
  simp only [withErrors, withDetuningError_zero, abs_zero, zero_div, mul_zero, add_zero, Scheme.roundoffs,
    sk1Table, List.map_cons, List.map_nil, List.sum_cons, List.sum_nil, ofTable, List.length_cons,
    List.length_nil] at h
  have hd : Scheme.deviation r.u θ.val φ.val .sk1 ≤ (|φ.val| + 25) * r.u + 14 * Real.sqrt r.u := deviation_le _ _ _
  have t := norm_sub_le_norm_sub_add_norm_sub (evolution (withAmplitudeError e (c.map val)))
    (evolution (withAmplitudeError e (ofTable Ω.val (sk1Table θ.val φ.val) name))) (rotation θ.val φ.val)
  refine t.trans ((add_le_add (h.trans (mul_le_mul_of_nonneg_right (div_le_div_of_nonneg_right hd two_pos.le)
    (by positivity))) b).trans (le_of_eq ?_))
  push_cast
  ring

/-- **C105**, CORPSE: under a detuning error `d` the computed control is within `((θ/2 + 2π - 2k) d/Ω)² / 2` of the
requested rotation, up to rounding, where `k = arcsin(sin(θ/2)/2)`. -/
theorem C105_corpse (θ Ω φ : Fl r) (name : Option String) (c : DrivenControl (Fl r))
    (hc : newCorpseControl θ Ω φ name = .ok c) (d : ℝ) :
    ‖evolution (withDetuningError d (c.map val)) - rotation θ.val φ.val‖ ≤
      ((θ.val / 2 + 2 * Real.pi - 2 * corpseAngle θ.val) * |d| / Ω.val) ^ 2 / 2 +
        (2 * θ.val + |φ.val| + 35) * (θ.val / 2 + 2 * Real.pi - 2 * corpseAngle θ.val +
          3 / 2 * (1 + |d| / Ω.val)) * r.u := by
  obtain ⟨⟨hΩ, h0⟩, -⟩ := (newCorpse_rounded θ Ω φ name).ok hc
  have hp := Real.pi_pos
  have hu0 := r.u_nonneg
  have h₀ := (newCorpseControl_spec θ.val Ω.val φ.val name).1 ⟨hΩ, h0⟩
  have h := C105_schemes .corpse θ Ω φ name c hc _ h₀ 0 d
  rw [deviation_other (s := .corpse) id] at h
  have b := C102_corpse θ.val Ω.val φ.val name _ h₀ d
  have h1 := corpseAngle_lt h0
  have h2 := corpseAngle_lt_half_pi θ.val
  rw [sweptAngle_ofTable hΩ _ _ (by
    intro p hp'
    simp only [corpseTable, List.mem_cons, List.not_mem_nil, or_false] at hp'
    rcases hp' with rfl | rfl | rfl <;> simp only <;> linarith)] at h
  simp only [withErrors, withAmplitudeError_zero, abs_zero, add_zero, one_mul, Scheme.roundoffs,
    corpseTable, List.map_cons, List.map_nil, List.sum_cons, List.sum_nil, ofTable, List.length_cons,
    List.length_nil] at h
  have t := norm_sub_le_norm_sub_add_norm_sub (evolution (withDetuningError d (c.map val)))
    (evolution (withDetuningError d (ofTable Ω.val (corpseTable θ.val φ.val) name))) (rotation θ.val φ.val)
  refine t.trans ((add_le_add h b).trans (le_of_eq ?_))
  push_cast
  ring

/-! ### The hypotheses can be met: double precision -/

/-- a π pulse in double precision with Rabi rates that are 1 % too large -/
example : ∃ c, newBB1Control (round Rounding.double Real.pi) (round Rounding.double 10) (round Rounding.double 1)
    none = .ok c ∧ ‖evolution (withAmplitudeError (1 / 100) (c.map val)) -
      rotation (round Rounding.double Real.pi).val 1‖ ≤ 1 / 10 ^ 4 := by
  have h10 : (round Rounding.double 10).val = 10 := by simpa using double_nat (n := 10) (by norm_num)
  have h1 : (round Rounding.double 1).val = 1 := by simpa using double_nat (n := 1) (by norm_num)
  have hb := rnd_pi_bounds (r := Rounding.double)
  norm_num at hb
  have hl := Real.pi_gt_three
  have hu := Real.pi_lt_d4
  norm_num at hu
  obtain ⟨c, hc, -, -⟩ := (C76_bb1 (round Rounding.double Real.pi) (round Rounding.double 10)
    (round Rounding.double 1) none).1
    ⟨by rw [h10]; norm_num, by rw [val_round]; linarith, by rw [val_round]; linarith⟩
  refine ⟨c, hc, ?_⟩
  have h := C105_bb1 _ _ _ _ c hc (by rw [val_round]; linarith) (1 / 100)
  rw [h1, val_round, double_u, abs_one, abs_of_pos (by norm_num : (0 : ℝ) < 1 / 100)] at h
  rw [val_round]
  refine h.trans ?_
  set p := Rounding.double.rnd Real.pi
  have hx : p / 2 + 2 * Real.pi ≤ 7855 / 1000 := by linarith
  have hx0 : 0 ≤ p / 2 + 2 * Real.pi := by linarith
  generalize p / 2 + 2 * Real.pi = x at hx hx0
  have e1 : (x * (1 / 100)) ^ 3 / 6 ≤ ((7855 / 1000) * (1 / 100)) ^ 3 / 6 := by gcongr
  have e2 : (1 + 75) * (x + 2) * (1 + 1 / 100) * (1 / 2 ^ 53) ≤
      (1 + 75) * ((7855 / 1000 : ℝ) + 2) * (1 + 1 / 100) * (1 / 2 ^ 53) := by gcongr
  refine (add_le_add e1 e2).trans ?_
  norm_num

/-- the rotation angle 12, above 3π, in double precision with Rabi rates that are 1 % too large -/
example : ∃ c, newBB1Control (round Rounding.double 12) (round Rounding.double 10) (round Rounding.double 1)
    none = .ok c ∧ ‖evolution (withAmplitudeError (1 / 100) (c.map val)) - rotation 12 1‖ ≤ 1 / 10 ^ 3 := by
  have h12 : (round Rounding.double 12).val = 12 := by simpa using double_nat (n := 12) (by norm_num)
  have h10 : (round Rounding.double 10).val = 10 := by simpa using double_nat (n := 10) (by norm_num)
  have h1 : (round Rounding.double 1).val = 1 := by simpa using double_nat (n := 1) (by norm_num)
  have hb := rnd_pi_bounds (r := Rounding.double)
  norm_num at hb
  have hl := Real.pi_gt_d2
  have hu := Real.pi_lt_d4
  norm_num at hu hl
  obtain ⟨c, hc, -, -⟩ := (C76_bb1 (round Rounding.double 12) (round Rounding.double 10)
    (round Rounding.double 1) none).1
    ⟨by rw [h10]; norm_num, by rw [h12]; norm_num, by rw [h12]; linarith⟩
  refine ⟨c, hc, ?_⟩
  have h := C105_bb1_all _ _ _ _ c hc (by rw [h12]; linarith) (1 / 100)
  rw [h1, h12, double_u, abs_one, abs_of_pos (by norm_num : (0 : ℝ) < 1 / 100)] at h
  refine h.trans ?_
  have hx : 12 / 2 + 2 * Real.pi ≤ 123 / 10 := by linarith
  have hx0 : 0 ≤ 12 / 2 + 2 * Real.pi := by linarith
  generalize 12 / 2 + 2 * Real.pi = x at hx hx0
  have hq : Real.sqrt (1 / 2 ^ 53) ≤ 1 / 10 ^ 7 := by
    rw [Real.sqrt_le_left (by norm_num)]
    norm_num
  have e1 : (x * (1 / 100)) ^ 3 / 6 ≤ ((123 / 10) * (1 / 100)) ^ 3 / 6 := by gcongr
  have e2 : ((1 + 75) * (1 / 2 ^ 53) + 14 * Real.sqrt (1 / 2 ^ 53)) * (x + 2) * (1 + 1 / 100) ≤
      ((1 + 75) * (1 / 2 ^ 53) + 14 * (1 / 10 ^ 7)) * ((123 / 10 : ℝ) + 2) * (1 + 1 / 100) := by gcongr
  refine (add_le_add e1 e2).trans ?_
  norm_num

/-- a π pulse is accepted by SCROFULOUS in double precision and in exact arithmetic -/
example : (∃ c, Scheme.scrofulous.call (round Rounding.double Real.pi) (round Rounding.double 10)
      (round Rounding.double 1) none = .ok c) ∧
    (∃ c₀, Scheme.scrofulous.call (round Rounding.double Real.pi).val (round Rounding.double 10).val
      (round Rounding.double 1).val none = .ok c₀) := by
  have h10 : (round Rounding.double 10).val = 10 := by simpa using double_nat (n := 10) (by norm_num)
  have hp := pi_error (r := Rounding.double)
  rw [double_u] at hp
  have hb := Real.pi_gt_three
  have near : |(round Rounding.double Real.pi).val - Real.pi| ≤ 5 / 10 ^ 6 := by
    rw [val_round]; refine hp.trans (by norm_num)
  refine ⟨(C76_scrofulous _ _ _ none).1 ⟨by rw [h10]; norm_num, Real.pi, .inl rfl, near⟩, _,
    (newScrofulousControl_spec _ _ _ none).1 ⟨by rw [h10]; norm_num, .inl ?_⟩⟩
  unfold Close
  rw [abs_of_pos Real.pi_pos]
  refine near.trans ?_
  norm_num
  linarith

end OpenControls
