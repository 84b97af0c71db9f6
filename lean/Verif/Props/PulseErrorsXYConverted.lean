import Verif.Props.PulseErrorsXY
import Verif.Props.RateErrors
import Verif.Props.HardwareXY

/-!
# C126: converted XY-concatenated sequences on hardware with a wrong Rabi rate
-/

namespace OpenControls

open Spec RealInst

theorem scaled_axisPulse (e : ℝ) (a : Axis) :
    pulseUnitary ((1 + e) * a.rabi) a.azimuthal (1 * a.detuning) = errPulse (axisError e e a) a := by
  cases a with
  | x => simp [Axis.rabi, Axis.azimuthal, Axis.detuning, errPulse, axisError, pulseUnitary_resonant]
  | y => simp [Axis.rabi, Axis.azimuthal, Axis.detuning, errPulse, axisError, pulseUnitary_resonant]
  | z =>
    rw [errPulse, ← pulseUnitary_axis]
    simp [Axis.rabi, Axis.azimuthal, Axis.detuning]

theorem scaled_columns (e : ℝ) (t : List (ℝ × Axis)) :
    pulseProduct ((t.map fun p => p.2.rabi).map ((1 + e) * ·)) (t.map fun p => p.2.azimuthal)
      ((t.map fun p => p.2.detuning).map (1 * ·)) = axisProduct e e (t.map Prod.snd) := by
  induction t with
  | nil => rfl
  | cons p r ih =>
    simp only [List.map_cons, pulseProduct, axisProduct]
    rw [ih, scaled_axisPulse]

theorem scaled_prePost (e T φ : ℝ) (t : List (ℝ × Axis)) (name : Option String) :
    pulses (scaledAngles (1 + e) 1 (withPrePost φ (piSequence T t name))) =
      rotation ((1 + e) * (Real.pi / 2)) φ * axisProduct e e (t.map Prod.snd) *
        rotation ((1 + e) * (Real.pi / 2)) 0 := by
  unfold pulses scaledAngles withPrePost piSequence
  simp only [List.map_cons, List.map_append, List.map_nil, pulseProduct]
  rw [pulseProduct_append _ _ _ _ _ _ (by simp) (by simp), scaled_columns]
  simp [pulseProduct, pulseUnitary_resonant]

/-- **C126**, order two on hardware: if all Rabi rates are wrong by the same factor, the converted control still carries out
exactly the pulses of the sequence, with or without pre and post rotations. -/
theorem C126_converted (T l : ℝ) (hl : ⌊l⌋₊ = 2) (h8 : 1 / 10 ^ 8 < T) (prePost : Bool) (name : Option String)
    (s : Sequence ℝ) (hs : newXYConcatenatedSequence T l prePost name = .ok s) (R D m : ℝ) (cname : Option String)
    (c : DrivenControl ℝ) (h : convertDDS s R D m cname = .ok c) (e : ℝ) :
    evolution (withAmplitudeError e c) = pulses s := by
  have hs0 : Family.call (.xyConcatenated l) T prePost name = .ok s := hs
  obtain ⟨⟨hT, hv⟩, hw⟩ := (C43_well_formed (.xyConcatenated l) T prePost name).ok hs0
  have e1 := C94_scaled_pure s (hw.constructed hT) (by rwa [hw.1])
    (fun p hp => (hw.standard p hp).facts.2.2.1) R D m cname c h (1 + e) 1
  rw [Family.call_eq hv hT, Except.ok.injEq] at hs0
  have htab : Family.table (.xyConcatenated l) T = xyTable T 2 := by rw [← hl]; rfl
  rw [htab] at hs0
  have hax : ∀ εx εy, axisProduct εx εy ((xyTable T 2).map Prod.snd) = -1 := by
    intro εx εy
    rw [xy_axes hT (by decide), built_even_axes _ _ (by decide) (by decide)]
  rw [amplitudeError_scaledRates, e1, ← hs0]
  cases prePost with
  | false =>
    show pulses (scaledAngles (1 + e) 1 (piSequence T (xyTable T 2) name)) = pulses (piSequence T (xyTable T 2) name)
    rw [pulses_table, ← axisProduct_exact, hax]
    exact (scaled_columns e _).trans (hax e e)
  | true =>
    have hf : finalAngle (xyTable T 2) = Real.pi := by
      have hc : ∀ a b, countAxes a b (xyTable T 2) =
          List.countP (fun c => c = a ∨ c = b) (builtXY 2).flatten := by
        intro a b
        rw [← xy_axes hT (by decide), List.countP_map]
        rfl
      rw [finalAngle, hc, hc, if_pos (by decide)]
    show pulses (scaledAngles (1 + e) 1 (withPrePost (finalAngle (xyTable T 2)) (piSequence T (xyTable T 2) name))) =
      pulses (withPrePost (finalAngle (xyTable T 2)) (piSequence T (xyTable T 2) name))
    have hinv : ∀ θ, rotation θ Real.pi * -1 * rotation θ 0 = -1 := by
      intro θ
      have q := Real.cos_sq_add_sin_sq (θ / 2)
      rw [← su2_one, su2_neg, rotation_eq, rotation_eq, su2_mul, su2_mul, su2_inj, Real.cos_pi, Real.sin_pi,
        Real.cos_zero, Real.sin_zero]
      refine ⟨by linear_combination -q, by ring, by ring, by ring⟩
    rw [scaled_prePost, hax, hf, hinv, pulses_withPrePost_eq, ← axisProduct_exact, hax, pulseUnitary_resonant,
      pulseUnitary_resonant, hinv]

/-- **C126**, order one on hardware (only without pre and post rotations): up to a global phase the evolution is off the
identity by an angle whose cosine is `1 - 2 sin⁴(πe/2)`. -/
theorem C126_converted_first (T l : ℝ) (hl : ⌊l⌋₊ = 1) (h8 : 1 / 10 ^ 8 < T) (prePost : Bool) (name : Option String)
    (s : Sequence ℝ) (hs : newXYConcatenatedSequence T l prePost name = .ok s) (R D m : ℝ) (cname : Option String)
    (c : DrivenControl ℝ) (h : convertDDS s R D m cname = .ok c) (e : ℝ) :
    prePost = false ∧
    ((evolution (withAmplitudeError e c)).trace / 2 : ℂ) =
      -((1 - 2 * Real.sin (Real.pi * e / 2) ^ 4 : ℝ) : ℂ) := by
  have hpp : prePost = false := by
    obtain ⟨-, -, -, ⟨-, h, -⟩ | ⟨h, -⟩⟩ :=
      (C124_xy_concatenated T l prePost name s hs R D m cname).mp ⟨c, h⟩
    · exact h
    · omega
  subst hpp
  refine ⟨rfl, ?_⟩
  have hs0 : Family.call (.xyConcatenated l) T false name = .ok s := hs
  obtain ⟨⟨hT, hv⟩, hw⟩ := (C43_well_formed (.xyConcatenated l) T false name).ok hs0
  have e1 := C94_scaled_pure s (hw.constructed hT) (by rwa [hw.1])
    (fun p hp => (hw.standard p hp).facts.2.2.1) R D m cname c h (1 + e) 1
  rw [Family.call_eq hv hT, Except.ok.injEq] at hs0
  have htab : Family.table (.xyConcatenated l) T = xyTable T 1 := by rw [← hl]; rfl
  rw [htab] at hs0
  have e2 : pulses (scaledAngles (1 + e) 1 (piSequence T (xyTable T 1) name)) =
      axisProduct e e [.x, .y, .x, .y] := by
    have := xy_axes hT (n := 1) (by decide)
    rw [show (builtXY 1).flatten = [.x, .y, .x, .y] from rfl] at this
    rw [← this]
    exact scaled_columns e _
  rw [amplitudeError_scaledRates, e1, ← hs0, show finished T (xyTable T 1) false name =
    piSequence T (xyTable T 1) name from rfl, e2, first_axes]
  simp only [cos_error, sin_error]
  rw [Matrix.trace_fin_two]
  simp only [su2, Matrix.of_apply, Matrix.cons_val', Matrix.cons_val_zero, Matrix.cons_val_fin_one,
    Matrix.cons_val_one]
  generalize Real.sin (Real.pi * e / 2) = d
  rw [show 2 * (-d * -d) ^ 2 - 1 = -(1 - 2 * d ^ 4) by ring]
  generalize 1 - 2 * d ^ 4 = r
  rw [Complex.ext_iff]
  constructor
  · simp
  · simp

/-- order 2 of duration 32 with pulses of one second that are ten percent too strong -/
example : ∃ s c, newXYConcatenatedSequence (32 : ℝ) 2 true none = .ok s ∧
    convertDDS s Real.pi Real.pi 0 none = .ok c ∧ evolution (withAmplitudeError (1 / 10) c) = pulses s := by
  obtain ⟨s, hs, -⟩ := (C43_well_formed (.xyConcatenated 2) 32 true none).1
    ⟨by norm_num, by norm_num [Family.Valid]⟩
  have hpi := Real.pi_pos
  have e1 : Real.pi / Real.pi = 1 := by field_simp
  have e2 : Real.pi / 2 / Real.pi = 1 / 2 := by field_simp
  obtain ⟨c, hc⟩ := (C124_xy_concatenated 32 2 true none s hs Real.pi Real.pi 0 none).mpr (by
    refine ⟨hpi, hpi, le_rfl, .inr ⟨by norm_num, ?_⟩⟩
    unfold piTime zTime endTime shortestGap
    rw [e1, if_pos rfl, e2]
    norm_num)
  exact ⟨s, c, hs, hc, C126_converted 32 2 (by norm_num) (by norm_num) true none s hs _ _ _ none c hc _⟩

/-- order 1 of duration 6 with pulses of one second that are fifty percent too strong -/
example : ∃ s c, newXYConcatenatedSequence (6 : ℝ) 1 false none = .ok s ∧
    convertDDS s Real.pi Real.pi 0 none = .ok c ∧
    ((evolution (withAmplitudeError (1 / 2) c)).trace / 2 : ℂ) = -(1 / 2 : ℝ) := by
  obtain ⟨s, hs, -⟩ := (C43_well_formed (.xyConcatenated 1) 6 false none).1
    ⟨by norm_num, by norm_num [Family.Valid]⟩
  have hpi := Real.pi_pos
  obtain ⟨c, hc⟩ := (C124_xy_concatenated 6 1 false none s hs Real.pi Real.pi 0 none).mpr (by
    refine ⟨hpi, hpi, le_rfl, .inl ⟨by norm_num, rfl, ?_⟩⟩
    rw [piTime_zero hpi, shortestGap_zero, div_self hpi.ne']
    norm_num)
  refine ⟨s, c, hs, hc, ?_⟩
  rw [(C126_converted_first 6 1 (by norm_num) (by norm_num) false none s hs _ _ _ none c hc _).2,
    show Real.pi * (1 / 2) / 2 = Real.pi / 4 by ring, Real.sin_pi_div_four]
  have : (Real.sqrt 2 / 2) ^ 4 = 1 / 4 := by
    rw [div_pow, show Real.sqrt 2 ^ 4 = (Real.sqrt 2 ^ 2) ^ 2 by ring, Real.sq_sqrt (by norm_num)]
    norm_num
  rw [this]
  norm_num

end OpenControls
