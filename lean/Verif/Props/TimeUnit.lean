import Verif.Proofs.TimeUnitAccess

/-!
# C135: the unit of time

`s.call θ Ω φ name` calls a composite pulse function, `s.call T prePost name` a predefined sequence function.  `timesTwoPow n x` is `2ⁿ x`,
`slowerControl n c` the control with all times multiplied by `2ⁿ` and all rates divided by it, `longerSequence n s` the sequence with all times
multiplied by `2ⁿ`; `slowDown k c` and `stretch k s` are the same in exact arithmetic, for any factor.
-/

namespace OpenControls

open Spec PyFloat Py

section

variable {r : Rounding}

/-- **C135** In floating-point arithmetic a change of the unit of time by a power of two changes nothing but the units: a composite pulse for a
maximum Rabi rate that is `2ⁿ` times as small is the slower control, to the last bit, and is refused in the same cases with the same
exceptions. -/
theorem C135_composite (s : Scheme) (n : ℤ) (θ Ω φ : Fl r) (name : Option String) :
    s.call θ (timesTwoPow (-n) Ω) φ name = (s.call θ Ω φ name).map (slowerControl n) :=
  (Rescaling.float r n).composite s θ Ω φ name

/-- **C135** The same for the modulated Gaussian control, with all four arguments in the other unit. -/
theorem C135_gaussian (n : ℤ) (Ω m T f : Fl r) :
    newModulatedGaussianControl (timesTwoPow (-n) Ω) (timesTwoPow n m) (timesTwoPow n T) (timesTwoPow (-n) f) =
      (newModulatedGaussianControl Ω m T f).map (slowerControl n) :=
  (Rescaling.float r n).gaussian Ω m T f

/-- **C135** The same for all ten predefined sequences, with and without pre and post rotation. -/
theorem C135_sequence (s : Predefined (Fl r)) (n : ℤ) (T : Fl r) (prePost : Bool) (name : Option String) :
    s.call (timesTwoPow n T) prePost name = (s.call T prePost name).map (longerSequence n) :=
  (Rescaling.float r n).predefined s T prePost name

/-- **C135** Reading the slower control: the angles are the same to the last bit, rates and times are those of the original in the other unit,
and so is the exported dictionary, in which the amplitudes do not change at all. -/
theorem C135_reading (n : ℤ) (c : DrivenControl (Fl r)) :
    (slowerControl n c).angles = c.angles ∧
    (slowerControl n c).amplitudeX = c.amplitudeX.map (timesTwoPow (-n)) ∧
    (slowerControl n c).amplitudeY = c.amplitudeY.map (timesTwoPow (-n)) ∧
    (slowerControl n c).maximumRabiRate = c.maximumRabiRate.map (timesTwoPow (-n)) ∧
    (slowerControl n c).times = c.times.map (timesTwoPow n) ∧
    ∀ coordinates, (slowerControl n c).exportContent coordinates =
      (c.exportContent coordinates).map (List.map (inUnits (timesTwoPow (-n)) (timesTwoPow n))) :=
  let u := Rescaling.float r n
  ⟨u.angles c, u.amplitudeX c, u.amplitudeY c, u.maximumRabiRate c, u.times c, u.exportContent c⟩

/-- the constructors accept the numbers 1, and the slower control differs from the original -/
example : ∃ c : DrivenControl (Fl r), Scheme.primitive.call (lit 1) (lit 1) (lit 0) none = .ok c ∧
    c.durations.map Fl.val = [1] ∧ (slowerControl 10 c).durations.map Fl.val = [1024] := by
  have h1 : r.rnd 1 = 1 := by
    have := r.nat 1 (by have := r.u_le; norm_num at this ⊢; linarith)
    simpa using this
  have h0 : r.rnd 0 = 0 := by simpa using r.nat 0 (by simp)
  refine ⟨⟨[lit 1], [lit 0], [lit 0], [lit 1 / lit 1], none⟩, ?_, ?_, ?_⟩
  · simp [Scheme.call, newPrimitiveControl, validateRabiParameters, DrivenControl.new, checkArguments, gt, ge, ne, PyFloat.lt,
      PyFloat.le, PyFloat.eq, h1, h0, bind, Except.bind, pySet, pure, Except.pure]
  · simp [h1]
  · simp [slowerControl, val_timesTwoPow, h1]
    norm_num

end

/-- **C135** In exact arithmetic the factor can be any positive number: composite pulses. -/
theorem C135_composite_exact (s : Scheme) (k : ℝ) (hk : 0 < k) (θ Ω φ : ℝ) (name : Option String) :
    s.call θ (Ω / k) φ name = (s.call θ Ω φ name).map (slowDown k) :=
  (Rescaling.real k hk).composite s θ Ω φ name

/-- **C135** In exact arithmetic the factor can be any positive number: modulated Gaussian controls. -/
theorem C135_gaussian_exact (k : ℝ) (hk : 0 < k) (Ω m T f : ℝ) :
    newModulatedGaussianControl (Ω / k) (k * m) (k * T) (f / k) = (newModulatedGaussianControl Ω m T f).map (slowDown k) :=
  (Rescaling.real k hk).gaussian Ω m T f

/-- **C135** In exact arithmetic the factor can be any positive number: predefined sequences. -/
theorem C135_sequence_exact (s : Predefined ℝ) (k : ℝ) (hk : 0 < k) (T : ℝ) (prePost : Bool) (name : Option String) :
    s.call (k * T) prePost name = (s.call T prePost name).map (stretch k) :=
  (Rescaling.real k hk).predefined s T prePost name

/-- **C135** In exact arithmetic the factor can be any positive number: reading. -/
theorem C135_reading_exact (k : ℝ) (hk : 0 < k) (c : DrivenControl ℝ) :
    (slowDown k c).angles = c.angles ∧
    (slowDown k c).maximumRabiRate = c.maximumRabiRate.map (· / k) ∧
    (slowDown k c).times = c.times.map (k * ·) ∧ (slowDown k c).duration = k * c.duration ∧
    ∀ coordinates, (slowDown k c).exportContent coordinates =
      (c.exportContent coordinates).map (List.map (inUnits (· / k) (k * ·))) := by
  refine ⟨(Rescaling.real k hk).angles c, (Rescaling.real k hk).maximumRabiRate c, (Rescaling.real k hk).times c, ?_,
    (Rescaling.real k hk).exportContent c⟩
  simp only [DrivenControl.duration, slowDown, RealInst.sum_eq]
  induction c.durations with
  | nil => simp
  | cons t l ih => rw [List.map_cons, List.sum_cons, List.sum_cons, ih, mul_add]

/-- **C135** The slower control performs the same operation, also with a relative error of the Rabi rates and with a detuning error that is as
many times smaller. -/
theorem C135_evolution (k : ℝ) (hk : 0 < k) (c : DrivenControl ℝ) :
    evolution (slowDown k c) = evolution c ∧
    ∀ e d, evolution (withErrors e (d / k) (slowDown k c)) = evolution (withErrors e d c) := by
  refine ⟨evolution_unit hk.ne' c, fun e d => ?_⟩
  rw [← evolution_unit hk.ne' (withErrors e d c)]
  congr 1
  simp only [withErrors, withDetuningError, withAmplitudeError, slowDown, List.map_map, Function.comp_def, add_div, mul_div_assoc]

/-- A primitive π pulse at the rate 10⁶ / s in seconds and in nanoseconds. -/
example : ∃ c, Scheme.primitive.call Real.pi (10 ^ 6 : ℝ) 0 none = .ok c ∧ c.durations = [Real.pi / 10 ^ 6] ∧
    Scheme.primitive.call Real.pi (10 ^ 6 / 10 ^ 9 : ℝ) 0 none = .ok (slowDown (10 ^ 9) c) := by
  have hpi := Real.pi_pos
  have h : Scheme.primitive.call Real.pi (10 ^ 6 : ℝ) 0 none =
      .ok ⟨[10 ^ 6], [0], [0], [Real.pi / 10 ^ 6], none⟩ := by
    simp [Scheme.call, newPrimitiveControl, validateRabiParameters, DrivenControl.new, checkArguments, gt, ge, ne, PyFloat.lt,
      PyFloat.le, PyFloat.eq, bind, Except.bind, pySet, pure, Except.pure, hpi, hpi.ne']
  refine ⟨_, h, rfl, ?_⟩
  rw [C135_composite_exact _ _ (by positivity), h]
  rfl

end OpenControls
