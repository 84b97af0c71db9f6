import Verif.Proofs.SpeedLimit
import Verif.Props.Accessors
import Verif.Props.Composite
import Verif.Proofs.RoundedErrors

/-!
# C121: no control is faster than the primitive one

In exact arithmetic.  `pulseArea c` is the sum of Rabi rate times duration over the segments of `c`.
-/

namespace OpenControls

open Spec

/-- the area is at most the highest Rabi rate times the duration -/
theorem area_le {Ω : ℝ} : ∀ (rs ts : List ℝ), (∀ x ∈ rs, x ≤ Ω) → (∀ x ∈ ts, 0 ≤ x) → rs.length = ts.length →
    (List.zipWith (· * ·) rs ts).sum ≤ Ω * ts.sum
  | [], [], _, _, _ => by simp
  | r :: rs, t :: ts, hr, ht, h => by
    have := area_le rs ts (fun x hx => hr x (List.mem_cons_of_mem _ hx)) (fun x hx => ht x (List.mem_cons_of_mem _ hx))
      (by simpa using h)
    have h1 := mul_le_mul_of_nonneg_right (hr r (by simp)) (ht t (by simp))
    simp only [List.zipWith_cons_cons, List.sum_cons]
    linarith
  | [], _ :: _, _, _, h => by simp at h
  | _ :: _, [], _, _, h => by simp at h

/-- **C121** A control with area `A ≤ π`, whatever its segments and detunings, takes a qubit from one level to the other with
amplitude at most `sin (A / 2)`. -/
theorem C121_flip (c : DrivenControl ℝ) (h : c.Constructed) (hA : pulseArea c ≤ Real.pi) :
    ‖evolution c 1 0‖ ≤ Real.sin (pulseArea c / 2) := by
  obtain ⟨h1, h2, h3, h4, h5⟩ := (DrivenControl.constructed_iff c).mp h
  exact ((flips_control _ _ _ _ h5 (fun x hx => (h1 x hx).le) h2 h3 h4).2 (by unfold pulseArea at hA; linarith)).norm

theorem area_nonneg {c : DrivenControl ℝ} (h : c.Constructed) : 0 ≤ pulseArea c := by
  obtain ⟨h1, h2, h3, h4, h5⟩ := (DrivenControl.constructed_iff c).mp h
  exact (flips_control _ _ _ _ h5 (fun x hx => (h1 x hx).le) h2 h3 h4).1

theorem norm_rotation_flip (θ φ : ℝ) : ‖rotation θ φ 1 0‖ = |Real.sin (θ / 2)| := by
  rw [rotation_eq, norm_flip, show (Real.sin (θ / 2) * Real.cos φ) ^ 2 + (Real.sin (θ / 2) * Real.sin φ) ^ 2 =
    Real.sin (θ / 2) ^ 2 from by linear_combination Real.sin (θ / 2) ^ 2 * Real.cos_sq_add_sin_sq φ, Real.sqrt_sq_eq_abs]

/-- **C121** A control that performs a rotation by `θ` about an axis of the equator, up to a phase, has an area of at least the
angle between `θ` and the nearest multiple of `2 π`. -/
theorem C121_area (c : DrivenControl ℝ) (h : c.Constructed) (θ φ : ℝ) (he : EqUpToPhase (evolution c) (rotation θ φ)) :
    2 * Real.arcsin |Real.sin (θ / 2)| ≤ pulseArea c ∧ (0 ≤ θ → θ ≤ Real.pi → θ ≤ pulseArea c) := by
  have key : 2 * Real.arcsin |Real.sin (θ / 2)| ≤ pulseArea c := by
    rcases le_or_gt (pulseArea c) Real.pi with hA | hA
    · have h1 := C121_flip c h hA
      obtain ⟨z, hz, e⟩ := he
      rw [e, Matrix.smul_apply, norm_smul, hz, one_mul, norm_rotation_flip] at h1
      have h2 := Real.monotone_arcsin h1
      have h0 := area_nonneg h
      rw [Real.arcsin_sin (by linarith) (by linarith)] at h2
      linarith
    · have := Real.arcsin_le_pi_div_two |Real.sin (θ / 2)|
      linarith
  refine ⟨key, fun h0 h1 => ?_⟩
  rw [abs_of_nonneg (Real.sin_nonneg_of_nonneg_of_le_pi (by linarith) (by linarith)),
    Real.arcsin_sin (by linarith) (by linarith)] at key
  linarith

/-- **C121** With Rabi rates of at most `Ω` a rotation by `θ ≤ π` takes at least the time `θ / Ω`, with any number of segments
and any detunings. -/
theorem C121_duration (c : DrivenControl ℝ) (h : c.Constructed) (Ω : ℝ) (hΩ : 0 < Ω) (hr : ∀ x ∈ c.rabiRates, x ≤ Ω)
    (θ φ : ℝ) (h0 : 0 ≤ θ) (h1 : θ ≤ Real.pi) (he : EqUpToPhase (evolution c) (rotation θ φ)) : θ / Ω ≤ c.duration := by
  obtain ⟨i1, i2, i3, i4, i5⟩ := (DrivenControl.constructed_iff c).mp h
  have h2 := (C121_area c h θ φ he).2 h0 h1
  have h3 : pulseArea c ≤ Ω * c.durations.sum := area_le _ _ hr (fun x hx => (i1 x hx).le) i2
  rw [div_le_iff₀ hΩ]
  have : c.duration = c.durations.sum := rfl
  rw [this]
  linarith

/-- **C121** The primitive control is the fastest control with its maximum Rabi rate that performs its rotation, if and only if
the rotation is by at most `π`. -/
theorem C121_primitive (θ Ω φ : ℝ) (name : Option String) (p : DrivenControl ℝ)
    (hp : newPrimitiveControl θ Ω φ name = .ok p) :
    (∀ c : DrivenControl ℝ, c.Constructed → (∀ x ∈ c.rabiRates, x ≤ Ω) → EqUpToPhase (evolution c) (rotation θ φ) →
      p.duration ≤ c.duration) ↔ θ ≤ Real.pi := by
  have hspec := newPrimitiveControl_spec θ Ω φ name
  have hacc : 0 < Ω ∧ 0 < θ := hspec.iff.mp ⟨p, hp⟩
  rw [hspec.1 hacc] at hp
  obtain rfl := Except.ok.inj hp
  obtain ⟨hΩ, hθ⟩ := hacc
  have hd : (ofTable Ω (primitiveTable θ φ) name).duration = θ / Ω := by
    show (List.map _ _).sum = _
    simp [primitiveTable]
  rw [hd]
  constructor
  · intro h
    by_contra hn
    push Not at hn
    have hpi := Real.pi_pos
    have single : ∀ r a t : ℝ, 0 ≤ r → r ≤ Ω → 0 < t → EqUpToPhase (rotation (r * t) a) (rotation θ φ) → θ / Ω ≤ t := by
      intro r a t h1 h2 h3 h4
      have := h ⟨[r], [a], [0], [t], none⟩ (by rw [DrivenControl.constructed_iff]; simp [h1, h3]) (by simpa using h2) (by
        show EqUpToPhase (1 * segmentUnitary r a 0 t) _
        rwa [one_mul, segmentUnitary_resonant])
      have e : (⟨[r], [a], [0], [t], none⟩ : DrivenControl ℝ).duration = t := by
        show List.sum [t] = t
        simp
      rwa [e] at this
    rcases lt_or_ge θ (2 * Real.pi) with h2 | h2
    · have := single Ω (φ + Real.pi) ((2 * Real.pi - θ) / Ω) hΩ.le le_rfl (div_pos (by linarith) hΩ) ⟨-1, by simp, by
        rw [mul_div_cancel₀ _ hΩ.ne', rotation_axis_add_pi,
          show -(2 * Real.pi - θ) = θ - 2 * Real.pi from by ring, neg_one_smul, ← neg_eq_iff_eq_neg,
          ← rotation_add_two_pi, sub_add_cancel]⟩
      rw [div_le_div_iff_of_pos_right hΩ] at this
      linarith
    · have hq : 0 < θ - Real.pi := by linarith
      have := single (Ω * (θ - 2 * Real.pi) / (θ - Real.pi)) φ ((θ - Real.pi) / Ω) (by
          refine div_nonneg (mul_nonneg hΩ.le (by linarith)) hq.le) (by
          rw [div_le_iff₀ hq]; nlinarith) (div_pos hq hΩ) ⟨-1, by simp, by
        rw [show Ω * (θ - 2 * Real.pi) / (θ - Real.pi) * ((θ - Real.pi) / Ω) = θ - 2 * Real.pi from by field_simp,
          neg_one_smul, ← neg_eq_iff_eq_neg, ← rotation_add_two_pi, sub_add_cancel]⟩
      rw [div_le_div_iff_of_pos_right hΩ] at this
      linarith
  · intro h c hc hr he
    exact C121_duration c hc Ω hΩ hr θ φ hθ.le h he

/-- **C121** The duration of every composite pulse. -/
theorem C121_durations (s : Scheme) (θ Ω φ : ℝ) (name : Option String) (c : DrivenControl ℝ)
    (h : s.call θ Ω φ name = .ok c) : c.duration = schemeAngle θ s / Ω := by
  have hspec := build_spec s θ Ω φ name
  have e : build s θ Ω φ name = .ok c := by rw [← h]; cases s <;> rfl
  have hacc := hspec.iff.mp ⟨c, e⟩
  rw [hspec.1 hacc] at e
  obtain rfl := Except.ok.inj e
  have hpi : corpseAngle Real.pi = Real.pi / 6 := by
    unfold corpseAngle
    rw [Real.sin_pi_div_two, ← Real.sin_pi_div_six, Real.arcsin_sin] <;> linarith [Real.pi_pos]
  cases s
  case wamf1 =>
    show (List.replicate 4 ((wamf1Angles θ).1 / Ω)).sum = _
    simp only [List.sum_replicate, nsmul_eq_mul, schemeAngle]
    push_cast
    ring
  all_goals
    show (List.map _ _).sum = _
    simp [primitiveTable, bb1Table, sk1Table, scrofulousTable, corpseTable, corpseFirst, corpseEach, schemeAngle, hpi]
    try ring

/-- **C121** Every other composite pulse takes longer than the primitive control for the same rotation. -/
theorem C121_slower (s : Scheme) (hs : s ≠ .primitive) (θ Ω φ : ℝ) (name : Option String) (c p : DrivenControl ℝ)
    (h : s.call θ Ω φ name = .ok c) (hp : newPrimitiveControl θ Ω φ name = .ok p) : p.duration < c.duration := by
  have hd := C121_durations s θ Ω φ name c h
  have hd' := C121_durations .primitive θ Ω φ name p hp
  have hspec := build_spec s θ Ω φ name
  have e : build s θ Ω φ name = .ok c := by rw [← h]; cases s <;> rfl
  obtain ⟨hΩ, hacc⟩ := hspec.iff.mp ⟨c, e⟩
  rw [hd, hd', div_lt_div_iff_of_pos_right hΩ]
  have hpi := Real.pi_gt_three
  have hk : ∀ x, corpseAngle x ≤ Real.pi / 2 := fun x => Real.arcsin_le_pi_div_two _
  have htab : Tabulated θ → θ < 2 * Real.pi := by
    intro ht
    have cl : ∀ a, 0 ≤ a → a ≤ Real.pi → Close θ a → θ < 2 * Real.pi := by
      intro a h1 h2 h3
      unfold Close at h3
      rw [abs_of_nonneg h1] at h3
      have := (abs_le.mp h3).2
      norm_num at this
      linarith
    rcases ht with h | h | h
    · exact cl _ (by linarith) (by linarith) h
    · exact cl _ (by linarith) (by linarith) h
    · exact cl _ (by linarith) (by linarith) h
  have hsa : 96.7 / 180 * Real.pi ≤ scrofulousAngle θ := by
    unfold scrofulousAngle
    split_ifs <;> linarith
  have hwa : Real.pi * 2.6 ≤ 4 * (wamf1Angles θ).1 := by
    unfold wamf1Angles
    split_ifs <;> norm_num <;> linarith
  cases s
  case primitive => exact absurd rfl hs
  case bb1 => simp only [schemeAngle]; linarith
  case sk1 => simp only [schemeAngle]; linarith
  case corpse => have := hk θ; simp only [schemeAngle]; linarith
  case corpseInBB1 => have := hk θ; simp only [schemeAngle]; linarith
  case corpseInSK1 => have := hk θ; simp only [schemeAngle]; linarith
  case scrofulous => have := htab hacc; simp only [schemeAngle]; linarith
  case corpseInScrofulous =>
    have := htab hacc
    have := hk (scrofulousAngle θ)
    simp only [schemeAngle]; linarith
  case wamf1 => have := htab hacc; simp only [schemeAngle]; linarith

/-- A primitive control for half a turn, and a BB1 control for the same: `π / 2` and `5 π / 2` with `Ω = 2`. -/
example : ∃ p c, newPrimitiveControl Real.pi 2 1 none = .ok p ∧ newBB1Control Real.pi 2 1 none = .ok c ∧
    p.duration = Real.pi / 2 ∧ c.duration = 5 * Real.pi / 2 ∧ p.Constructed ∧ pulseArea p = Real.pi := by
  obtain ⟨p, hp⟩ := build_pi_ok .primitive
  obtain ⟨c, hc⟩ := build_pi_ok .bb1
  refine ⟨p, c, hp, hc, ?_, ?_, ?_, ?_⟩
  · rw [C121_durations .primitive Real.pi 2 1 none p hp]; rfl
  · rw [C121_durations .bb1 Real.pi 2 1 none c hc]
    show (Real.pi + 4 * Real.pi) / 2 = _
    ring
  · exact call_constructed .primitive Real.pi 2 1 none p hp
  · have e : newPrimitiveControl Real.pi 2 1 none = .ok p := hp
    rw [(newPrimitiveControl_spec Real.pi 2 1 none).1 ⟨by norm_num, Real.pi_pos⟩] at e
    obtain rfl := Except.ok.inj e
    simp [pulseArea, ofTable, primitiveTable]
    ring

/-- A control with a detuning that performs a rotation: two segments with detunings that undo each other, around a pulse. -/
example : ∃ c : DrivenControl ℝ, c.Constructed ∧ c.numberOfSegments = 3 ∧ (∃ x ∈ c.detunings, x ≠ 0) ∧
    pulseArea c = 1 ∧ EqUpToPhase (evolution c) (rotation 1 (-1)) := by
  refine ⟨⟨[0, 1, 0], [0, 0, 0], [1, 0, -1], [1, 1, 1], none⟩, by rw [DrivenControl.constructed_iff]; simp, rfl,
    ⟨1, by simp, one_ne_zero⟩, by simp [pulseArea], 1, by simp, ?_⟩
  have e1 := segmentUnitary_eq 0 0 1 1 1 (by norm_num) one_ne_zero
  have e2 := segmentUnitary_eq 0 0 (-1) 1 1 (by norm_num) one_ne_zero
  show 1 * segmentUnitary 0 0 (-1) 1 * segmentUnitary 1 0 0 1 * segmentUnitary 0 0 1 1 = _
  rw [e1, e2, segmentUnitary_resonant, rotation_eq, rotation_eq, one_mul, su2_mul, su2_mul, one_smul, su2_inj]
  have h1 := Real.cos_sq_add_sin_sq (1 / 2)
  have h2 : Real.cos 1 = 2 * Real.cos (1 / 2) ^ 2 - 1 := by rw [← Real.cos_two_mul]; norm_num
  have h3 : Real.sin 1 = 2 * Real.sin (1 / 2) * Real.cos (1 / 2) := by rw [← Real.sin_two_mul]; norm_num
  simp only [mul_one, Real.cos_zero, Real.sin_zero, Real.cos_neg, Real.sin_neg, h2, h3]
  norm_num
  refine ⟨?_, ?_, ?_⟩
  · linear_combination Real.cos (1 / 2) * h1
  · linear_combination (-Real.sin (1 / 2)) * h1
  · exact ⟨by ring, by ring⟩

end OpenControls
