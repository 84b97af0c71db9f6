import Verif.Props.Repetition
import Verif.Props.Spectrum

/-!
# C129: response of a sequence that is played several times to noise of one frequency
-/

namespace OpenControls

open Spec RealInst Complex

theorem parts_turned (l : List ℝ) (T ω φ : ℝ) :
    (∫ t in 0..T, switching l t * Real.cos (ω * t + φ) = Real.cos φ * (∫ t in 0..T, switching l t * Real.cos (ω * t)) -
      Real.sin φ * ∫ t in 0..T, switching l t * Real.sin (ω * t)) ∧
    ∫ t in 0..T, switching l t * Real.sin (ω * t + φ) = Real.cos φ * (∫ t in 0..T, switching l t * Real.sin (ω * t)) +
      Real.sin φ * ∫ t in 0..T, switching l t * Real.cos (ω * t) := by
  have hc : Continuous fun t : ℝ => Real.cos (ω * t) := by fun_prop
  have hs : Continuous fun t : ℝ => Real.sin (ω * t) := by fun_prop
  constructor
  · have e : ∀ t : ℝ, switching l t * Real.cos (ω * t + φ) = Real.cos φ * (switching l t * Real.cos (ω * t)) -
        Real.sin φ * (switching l t * Real.sin (ω * t)) := by
      intro t
      rw [Real.cos_add]; ring
    simp only [e]
    rw [intervalIntegral.integral_sub ((switching_integrable _ hc _).const_mul _)
      ((switching_integrable _ hs _).const_mul _), intervalIntegral.integral_const_mul, intervalIntegral.integral_const_mul]
  · have e : ∀ t : ℝ, switching l t * Real.sin (ω * t + φ) = Real.cos φ * (switching l t * Real.sin (ω * t)) +
        Real.sin φ * (switching l t * Real.cos (ω * t)) := by
      intro t
      rw [Real.sin_add]; ring
    simp only [e]
    rw [intervalIntegral.integral_add ((switching_integrable _ hs _).const_mul _)
      ((switching_integrable _ hc _).const_mul _), intervalIntegral.integral_const_mul, intervalIntegral.integral_const_mul]

theorem response_copies {T : ℝ} (hT : 0 < T) {l : List ℝ} (h : ∀ t ∈ l, 0 ≤ t ∧ t ≤ T) (m : ℕ) (ω : ℝ) :
    response (copies m T l) (m * T) ω =
      (∑ j ∈ Finset.range m, ((-1) ^ l.length * exp (I * (ω * T : ℝ))) ^ j) * response l T ω := by
  rw [response_parts, response_parts, copies_integral hT h (by fun_prop), copies_integral hT h (by fun_prop), Finset.sum_mul,
    ofReal_sum, ofReal_sum, Finset.sum_mul, ← Finset.sum_add_distrib]
  refine Finset.sum_congr rfl fun j _ => ?_
  have e : ∀ t : ℝ, ω * (t + j * T) = ω * t + j * (ω * T) := fun t => by ring
  simp only [e]
  rw [(parts_turned l T ω _).1, (parts_turned l T ω _).2, mul_pow, ← pow_mul, wave_pow, mul_comm I, exp_mul_I, ← ofReal_cos,
    ← ofReal_sin, mul_comm l.length]
  push_cast
  ring_nf
  rw [I_sq]
  ring

/-- **C129** The response to noise of the frequency `ω` is that of the sequence times a sum over the copies: each copy is later
by the duration, and has the opposite sign if there is an odd number of π-pulses in the copy before it. -/
theorem C129_response (s : Sequence ℝ) (hs : s.Constructed) (m : ℕ) (name : Option String) (s' : Sequence ℝ)
    (hm : playedTimes m s name = .ok s') (ω : ℝ) :
    toneResponse s' ω =
      (∑ j ∈ Finset.range m, ((-1) ^ (piPulseTimes s).length * exp (I * (ω * s.duration : ℝ))) ^ j) * toneResponse s ω := by
  have h0 : m ≠ 0 := by
    rintro rfl
    obtain ⟨h, -⟩ := (C33_accepts_iff_real _ _ _ _ _ _).mp ⟨s', hm⟩
    simp at h
  rw [played_eq hs h0, Except.ok.injEq] at hm
  rw [toneResponse_eq, toneResponse_eq, show piPulseTimes s' = copies m s.duration (piPulseTimes s) by
    rw [← hm]; exact piPulseTimes_copies hs m name, show s'.duration = m * s.duration by rw [← hm]]
  exact response_copies hs.facts.1 (piPulseTimes_within hs) m ω

/-- **C129** In closed form: the response is that of the sequence times `|sin(mωT/2) / sin(ωT/2)|` if the sequence has an even number
of π-pulses; if it has an odd number, with the cosine of `ωT/2`, and for odd `m` the cosine of `mωT/2`. -/
theorem C129_response_closed (s : Sequence ℝ) (hs : s.Constructed) (m : ℕ) (name : Option String) (s' : Sequence ℝ)
    (hm : playedTimes m s name = .ok s') (ω : ℝ) :
    |if Even (piPulseTimes s).length then Real.sin (ω * s.duration / 2) else Real.cos (ω * s.duration / 2)| *
        ‖toneResponse s' ω‖ =
      |if Even (m * (piPulseTimes s).length) then Real.sin (m * (ω * s.duration) / 2)
        else Real.cos (m * (ω * s.duration) / 2)| * ‖toneResponse s ω‖ := by
  rw [C129_response s hs m name s' hm, norm_mul, ← mul_assoc]
  congr 1
  have hg := congrArg norm (mul_neg_geom_sum ((-1) ^ (piPulseTimes s).length * exp (I * ((ω * s.duration : ℝ) : ℂ))) m)
  rw [norm_mul, norm_parity, mul_pow, ← pow_mul, wave_pow, mul_comm (piPulseTimes s).length, norm_parity] at hg
  linarith

/-- **C129** Resonance: a sequence with an even number of π-pulses that is played in step with the noise picks up `m` times as much. -/
theorem C129_resonance (s : Sequence ℝ) (hs : s.Constructed) (he : Even (piPulseTimes s).length) (m : ℕ)
    (name : Option String) (s' : Sequence ℝ) (hm : playedTimes m s name = .ok s') (k : ℤ) :
    toneResponse s' (2 * Real.pi * k / s.duration) = m * toneResponse s (2 * Real.pi * k / s.duration) := by
  have hT := hs.facts.1
  rw [C129_response s hs m name s' hm, he.neg_one_pow, one_mul, div_mul_cancel₀ _ hT.ne']
  have : exp (I * ((2 * Real.pi * k : ℝ) : ℂ)) = 1 := by
    rw [exp_eq_one_iff]
    exact ⟨k, by push_cast; ring⟩
  rw [this]
  simp

/-- A CPMG sequence with two pulses, at the frequency `2π/T` of the resonance of C123, where the response is not zero, played any
number of times. -/
example (m : ℕ) (hm : m ≠ 0) : ∃ s s', newCPMGSequence (1 : ℝ) 2 false none = .ok s ∧ s.Constructed ∧
    Even (piPulseTimes s).length ∧ playedTimes m s none = .ok s' ∧
    ‖toneResponse s' (2 * Real.pi)‖ = m * (2 / Real.pi) := by
  have hv : Family.Valid (.cpmg 2) := by norm_num [Family.Valid]
  have hs := Family.call_eq (family := .cpmg 2) hv (T := 1) one_pos false none
  obtain ⟨-, hw⟩ := (C43_well_formed (.cpmg 2) 1 false none).ok hs
  have hcon := hw.constructed one_pos
  have hd : (finished 1 (Family.table (.cpmg 2) 1) false none).duration = 1 := hw.1
  have he : Even (piPulseTimes (finished 1 (Family.table (.cpmg 2) 1) false none)).length := by
    rw [piPulseTimes_finished]
    simp [Family.table, flipTimes_onAxis_y, cpmgTimes]
  generalize finished 1 (Family.table (.cpmg 2) 1) false none = s at hs hcon hd he
  have hp := played_eq hcon hm none
  generalize (Sequence.mk _ _ _ _ _ _ : Sequence ℝ) = s' at hp
  refine ⟨s, s', hs, hcon, he, hp, ?_⟩
  have h := C129_resonance _ hcon he m none _ hp 1
  rw [hd] at h
  have h' := C123_resonance 1 2 false none _ (.inr hs)
  rw [show (2 * Real.pi * ((1 : ℤ) : ℝ) / 1) = 2 * Real.pi by simp] at h
  rw [show ((⌊(2 : ℝ)⌋₊ : ℕ) : ℝ) * Real.pi / 1 = 2 * Real.pi by norm_num, mul_one] at h'
  rw [h, norm_mul, h']
  simp

end OpenControls
