import Verif.Proofs.SpectrumWalsh
import Verif.Props.Optimal
import Verif.Props.SlowNoise

/-!
# C123: the response of sequences to dephasing noise of one frequency

`toneResponse` is in `Verif/Spec/Spectrum.lean`, `CancelsOrders` and `piPulseTimes` in `Verif/Spec/Optimal.lean`.
-/

namespace OpenControls

open Spec RealInst Complex
open scoped Topology

/-- **C123**, the meaning: the phase picked up under the noise `cos(ωt + φ)`. -/
theorem C123_phase (s : Sequence ℝ) (ω φ : ℝ) :
    ∫ t in 0..s.duration, sensitivity s t * Real.cos (ω * t + φ) =
      (exp (I * (φ : ℂ)) * toneResponse s ω).re := by
  rw [toneResponse_eq, response_parts, mul_comm I, exp_mul_I, ← ofReal_cos, ← ofReal_sin]
  have hc : Continuous fun t : ℝ => Real.cos (ω * t) := by fun_prop
  have hs : Continuous fun t : ℝ => Real.sin (ω * t) := by fun_prop
  have e : ∀ t : ℝ, sensitivity s t * Real.cos (ω * t + φ) =
      Real.cos φ * (switching (piPulseTimes s) t * Real.cos (ω * t)) -
        Real.sin φ * (switching (piPulseTimes s) t * Real.sin (ω * t)) := by
    intro t
    rw [sensitivity_switching, Real.cos_add]; ring
  simp only [e]
  rw [intervalIntegral.integral_sub ((switching_integrable _ hc _).const_mul _)
    ((switching_integrable _ hs _).const_mul _), intervalIntegral.integral_const_mul,
    intervalIntegral.integral_const_mul]
  simp only [mul_re, add_re, add_im, ofReal_re, ofReal_im, mul_im, I_re, I_im]
  ring

private theorem iteratedDeriv_tone (ω φ : ℝ) (k : ℕ) :
    iteratedDeriv k (fun t : ℝ => Real.cos (ω * t + φ)) =
      fun t => ω ^ k * Real.cos (ω * t + (φ + k * (Real.pi / 2))) := by
  induction k with
  | zero => funext t; simp
  | succ k ih =>
    rw [iteratedDeriv_succ, ih]
    funext t
    have hd : HasDerivAt (fun t : ℝ => ω * t + (φ + k * (Real.pi / 2))) ω t := by
      simpa using ((hasDerivAt_id t).const_mul ω).add_const (φ + k * (Real.pi / 2))
    rw [(hd.cos.const_mul (ω ^ k)).deriv, show ω * t + (φ + ((k + 1 : ℕ) : ℝ) * (Real.pi / 2)) =
      ω * t + (φ + k * (Real.pi / 2)) + Real.pi / 2 by push_cast; ring, Real.cos_add_pi_div_two]
    ring

/-- **C123**, low frequencies: the response of a predefined sequence to noise of the frequency `ω` is at most
`|ω|^k T^(k+1) / (2^k (k+1)!)` for every `k` up to the order of cancellation. -/
theorem C123_suppression (family : Family) (T : ℝ) (prePost : Bool) (name : Option String) (s : Sequence ℝ)
    (hs : family.call T prePost name = .ok s) (k : ℕ) (hk : k ≤ family.cancellationOrder) (ω : ℝ) :
    ‖toneResponse s ω‖ ≤ |ω| ^ k * T ^ (k + 1) / (2 ^ k * (k + 1).factorial) := by
  obtain ⟨-, hw⟩ := (C43_well_formed family T prePost name).ok hs
  have hd : s.duration = T := hw.1
  set φ : ℝ := -Complex.arg (toneResponse s ω) with hφ
  have hre : (exp (I * (φ : ℂ)) * toneResponse s ω).re = ‖toneResponse s ω‖ := by
    conv_lhs => rw [← norm_mul_exp_arg_mul_I (toneResponse s ω)]
    rw [mul_left_comm, ← exp_add, hφ]
    have : I * ((-Complex.arg (toneResponse s ω) : ℝ) : ℂ) + (Complex.arg (toneResponse s ω) : ℂ) * I = 0 := by
      push_cast; ring
    rw [this, exp_zero, mul_one, ofReal_re]
  have hp := C98_phase family T prePost name s hs k hk (fun t => Real.cos (ω * t + φ))
    (by fun_prop) (|ω| ^ k) (by
      intro t _
      rw [iteratedDeriv_tone, abs_mul, abs_pow]
      exact mul_le_of_le_one_right (by positivity) (Real.abs_cos_le_one _))
  rw [← hd, C123_phase, hre, hd] at hp
  exact (le_abs_self _).trans hp

/-- **C123**, the order: of a sequence that cancels exactly the orders below `m` the response is proportional to
`|ω|^m` for low frequencies, with a factor that is not zero. -/
theorem C123_order (s : Sequence ℝ) (hT : 0 < s.duration) (m : ℕ) (h : CancelsExactly s m) :
    0 < |∫ t in 0..s.duration, sensitivity s t * t ^ m| / m.factorial ∧
    Filter.Tendsto (fun ω : ℝ => ‖toneResponse s ω‖ / |ω| ^ m) (𝓝[≠] 0)
      (𝓝 (|∫ t in 0..s.duration, sensitivity s t * t ^ m| / m.factorial)) := by
  refine ⟨div_pos (abs_pos.mpr h.2) (by positivity), ?_⟩
  have := response_limit hT.le (piPulseTimes s) (m := m) (by simpa only [sensitivity_switching] using h.1)
  simpa only [toneResponse_eq, sensitivity_switching] using this

/-- **C123**, predefined sequences: the power of the frequency is the order of C72. -/
theorem C123_predefined (family : Family) (T : ℝ) (prePost : Bool) (name : Option String) (s : Sequence ℝ)
    (hs : family.call T prePost name = .ok s) :
    ∃ c : ℝ, 0 < c ∧ Filter.Tendsto (fun ω : ℝ => ‖toneResponse s ω‖ / |ω| ^ family.cancellationOrder) (𝓝[≠] 0)
      (𝓝 c) := by
  obtain ⟨⟨hT, -⟩, hw⟩ := (C43_well_formed family T prePost name).ok hs
  exact ⟨_, C123_order s (by rw [hw.1]; exact hT) _ (C72_cancellation_order family T prePost name s hs)⟩

/-- **C123**, any sequence: the response is proportional to a power of the frequency that is at most the number of
π-pulses. -/
theorem C123_any (s : Sequence ℝ) (hT : 0 < s.duration) :
    ∃ m ≤ (piPulseTimes s).length, ∃ c : ℝ, 0 < c ∧
      Filter.Tendsto (fun ω : ℝ => ‖toneResponse s ω‖ / |ω| ^ m) (𝓝[≠] 0) (𝓝 c) := by
  have hex : ∃ k, ∫ t in 0..s.duration, sensitivity s t * t ^ k ≠ 0 := by
    by_contra hc
    push Not at hc
    have := C122_bound s hT ((piPulseTimes s).length + 1) fun k _ => hc k
    omega
  classical
  refine ⟨Nat.find hex, C122_bound s hT _ fun k hk => ?_, _, C123_order s hT _ ⟨fun k hk => ?_, Nat.find_spec hex⟩⟩
  · by_contra hne; exact Nat.find_min hex hk hne
  · by_contra hne; exact Nat.find_min hex hk hne

/-- **C123**, Ramsey: `|ω F| = 2 |sin(ωT/2)|`. -/
theorem C123_ramsey (T : ℝ) (prePost : Bool) (name : Option String) (s : Sequence ℝ)
    (hs : newRamseySequence T prePost name = .ok s) (ω : ℝ) :
    |ω| * ‖toneResponse s ω‖ = 2 * |Real.sin (ω * T / 2)| := by
  have hs' : Family.call .ramsey T prePost name = .ok s := hs
  obtain ⟨⟨hT, hv⟩, hw⟩ := (C43_well_formed .ramsey T prePost name).ok hs'
  rw [Family.call_eq hv hT] at hs'
  injection hs' with hs'
  rw [toneResponse_eq, hw.1, ← hs', piPulseTimes_finished]
  have : flipTimes (Family.table .ramsey T) = [] := by simp [Family.table, flipTimes]
  rw [this, response_nil hT.le]

/-- **C123**, spin echo: `|ω F| = 4 sin²(ωT/4)`. -/
theorem C123_spin_echo (T : ℝ) (prePost : Bool) (name : Option String) (s : Sequence ℝ)
    (hs : newSpinEchoSequence T prePost name = .ok s) (ω : ℝ) :
    |ω| * ‖toneResponse s ω‖ = 4 * Real.sin (ω * T / 4) ^ 2 := by
  have hs' : Family.call .spinEcho T prePost name = .ok s := hs
  obtain ⟨⟨hT, hv⟩, hw⟩ := (C43_well_formed .spinEcho T prePost name).ok hs'
  rw [Family.call_eq hv hT] at hs'
  injection hs' with hs'
  rw [toneResponse_eq, hw.1, ← hs', piPulseTimes_finished]
  have e : flipTimes (Family.table .spinEcho T) = cpmgTimes T 1 := by
    have : flipTimes (Family.table .spinEcho T) = [T / 2] := by simp [Family.table, flipTimes]
    rw [this]
    norm_num [cpmgTimes]
    ring
  rw [e]
  have h := cpmg_wave hT one_ne_zero ω rfl
  set z : ℂ := exp (I * ((ω * T / (1 : ℕ) / 2 : ℝ) : ℂ)) with hz
  have hk : I * ω * response (cpmgTimes T 1) T ω = -(1 - z) ^ 2 := by
    rw [h]; simp; ring
  have hk := congrArg norm hk
  rw [norm_neg, norm_mul, norm_mul, norm_I, one_mul, norm_real, Real.norm_eq_abs, norm_pow, hz, norm_one_sub_wave,
    mul_pow, sq_abs, Nat.cast_one, div_one, div_div] at hk
  rw [hk]
  norm_num

/-- **C123**, Carr-Purcell and CPMG with `n` pulses:
`|ω F| |cos(ωT/2n)| = 4 sin²(ωT/4n) |sin(ωT/2)|` for even `n`, with the cosine of `ωT/2` for odd `n`. -/
theorem C123_carr_purcell (T count : ℝ) (prePost : Bool) (name : Option String) (s : Sequence ℝ)
    (hs : newCarrPurcellSequence T count prePost name = .ok s ∨ newCPMGSequence T count prePost name = .ok s)
    (n : ℕ) (hn : ⌊count⌋₊ = n) (ω : ℝ) :
    |ω * Real.cos (ω * T / (2 * n))| * ‖toneResponse s ω‖ =
      4 * Real.sin (ω * T / (4 * n)) ^ 2 *
        |if Even n then Real.sin (ω * T / 2) else Real.cos (ω * T / 2)| := by
  rcases hs with hs | hs
  · have hs' : Family.call (.carrPurcell count) T prePost name = .ok s := hs
    obtain ⟨⟨hT, hv⟩, hw⟩ := (C43_well_formed (.carrPurcell count) T prePost name).ok hs'
    rw [Family.call_eq hv hT] at hs'
    injection hs' with hs'
    rw [toneResponse_eq, hw.1, ← hs', piPulseTimes_finished]
    simp only [Family.table, flipTimes_onAxis_x, hn]
    exact response_cpmg hT (hn ▸ (Nat.floor_pos.mpr hv).ne') ω
  · have hs' : Family.call (.cpmg count) T prePost name = .ok s := hs
    obtain ⟨⟨hT, hv⟩, hw⟩ := (C43_well_formed (.cpmg count) T prePost name).ok hs'
    rw [Family.call_eq hv hT] at hs'
    injection hs' with hs'
    rw [toneResponse_eq, hw.1, ← hs', piPulseTimes_finished]
    simp only [Family.table, flipTimes_onAxis_y, hn]
    exact response_cpmg hT (hn ▸ (Nat.floor_pos.mpr hv).ne') ω

/-- **C123**, Carr-Purcell and CPMG, resonance: noise with one half-period per pulse is picked up in full, as if
rectified: the response is `2T/π`, whatever the number of pulses. -/
theorem C123_resonance (T count : ℝ) (prePost : Bool) (name : Option String) (s : Sequence ℝ)
    (hs : newCarrPurcellSequence T count prePost name = .ok s ∨ newCPMGSequence T count prePost name = .ok s) :
    ‖toneResponse s (⌊count⌋₊ * Real.pi / T)‖ = 2 * T / Real.pi := by
  rcases hs with hs | hs
  · have hs' : Family.call (.carrPurcell count) T prePost name = .ok s := hs
    obtain ⟨⟨hT, hv⟩, hw⟩ := (C43_well_formed (.carrPurcell count) T prePost name).ok hs'
    rw [Family.call_eq hv hT] at hs'
    injection hs' with hs'
    rw [toneResponse_eq, hw.1, ← hs', piPulseTimes_finished]
    simp only [Family.table, flipTimes_onAxis_x]
    exact response_resonance hT (Nat.floor_pos.mpr hv).ne'
  · have hs' : Family.call (.cpmg count) T prePost name = .ok s := hs
    obtain ⟨⟨hT, hv⟩, hw⟩ := (C43_well_formed (.cpmg count) T prePost name).ok hs'
    rw [Family.call_eq hv hT] at hs'
    injection hs' with hs'
    rw [toneResponse_eq, hw.1, ← hs', piPulseTimes_finished]
    simp only [Family.table, flipTimes_onAxis_y]
    exact response_resonance hT (Nat.floor_pos.mpr hv).ne'

/-- **C123**, periodic sequences of `n` pulses:
`|ω F| |cos(ωT/(2n+2))| = 2 |sin(ωT/(2n+2))| |cos(ωT/2)|` for even `n`, with the sine of `ωT/2` for odd `n`. -/
theorem C123_periodic (T count : ℝ) (prePost : Bool) (name : Option String) (s : Sequence ℝ)
    (hs : newPeriodicSequence T count prePost name = .ok s) (n : ℕ) (hn : ⌊count⌋₊ = n) (ω : ℝ) :
    |ω * Real.cos (ω * T / (2 * (n + 1)))| * ‖toneResponse s ω‖ =
      2 * |Real.sin (ω * T / (2 * (n + 1)))| *
        |if Even n then Real.cos (ω * T / 2) else Real.sin (ω * T / 2)| := by
  have hs' : Family.call (.periodic count) T prePost name = .ok s := hs
  obtain ⟨⟨hT, hv⟩, hw⟩ := (C43_well_formed (.periodic count) T prePost name).ok hs'
  rw [Family.call_eq hv hT] at hs'
  injection hs' with hs'
  rw [toneResponse_eq, hw.1, ← hs', piPulseTimes_finished]
  simp only [Family.table, flipTimes_onAxis_x, hn]
  exact response_periodic hT n ω

/-- **C123**, Walsh sequences of Paley order `k` with `n = ⌊log₂ k⌋ + 1` binary digits:
`|ω F| = 2^(n+1) |sin(ωT/2^(n+1))|` times, for each digit `j`, `|sin(ωT/2^(j+2))|` if it is one and
`|cos(ωT/2^(j+2))|` if it is zero. -/
theorem C123_walsh (T order : ℝ) (prePost : Bool) (name : Option String) (s : Sequence ℝ)
    (hs : newWalshSequence T order prePost name = .ok s) (k : ℕ) (hk : ⌊order⌋₊ = k) (ω : ℝ) :
    |ω| * ‖toneResponse s ω‖ =
      |2 ^ (Nat.log 2 k + 2) * Real.sin (ω * T / 2 ^ (Nat.log 2 k + 2)) *
        ∏ j ∈ Finset.range (Nat.log 2 k + 1),
          if k.testBit j then Real.sin (ω * T / 2 ^ (j + 2)) else Real.cos (ω * T / 2 ^ (j + 2))| := by
  have hs' : Family.call (.walsh order) T prePost name = .ok s := hs
  obtain ⟨⟨hT, hv⟩, hw⟩ := (C43_well_formed (.walsh order) T prePost name).ok hs'
  rw [Family.call_eq hv hT] at hs'
  injection hs' with hs'
  rw [toneResponse_eq, hw.1, ← hs', piPulseTimes_finished]
  simp only [Family.table, flipTimes_onAxis_x, hk]
  rw [response_walsh hT (hk ▸ (Nat.floor_pos.mpr hv.1).ne'), orderBits, digitProduct_range, Nat.log2_eq_log_two]

/-- **C123**, X-concatenated sequences of level `l`:
`|ω F| = 2^(l+1) |sin(ωT/2^(l+1)) sin(ωT/2^(l+1)) ⋯ sin(ωT/4)|`. -/
theorem C123_x_concatenated (T level : ℝ) (prePost : Bool) (name : Option String) (s : Sequence ℝ)
    (hs : newXConcatenatedSequence T level prePost name = .ok s) (l : ℕ) (hl : ⌊level⌋₊ = l) (ω : ℝ) :
    |ω| * ‖toneResponse s ω‖ =
      |2 ^ (l + 1) * Real.sin (ω * T / 2 ^ (l + 1)) *
        ∏ j ∈ Finset.range l, Real.sin (ω * T / 2 ^ (j + 2))| := by
  have hs' : Family.call (.xConcatenated level) T prePost name = .ok s := hs
  obtain ⟨⟨hT, hv⟩, hw⟩ := (C43_well_formed (.xConcatenated level) T prePost name).ok hs'
  rw [Family.call_eq hv hT] at hs'
  injection hs' with hs'
  rw [toneResponse_eq, hw.1, ← hs', piPulseTimes_finished]
  simp only [Family.table, flipTimes_onAxis_x, hl]
  have hl0 : l ≠ 0 := hl ▸ (Nat.floor_pos.mpr hv).ne'
  obtain ⟨j, rfl⟩ : ∃ j, l = j + 1 := ⟨l - 1, by omega⟩
  rw [← walsh_ones hT, response_walsh hT (by have := Nat.one_lt_two_pow (n := j + 1) (by omega); omega)]
  have e : orderBits (2 ^ (j + 1) - 1) = List.replicate (j + 1) true := by
    refine List.eq_replicate_iff.mpr ⟨?_, ?_⟩
    · simp [orderBits, log2_ones]
    · intro b hb
      have hc := orderBits_ones j
      have hlen : (orderBits (2 ^ (j + 1) - 1)).length = j + 1 := by simp [orderBits, log2_ones]
      have := List.count_eq_length.mp (hc.trans hlen.symm) b hb
      exact this.symm
  rw [e, digitProduct_ones]

/-- the hypotheses are met: a Walsh sequence of order five (binary 101) exists; its response contains the sines of
the digits one and the cosine of the digit zero -/
example : ∃ s, newWalshSequence (1 : ℝ) 5 false none = .ok s ∧ ∀ ω : ℝ, |ω| * ‖toneResponse s ω‖ =
    |16 * Real.sin (ω / 16) * (Real.sin (ω / 4) * Real.cos (ω / 8) * Real.sin (ω / 16))| := by
  obtain ⟨s, hs, -⟩ := (C43_well_formed (.walsh 5) 1 false none).1
    ⟨by norm_num, show (1 : ℝ) ≤ 5 ∧ (5 : ℝ) ≤ 2000 by norm_num⟩
  refine ⟨s, hs, fun ω => ?_⟩
  have h := C123_walsh 1 5 false none s hs 5 (by norm_num) ω
  have hl : Nat.log 2 5 = 2 := by decide
  have h0 : Nat.testBit 5 0 = true := by decide
  have h1 : Nat.testBit 5 1 = false := by decide
  have h2 : Nat.testBit 5 2 = true := by decide
  rw [h, hl, Finset.prod_range_succ, Finset.prod_range_succ, Finset.prod_range_one, h0, h1, h2]
  norm_num

/-- a Carr-Purcell sequence of eight pulses exists and picks up the resonant noise, although it cancels two
orders of slow noise -/
example : ∃ s, newCarrPurcellSequence (1 : ℝ) 8 true none = .ok s ∧
    ‖toneResponse s (8 * Real.pi)‖ = 2 / Real.pi ∧ CancelsExactly s 2 := by
  obtain ⟨s, hs, -⟩ := (C43_well_formed (.carrPurcell 8) 1 true none).1
    ⟨by norm_num, show (1 : ℝ) ≤ 8 by norm_num⟩
  have h8 : ⌊(8 : ℝ)⌋₊ = 8 := by norm_num
  have hr := C123_resonance 1 8 true none s (Or.inl hs)
  have hc := C72_cancellation_order _ 1 true none s hs
  have ho : Family.cancellationOrder (.carrPurcell 8) = 2 := by
    simp only [Family.cancellationOrder, h8]; decide
  rw [ho] at hc
  rw [h8] at hr
  refine ⟨s, hs, ?_, hc⟩
  rw [mul_one, div_one] at hr
  exact_mod_cast hr

end OpenControls
