import Verif.Proofs.Repetition
import Verif.Props.StaticNoise
import Verif.Props.CancellationOrder

/-!
# C129: playing a sequence several times

`playedTimes m s` (in `Verif/Spec/Repetition.lean`) constructs the sequence that plays `s` `m` times in a row.
-/

namespace OpenControls

open Spec RealInst
open scoped Matrix.Norms.L2Operator

theorem interleave_one (T : ℝ) : ∀ (a : ℝ) (ts ωs φs δs : List ℝ), ωs.length = ts.length → φs.length = ts.length →
    δs.length = ts.length → interleave (fun _ _ => 1) T a ts ωs φs δs = pulseProduct ωs φs δs := by
  intro a ts
  induction ts generalizing a with
  | nil =>
    intro ωs φs δs h1 h2 h3
    obtain rfl := List.length_eq_zero_iff.mp h1
    simp [interleave, pulseProduct]
  | cons t ts ih =>
    intro ωs φs δs h1 h2 h3
    obtain ⟨ω, ωs, rfl⟩ := List.exists_cons_of_length_eq_add_one h1
    obtain ⟨φ, φs, rfl⟩ := List.exists_cons_of_length_eq_add_one h2
    obtain ⟨δ, δs, rfl⟩ := List.exists_cons_of_length_eq_add_one h3
    simp only [interleave, pulseProduct, mul_one]
    rw [ih t ωs φs δs (by simpa using h1) (by simpa using h2) (by simpa using h3)]

theorem underNoise_one {s : Sequence ℝ} (hs : s.Constructed) : underNoise (fun _ _ => 1) s = pulses s := by
  obtain ⟨-, -, hr, ha, hd⟩ := hs.facts
  exact interleave_one _ _ _ _ _ _ hr ha hd

/-- **C129** Every sequence can be played any number of times; it takes as many times as long, and the pulses together do the
`m`-th power of what they do in the sequence. -/
theorem C129_accepted (s : Sequence ℝ) (hs : s.Constructed) (m : ℕ) (hm : m ≠ 0) (name : Option String) :
    ∃ s', playedTimes m s name = .ok s' ∧ s'.duration = m * s.duration ∧ s'.offsets.length = m * s.offsets.length ∧
      pulses s' = pulses s ^ m := by
  have h := played_eq hs hm name
  refine ⟨_, h, rfl, copies_length _ _ _, ?_⟩
  rw [← underNoise_one hs, ← underNoise_one ⟨_, _, _, _, _, _, h⟩]
  obtain ⟨-, -, hr, ha, hd⟩ := hs.facts
  exact interleave_copies (by simp) (by simp) (by simp) _ _ _ _ hr ha hd m

/-- **C129** Under noise that repeats with the sequence the qubit evolves by the `m`-th power of its evolution during the
sequence.  `free a b` is the evolution from `a` to `b` without pulses. -/
theorem C129_power (s : Sequence ℝ) (hs : s.Constructed) (m : ℕ) (name : Option String) (s' : Sequence ℝ)
    (hm : playedTimes m s name = .ok s') (free : ℝ → ℝ → M2) (hstart : ∀ a, free a a = 1)
    (hcomp : ∀ a b c, free b c * free a b = free a c)
    (hperiod : ∀ a b, free (a + s.duration) (b + s.duration) = free a b) :
    underNoise free s' = underNoise free s ^ m := by
  have h0 : m ≠ 0 := by
    rintro rfl
    obtain ⟨h, -⟩ := (C33_accepts_iff_real _ _ _ _ _ _).mp ⟨s', hm⟩
    simp at h
  rw [played_eq hs h0, Except.ok.injEq] at hm
  subst hm
  obtain ⟨-, -, hr, ha, hd⟩ := hs.facts
  exact interleave_copies hcomp hstart hperiod _ _ _ _ hr ha hd m

/-- **C129** This includes static noise of any direction. -/
theorem C129_static (s : Sequence ℝ) (hs : s.Constructed) (m : ℕ) (name : Option String) (s' : Sequence ℝ)
    (hm : playedTimes m s name = .ok s') (x y z : ℝ) :
    underNoise (staticNoise x y z) s' = underNoise (staticNoise x y z) s ^ m :=
  C129_power s hs m name s' hm _ (staticNoise_refl x y z) (staticNoise_comp x y z) fun a b => by
    unfold staticNoise
    rw [add_sub_add_right_eq_sub]

/-- **C129** Errors grow at most linearly: quadratic sequences and XY-concatenated ones of order one or two of duration `T`,
played `m` times under static noise, do what the pulses do up to `m (x² + y² + z²) T² / 8`. -/
theorem C129_error (family : Family) (hf : family.Universal) (T : ℝ) (prePost : Bool) (name : Option String)
    (s : Sequence ℝ) (hs : family.call T prePost name = .ok s) (m : ℕ) (name' : Option String) (s' : Sequence ℝ)
    (hm : playedTimes m s name' = .ok s') (x y z : ℝ) :
    ‖underNoise (staticNoise x y z) s' - pulses s'‖ ≤ m * ((x ^ 2 + y ^ 2 + z ^ 2) * T ^ 2 / 8) := by
  obtain ⟨⟨hT, -⟩, hw⟩ := (C43_well_formed family T prePost name).ok hs
  have hc := hw.constructed hT
  have h0 : m ≠ 0 := by
    rintro rfl
    obtain ⟨h, -⟩ := (C33_accepts_iff_real _ _ _ _ _ _).mp ⟨s', hm⟩
    simp at h
  obtain ⟨s'', h1, -, -, h2⟩ := C129_accepted s hc m h0 name'
  rw [hm, Except.ok.injEq] at h1
  subst h1
  rw [h2, C129_static s hc m name' s' hm]
  have hU : ‖underNoise (staticNoise x y z) s‖ ≤ 1 := by
    rw [underNoise_noisy]
    exact (isSU2_noisy (isSU2_static x y z) _ _ _).norm
  have hP : ‖pulses s‖ ≤ 1 := by
    rw [← underNoise_one hc, underNoise_noisy]
    exact (isSU2_noisy (fun _ _ => IsSU2.one) _ _ _).norm
  have hd := C111_universal family hf T prePost name s hs x y z
  generalize underNoise (staticNoise x y z) s = U at hU hd
  generalize pulses s = P at hP hd
  clear h2 hm h0
  induction m with
  | zero => simp
  | succ m ih =>
    have e : U ^ (m + 1) - P ^ (m + 1) = U ^ m * (U - P) + (U ^ m - P ^ m) * P := by
      rw [pow_succ, pow_succ]; noncomm_ring
    have hUm : ‖U ^ m‖ ≤ 1 := by
      clear ih e
      induction m with
      | zero => rw [pow_zero]; exact IsSU2.one.norm
      | succ m ih => rw [pow_succ]; exact (norm_mul_le _ _).trans (mul_le_one₀ ih (norm_nonneg _) hU)
    rw [e]
    refine (norm_add_le _ _).trans ?_
    have a1 : ‖U ^ m * (U - P)‖ ≤ ‖U - P‖ := (norm_mul_le _ _).trans (mul_le_of_le_one_left (norm_nonneg _) hUm)
    have a2 : ‖(U ^ m - P ^ m) * P‖ ≤ ‖U ^ m - P ^ m‖ :=
      (norm_mul_le _ _).trans (mul_le_of_le_one_right (norm_nonneg _) hP)
    push_cast
    linarith

/-- **C129** The order to which dephasing noise is cancelled: with an even number of π-pulses about axes in the XY plane it
stays the same however often the sequence is played.  With an odd number it stays the same if the sequence is played an odd
number of times, and is higher by exactly one if it is played an even number of times. -/
theorem C129_order (s : Sequence ℝ) (hs : s.Constructed) (n : ℕ) (hn : CancelsExactly s n) (m : ℕ) (name : Option String)
    (s' : Sequence ℝ) (hm : playedTimes m s name = .ok s') :
    CancelsExactly s' (if Odd (piPulseTimes s).length ∧ Even m then n + 1 else n) := by
  have h0 : m ≠ 0 := by
    rintro rfl
    obtain ⟨h, -⟩ := (C33_accepts_iff_real _ _ _ _ _ _).mp ⟨s', hm⟩
    simp at h
  rw [played_eq hs h0, Except.ok.injEq] at hm
  have hT := hs.facts.1
  unfold CancelsExactly at hn ⊢
  simp only [sensitivity_switching] at hn ⊢
  rw [show piPulseTimes s' = copies m s.duration (piPulseTimes s) by rw [← hm]; exact piPulseTimes_copies hs m name,
    show s'.duration = m * s.duration by rw [← hm]]
  obtain ⟨a1, a2, a3⟩ := copies_moments hT (piPulseTimes_within hs) hn.1 m
  have hm' : (m : ℝ) ≠ 0 := by exact_mod_cast h0
  by_cases ho : Odd (piPulseTimes s).length
  · have e : ∀ j : ℕ, (-1 : ℝ) ^ (j * (piPulseTimes s).length) = (-1) ^ j := by
      intro j
      rw [mul_comm, pow_mul, ho.neg_one_pow]
    simp only [e, alternating] at a2 a3
    by_cases he : Even m
    · rw [if_pos ⟨ho, he⟩]
      rw [if_pos he, zero_mul] at a2 a3
      refine ⟨fun k hk => ?_, ?_⟩
      · rcases Nat.lt_succ_iff_lt_or_eq.mp hk with hk | rfl
        · exact a1 k hk
        · exact a2
      · obtain ⟨r, rfl⟩ := he
        rw [a3, ← two_mul, alternating_linear, zero_add]
        have hr : (r : ℝ) ≠ 0 := by
          rintro h
          exact hm' (by push_cast; rw [h]; ring)
        refine mul_ne_zero (neg_ne_zero.mpr hr) (mul_ne_zero (mul_ne_zero (by positivity) hT.ne') hn.2)
    · rw [if_neg fun h => he h.2]
      rw [if_neg he, one_mul] at a2
      exact ⟨a1, a2 ▸ hn.2⟩
  · rw [if_neg fun h => ho h.1]
    have e : ∀ j : ℕ, (-1 : ℝ) ^ (j * (piPulseTimes s).length) = 1 := by
      intro j
      rw [mul_comm, pow_mul, (Nat.not_odd_iff_even.mp ho).neg_one_pow, one_pow]
    simp only [e, Finset.sum_const, Finset.card_range, nsmul_eq_mul, mul_one] at a2
    exact ⟨a1, a2 ▸ mul_ne_zero hm' hn.2⟩

theorem cpmgTimes_copies {T : ℝ} {n : ℕ} (hn : n ≠ 0) {m : ℕ} (hm : m ≠ 0) :
    copies m T (cpmgTimes T n) = cpmgTimes (m * T) (m * n) := by
  have key : ∀ k : ℕ, copies k T (cpmgTimes T n) = (List.range' 1 (k * n)).map fun i : ℕ => T / n * ((i : ℝ) - 1 / 2) := by
    intro k
    induction k with
    | zero => simp [copies]
    | succ k ih =>
      rw [copies_succ, ih, add_mul, one_mul, ← List.range'_append_1, List.map_append]
      congr 1
      unfold cpmgTimes
      rw [add_comm 1 (k * n), ← List.map_add_range', List.map_map, List.map_map]
      refine List.map_congr_left fun i _ => ?_
      have : (n : ℝ) ≠ 0 := by exact_mod_cast hn
      simp only [Function.comp]
      push_cast
      field_simp
      ring
  rw [key]
  unfold cpmgTimes
  refine List.map_congr_left fun i _ => ?_
  have h1 : (n : ℝ) ≠ 0 := by exact_mod_cast hn
  have h2 : (m : ℝ) ≠ 0 := by exact_mod_cast hm
  push_cast
  field_simp

/-- a sequence with pulses about one axis, played several times -/
theorem played_family {a : Axis} {f g : Family} {T : ℝ} {l l' : List ℝ} {m : ℕ} (hm : m ≠ 0) (hf : f.table T = onAxis a l)
    (hg : g.table (m * T) = onAxis a l') (hl : copies m T l = l') (hgv : g.Valid) {name : Option String} {s : Sequence ℝ}
    (hs : f.call T false name = .ok s) (name' : Option String) :
    playedTimes m s name' = g.call (m * T) false name' := by
  have flat : ∀ {β γ : Type} (k : ℕ) (l : List β) (v : γ),
      (List.replicate k (l.map fun _ => v)).flatten = List.replicate (k * l.length) v := by
    intro β γ k l v
    rw [List.map_const', List.flatten_replicate_replicate]
  obtain ⟨⟨hT, hv⟩, hw⟩ := (C43_well_formed f T false name).ok hs
  have hm' : (0 : ℝ) < m := by exact_mod_cast Nat.pos_of_ne_zero hm
  rw [played_eq (hw.constructed hT) hm, Family.call_eq hgv (by positivity)]
  rw [Family.call_eq hv hT, Except.ok.injEq] at hs
  subst hs hl
  congr 1
  rw [hf, hg]
  simp only [finished, Bool.false_eq_true, if_false, piSequence, onAxis, List.map_map, Function.comp_def,
    List.map_id', Sequence.mk.injEq, true_and]
  rw [flat, flat, flat]
  simp only [List.map_const', copies_length]
  simp

/-- **C129** Carr-Purcell and CPMG sequences that are played several times are Carr-Purcell and CPMG sequences. -/
theorem C129_carr_purcell (T : ℝ) (n : ℕ) (name : Option String) (s : Sequence ℝ) (m : ℕ) (hm : m ≠ 0)
    (name' : Option String) :
    (newCarrPurcellSequence T n false name = .ok s →
      playedTimes m s name' = newCarrPurcellSequence (m * T) (m * n) false name') ∧
    (newCPMGSequence T n false name = .ok s →
      playedTimes m s name' = newCPMGSequence (m * T) (m * n) false name') := by
  have hm' : (1 : ℝ) ≤ m := by exact_mod_cast Nat.one_le_iff_ne_zero.mpr hm
  have hfl : ⌊(m : ℝ) * n⌋₊ = m * n := by rw [← Nat.cast_mul, Nat.floor_natCast]
  have one : ∀ {c : ℝ}, 1 ≤ c → 1 ≤ m * c := fun h => by nlinarith
  constructor
  · intro hs
    obtain ⟨⟨-, hv⟩, -⟩ := (C43_well_formed (.carrPurcell n) T false name).ok hs
    have hn : n ≠ 0 := by rintro rfl; exact absurd (show (1 : ℝ) ≤ (0 : ℕ) from hv) (by norm_num)
    exact played_family (a := .x) (f := .carrPurcell n) (g := .carrPurcell (m * n)) hm (by simp [Family.table])
      (by simp [Family.table, hfl]) (cpmgTimes_copies hn hm) (one hv) hs name'
  · intro hs
    obtain ⟨⟨-, hv⟩, -⟩ := (C43_well_formed (.cpmg n) T false name).ok hs
    have hn : n ≠ 0 := by rintro rfl; exact absurd (show (1 : ℝ) ≤ (0 : ℕ) from hv) (by norm_num)
    exact played_family (a := .y) (f := .cpmg n) (g := .cpmg (m * n)) hm (by simp [Family.table])
      (by simp [Family.table, hfl]) (cpmgTimes_copies hn hm) (one hv) hs name'

/-- The spin echo (one pulse, order one) played twice cancels two orders; the Uhrig sequence with three pulses played a
hundred times cancels four. -/
example : (∃ s s', newSpinEchoSequence (1 : ℝ) false none = .ok s ∧ playedTimes 2 s none = .ok s' ∧ CancelsExactly s' 2) ∧
    ∃ s s', newUhrigSequence (1 : ℝ) 3 false none = .ok s ∧ playedTimes 100 s none = .ok s' ∧ CancelsExactly s' 4 := by
  constructor
  · obtain ⟨s, hs, hw⟩ := (C43_well_formed .spinEcho 1 false none).1 ⟨by norm_num, trivial⟩
    have hc := hw.constructed one_pos
    obtain ⟨s', h', -⟩ := C129_accepted s hc 2 (by norm_num) none
    refine ⟨s, s', hs, h', ?_⟩
    have := C129_order s hc _ (C72_cancellation_order .spinEcho 1 false none s hs) 2 none s' h'
    rw [Family.call_eq (family := .spinEcho) trivial one_pos, Except.ok.injEq] at hs
    rwa [← hs, piPulseTimes_finished, if_pos] at this
    exact ⟨by simp [Family.table, flipTimes], by decide⟩
  · have hv : Family.Valid (.uhrig 3) := show (1 : ℝ) ≤ 3 by norm_num
    obtain ⟨s, hs, hw⟩ := (C43_well_formed (.uhrig 3) 1 false none).1 ⟨by norm_num, hv⟩
    have hc := hw.constructed one_pos
    obtain ⟨s', h', -⟩ := C129_accepted s hc 100 (by norm_num) none
    refine ⟨s, s', hs, h', ?_⟩
    have := C129_order s hc _ (C72_cancellation_order (.uhrig 3) 1 false none s hs) 100 none s' h'
    rw [Family.call_eq hv one_pos, Except.ok.injEq] at hs
    have h3 : ⌊(3 : ℝ)⌋₊ = 3 := by norm_num
    rw [← hs, piPulseTimes_finished, if_pos] at this
    · simpa [Family.cancellationOrder, h3] using this
    · refine ⟨?_, by decide⟩
      simp only [Family.table, flipTimes_onAxis_y, h3, uhrigTimes, List.length_map, List.length_range']
      decide

/-- The hypotheses of the other theorems are met: the quadratic sequence with three inner and two outer pulses, played ten times. -/
example : ∃ s s', newQuadraticSequence (1 / 10 : ℝ) 3 2 false none = .ok s ∧ playedTimes 10 s none = .ok s' ∧
    s'.duration = 1 ∧ ‖underNoise (staticNoise (1 / 10) 0 (1 / 5)) s' - pulses s'‖ ≤ 1 / 1000 := by
  obtain ⟨s, hs, hw⟩ := (C43_well_formed (.quadratic 3 2) (1 / 10) false none).1
    ⟨by norm_num, show (1 : ℝ) ≤ 3 ∧ (1 : ℝ) ≤ 2 by norm_num⟩
  obtain ⟨s', h', hd, -⟩ := C129_accepted s (hw.constructed (by norm_num)) 10 (by norm_num) none
  refine ⟨s, s', hs, h', by rw [hd, hw.1]; norm_num, ?_⟩
  refine (C129_error (.quadratic 3 2) trivial (1 / 10) false none s hs 10 none s' h' _ _ _).trans ?_
  norm_num

end OpenControls
