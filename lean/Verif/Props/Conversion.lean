import Verif.Proofs.Converted
import Verif.Props.Export

/-!
# C46-C53, C55: from sequences to driven controls
-/

namespace OpenControls

set_option linter.unusedSectionVars false

open Spec

section anyArithmetic
variable {α : Type} [Add α] [Sub α] [Mul α] [Div α] [Neg α] [PyFloat α]
open PyFloat Py

/-- **C46** (any arithmetic) The only exception the conversion raises is `ArgumentsValueError`. -/
theorem C46_only_arguments_error (s : Sequence α) (R D m : α) (name : Option String) (e : PyErr)
    (h : convertDDS s R D m name = .error e) : e.isArguments = true := by
  rw [convertDDS_eq] at h
  simp only [checkArguments_bind] at h
  split at h
  · split at h
    · split at h
      · split at h
        · split at h
          · split at h
            · split at h
              · split at h
                · exact C01_only_arguments_error _ _ _ _ _ _ h
                · exact C01_only_arguments_error _ _ _ _ _ _ h
              · cases h; rfl
            · cases h; rfl
          · cases h; rfl
        · cases h; rfl
      · cases h; rfl
    · cases h; rfl
  · cases h; rfl

end anyArithmetic

open RealInst

/-- **C46.** The conversion returns a control with the given name and at least one segment exactly if
the sequence is convertible, and raises `ArgumentsValueError` otherwise. -/
theorem C46_convertible (s : Sequence ℝ) (hs : s.Constructed) (R D m : ℝ) (name : Option String) :
    Returns (convertDDS s R D m name) (Convertible R D m s)
      (fun c => c.Constructed ∧ c.name = name ∧ c.durations ≠ []) := by
  refine (convertDDS_returns hs R D m name).mono fun c hc h => ?_
  obtain ⟨p, l, he, h1, h2, -⟩ := pad_cons hs hc
  have hm := hc.2.2.1
  rcases h with ⟨-, rfl⟩ | ⟨-, rfl⟩
  · refine ⟨?_, rfl, by simp [freeEvolution]⟩
    rw [DrivenControl.constructed_iff]
    simpa [freeEvolution] using hs.facts.1
  · have hgap := hc.2.2.2.2.2.2
    rw [windows_eq hs] at hgap
    refine ⟨?_, rfl, ?_⟩
    · rw [DrivenControl.constructed_iff]
      refine ⟨?_, by simp [ofSegments], by simp [ofSegments], by simp [ofSegments], ?_⟩
      · intro t ht
        obtain ⟨g, hg, rfl⟩ := List.mem_map.mp ht
        exact mem_kept_pos hg
      · intro x hx
        obtain ⟨g, hg, rfl⟩ := List.mem_map.mp hx
        rcases (mem_kept hgap hg).2 with ⟨p, hp, rfl⟩ | ⟨-, h2, -⟩
        · exact drive_rabi_nonneg hm (pad_rabi hc p hp)
        · rw [h2]
    · intro hnil
      have hε : EachGap (fun g => -(1 / 10 ^ 8) ≤ g)
          ((p :: l).map (window s.duration R D m)) := by
        rw [← he]
        refine EachGap.mono hgap fun g hg => ?_
        have := gap_ge hm hg
        have : (0 : ℝ) ≤ m - 1 / 10 ^ 5 * m := by nlinarith
        linarith
      have h := (total_bounds hm (by norm_num) p l hε).1
      rw [h1, h2, ← he] at h
      have : total (kept s.duration R D m (pad s.duration (pulseList s))) = 0 := by
        unfold total
        rw [show (kept s.duration R D m (pad s.duration (pulseList s))).map Segment.duration = []
          from hnil]
        rfl
      have := hs.facts.1
      linarith

/-- **C47**, what holds of every conversion: the control is never shorter than the sequence, and longer by
at most 1e-8 per gap. -/
theorem C47_duration_bounds (s : Sequence ℝ) (hs : s.Constructed) (R D m : ℝ)
    (name : Option String) (c : DrivenControl ℝ) (h : convertDDS s R D m name = .ok c) :
    s.duration ≤ c.duration ∧
      c.duration ≤ s.duration + (s.offsets.length + 1) * (1 / 10 ^ 8) := by
  obtain ⟨hc, h | h⟩ := converted hs h
  · obtain ⟨-, rfl⟩ := h
    have : (0 : ℝ) ≤ (s.offsets.length + 1) * (1 / 10 ^ 8) := by positivity
    simp only [freeEvolution, DrivenControl.duration, sum_eq, List.sum_singleton]
    exact ⟨le_rfl, by linarith⟩
  · obtain ⟨-, rfl⟩ := h
    obtain ⟨p, l, he, h1, h2, h3⟩ := pad_cons hs hc
    have hg := eachGap_lower hs hc
    rw [he] at hg
    obtain ⟨h4, h5, -⟩ := total_bounds hc.2.2.1 (by norm_num) p l hg
    rw [h1, h2, ← he] at h4 h5
    have h6 : ((l.length : ℕ) : ℝ) * (1 / 10 ^ 8) ≤ (s.offsets.length + 1) * (1 / 10 ^ 8) := by
      have : ((l.length : ℕ) : ℝ) ≤ s.offsets.length + 1 := by exact_mod_cast h3
      nlinarith
    show s.duration ≤ total _ ∧ total _ ≤ _
    exact ⟨by linarith, by linarith⟩

/-- **C47.** The control lasts exactly as long as the sequence if the windows do not overlap; for
sequences longer than 1e-8 only if they do not overlap.  Missing for the full claim: sequences with
overlaps that numpy's tolerance lets through, for which it is false (`C47_false`). -/
theorem C47_duration_exact_partial (s : Sequence ℝ) (hs : s.Constructed) (R D m : ℝ)
    (name : Option String) (c : DrivenControl ℝ) (h : convertDDS s R D m name = .ok c) :
    (NoOverlap R D m s → c.duration = s.duration) ∧
    (1 / 10 ^ 8 < s.duration → c.duration = s.duration → NoOverlap R D m s) := by
  obtain ⟨hc, h | h⟩ := converted hs h
  · have := allSmall_duration hs hc h.1
    obtain ⟨-, rfl⟩ := h
    exact ⟨fun _ => by simp [freeEvolution, DrivenControl.duration],
      fun h' => absurd this (not_le.mpr h')⟩
  · obtain ⟨-, rfl⟩ := h
    obtain ⟨p, l, he, h1, h2, h3⟩ := pad_cons hs hc
    have hg := eachGap_lower hs hc
    rw [he] at hg
    obtain ⟨-, -, h6⟩ := total_bounds hc.2.2.1 (by norm_num) p l hg
    rw [h1, h2, sub_zero, ← he, ← windows_eq hs] at h6
    exact ⟨fun hno => h6.mp hno, fun _ hd => h6.mpr hd⟩

/-- **C47**: no overlap can occur when the minimum segment duration is at least 1.0001e-8. -/
theorem C47_no_overlap (s : Sequence ℝ) (R D m : ℝ) (hc : Convertible R D m s)
    (hm : 10001 / 10 ^ 12 ≤ m) : NoOverlap R D m s := by
  refine EachGap.mono hc.2.2.2.2.2.2 fun g hg => ?_
  have := gap_ge hc.2.2.1 hg
  norm_num at hm this ⊢
  linarith

/-- **C48.** Every segment of the converted control respects the two maximum rates, and is never driven
and detuned at once. -/
theorem C48_rates (s : Sequence ℝ) (hs : s.Constructed) (R D m : ℝ) (name : Option String)
    (c : DrivenControl ℝ) (h : convertDDS s R D m name = .ok c) (k : ℕ) (Ω Δ : ℝ)
    (hΩ : c.rabiRates[k]? = some Ω) (hΔ : c.detunings[k]? = some Δ) :
    0 ≤ Ω ∧ Ω ≤ R ∧ |Δ| ≤ D ∧ (Ω = 0 ∨ Δ = 0) := by
  obtain ⟨hc, h | h⟩ := converted hs h
  · obtain ⟨-, rfl⟩ := h
    have hΩ' : Ω ∈ [(0 : ℝ)] := List.mem_of_getElem? hΩ
    have hΔ' : Δ ∈ [(0 : ℝ)] := List.mem_of_getElem? hΔ
    rw [List.mem_singleton] at hΩ' hΔ'
    subst hΩ' hΔ'
    exact ⟨le_rfl, hc.1.le, by simpa using hc.2.1.le, .inl rfl⟩
  · obtain ⟨-, rfl⟩ := h
    simp only [ofSegments, List.getElem?_map, Option.map_eq_some_iff] at hΩ hΔ
    obtain ⟨g, hg, rfl⟩ := hΩ
    obtain ⟨g', hg', rfl⟩ := hΔ
    rw [hg] at hg'; injection hg' with hg'; subst hg'
    have hgap := hc.2.2.2.2.2.2
    rw [windows_eq hs] at hgap
    obtain ⟨hpos, ⟨p, hp, rfl⟩ | ⟨-, h1, -, h3⟩⟩ := mem_kept hgap (List.mem_of_getElem? hg)
    · have hrabi := pad_rabi hc p hp
      have hw : 0 < width R D m p := hpos
      refine ⟨drive_rabi_nonneg hc.2.2.1 hrabi, ?_, ?_, ?_⟩
      · simp only [pulseSeg, drive]
        split
        · rename_i hn
          show p.rabi / _ ≤ R
          rw [div_le_iff₀ hw]
          have : p.rabi / R ≤ width R D m p := by
            simp only [width, hn, not_false_iff, if_true]; exact le_max_left _ _
          rwa [div_le_iff₀ hc.1, mul_comm] at this
        · split <;> exact hc.1.le
      · simp only [pulseSeg, drive]
        split
        · simpa using hc.2.1.le
        · rename_i hn
          split
          · rename_i hn'
            show |p.detuning / _| ≤ D
            rw [abs_div, abs_of_pos hw, div_le_iff₀ hw]
            have : |p.detuning| / D ≤ width R D m p := by
              simp only [width, hn, hn', if_false, not_false_iff, if_true]; exact le_max_left _ _
            rwa [div_le_iff₀ hc.2.1, mul_comm] at this
          · simpa using hc.2.1.le
      · simp only [pulseSeg, drive]
        split
        · exact .inr rfl
        · split <;> exact .inl rfl
    · rw [h1, h3]
      exact ⟨le_rfl, hc.1.le, by simpa using hc.2.1.le, .inl rfl⟩

/-- **C49**, the exact behaviour: for every sequence longer than 1e-8, the converted control performs the
time-ordered product of the pulses as the conversion takes them. -/
theorem C49_evolution_exact (s : Sequence ℝ) (hs : s.Constructed) (hT : 1 / 10 ^ 8 < s.duration)
    (R D m : ℝ) (name : Option String) (c : DrivenControl ℝ)
    (h : convertDDS s R D m name = .ok c) :
    evolution c = productOf ((pulseList s).map effective) := by
  obtain ⟨hc, h | h⟩ := converted hs h
  · exact absurd (allSmall_duration hs hc h.1) (not_le.mpr hT)
  · obtain ⟨-, rfl⟩ := h
    rw [evolution_kept hc.1 hc.2.1 _ (pad_rabi hc), realisedProduct_pad,
      realisedProduct_effective]

/-- **C49.** The converted control performs exactly the time-ordered product of the ideal pulses, for
every sequence longer than 1e-8 made of pulses that are rotations of a single kind, each by 0 or by
more than 1e-8.  Missing for the full claim: shorter sequences, mixed pulses and smaller rotations, for which it is false
(`C49_false`, `C52_false`, `C53_false`). -/
theorem C49_evolution_partial (s : Sequence ℝ) (hs : s.Constructed)
    (hT : 1 / 10 ^ 8 < s.duration) (hp : ∀ p ∈ pulseList s, PurePulse p) (R D m : ℝ)
    (name : Option String) (c : DrivenControl ℝ) (h : convertDDS s R D m name = .ok c) :
    evolution c = pulses s := by
  obtain ⟨hT0, hb, hr, ha, hd⟩ := hs.facts
  obtain ⟨h1, h2, h3⟩ := pulseList_columns s hr ha hd
  rw [C49_evolution_exact s hs hT R D m name c h, ← realisedProduct_effective,
    realisedProduct_pure hp, h1, h2, h3]
  rfl

/-- **C50.** Every segment of the converted control lasts at least the minimum segment duration up to
numpy's tolerance, and every driven segment exactly at least the minimum. -/
theorem C50_minimum_duration (s : Sequence ℝ) (hs : s.Constructed) (R D m : ℝ)
    (name : Option String) (c : DrivenControl ℝ) (h : convertDDS s R D m name = .ok c) (k : ℕ)
    (t Ω Δ : ℝ) (ht : c.durations[k]? = some t) (hΩ : c.rabiRates[k]? = some Ω)
    (hΔ : c.detunings[k]? = some Δ) :
    m - (1 / 10 ^ 8 + 1 / 10 ^ 5 * m) ≤ t ∧ (¬ (Ω = 0 ∧ Δ = 0) → m ≤ t) := by
  obtain ⟨hc, h | h⟩ := converted hs h
  · obtain ⟨-, rfl⟩ := h
    have hm := hc.2.2.1
    have hΩ' : Ω ∈ [(0 : ℝ)] := List.mem_of_getElem? hΩ
    have hΔ' : Δ ∈ [(0 : ℝ)] := List.mem_of_getElem? hΔ
    have ht' : t ∈ [s.duration] := List.mem_of_getElem? ht
    rw [List.mem_singleton] at hΩ' hΔ' ht'
    subst hΩ' hΔ' ht'
    refine ⟨?_, fun h => absurd ⟨rfl, rfl⟩ h⟩
    by_contra hlt
    push Not at hlt
    -- every gap is at least the left-hand side, so some gap is longer than the whole sequence
    obtain ⟨p, l, he, h1, h2, -⟩ := pad_cons hs hc
    have hgap := hc.2.2.2.2.2.2
    rw [windows_eq hs, he] at hgap
    have hT := hs.facts.1
    have hge : EachGap (fun g => m - (1 / 10 ^ 8 + 1 / 10 ^ 5 * m) ≤ g)
        ((p :: l).map (window s.duration R D m)) := EachGap.mono hgap fun g hg => gap_ge hm hg
    have hno : EachGap (fun g => 0 ≤ g) ((p :: l).map (window s.duration R D m)) :=
      EachGap.mono hge fun g hg => by linarith
    cases l with
    | nil =>
      simp only [List.getLast_singleton] at h2
      have h5 := window_width s.duration R D m p
      have ha := (pad_shape hT (pulseList s) (by
        obtain ⟨hT, hb, hr, ha, hd⟩ := hs.facts
        rw [pulseList_offsets s hr ha hd]; exact hc.2.2.2.2.2.1) (by
        obtain ⟨hT, hb, hr, ha, hd⟩ := hs.facts
        intro p hp
        exact hb _ (pulseList_offsets s hr ha hd ▸ List.mem_map_of_mem hp))).2
      obtain ⟨a, mid, b, he', -⟩ := ha
      rw [he] at he'
      simp at he'
    | cons q r =>
      simp only [EachGap, List.map_cons, List.isChain_cons_cons] at hge
      have h3 := (windows_inside hm p (q :: r) hno p (by simp))
      have h4 := (windows_inside hm p (q :: r) hno q (by simp))
      rw [h2] at h4
      have h5 := window_width s.duration R D m p
      have h6 := width_nonneg hm R D p
      have h7 := window_width s.duration R D m q
      have h8 := width_nonneg hm R D q
      linarith [hge.1, h4.2]
  · obtain ⟨-, rfl⟩ := h
    have hm := hc.2.2.1
    simp only [ofSegments, List.getElem?_map, Option.map_eq_some_iff] at hΩ hΔ ht
    obtain ⟨g, hg, rfl⟩ := hΩ
    obtain ⟨g', hg', rfl⟩ := hΔ
    rw [hg] at hg'; injection hg' with hg'; subst hg'
    obtain ⟨g', hg', rfl⟩ := ht
    rw [hg] at hg'; injection hg' with hg'; subst hg'
    have hgap := hc.2.2.2.2.2.2
    rw [windows_eq hs] at hgap
    have htol : (0 : ℝ) ≤ 1 / 10 ^ 8 + 1 / 10 ^ 5 * m := by positivity
    obtain ⟨hpos, ⟨p, hp, rfl⟩ | ⟨h0, h1, -, h3⟩⟩ := mem_kept hgap (List.mem_of_getElem? hg)
    · have hw : 0 < width R D m p := hpos
      have : m ≤ width R D m p := by
        unfold width at hw ⊢
        split
        · exact le_max_right _ _
        · split
          · exact le_max_right _ _
          · rename_i h1 h2
            simp [h1, h2] at hw
      exact ⟨by show _ ≤ width R D m p; linarith, fun _ => this⟩
    · exact ⟨gap_ge hm h0, fun h => absurd ⟨h1, h3⟩ h⟩

/-- **C51.** If the windows do not overlap, the converted control of a sequence longer than 1e-8 drives
at each time with the rate and phase of the pulse in whose window the time is, and is idle at the
times outside of all windows. -/
theorem C51_waveform (s : Sequence ℝ) (hs : s.Constructed) (hT : 1 / 10 ^ 8 < s.duration)
    (R D m : ℝ) (hno : NoOverlap R D m s) (name : Option String) (c : DrivenControl ℝ)
    (h : convertDDS s R D m name = .ok c) (t : ℝ) :
    (∀ p ∈ pulseList s, (window s.duration R D m p).1 ≤ t → t < (window s.duration R D m p).2 →
      DrivesAt c t (drive R D m p)) ∧
    (0 ≤ t → t < s.duration →
      (∀ p ∈ pulseList s,
        ¬ ((window s.duration R D m p).1 ≤ t ∧ t < (window s.duration R D m p).2)) →
      DrivesAt c t (0, 0, 0)) := by
  obtain ⟨hc, h | h⟩ := converted hs h
  · exact absurd (allSmall_duration hs hc h.1) (not_le.mpr hT)
  · obtain ⟨-, rfl⟩ := h
    obtain ⟨p, l, he, h1, h2, -⟩ := pad_cons hs hc
    unfold NoOverlap at hno
    rw [windows_eq hs, he] at hno
    obtain ⟨hA, hB⟩ := drives_kept hc.2.2.1 p l hno t
    rw [h1, sub_zero, ← he] at hA
    rw [h1, sub_zero, h2, ← he] at hB
    constructor
    · intro x hx h3 h4
      exact drivesAt_ofSegments _ _ _ _ (hA x (mem_pad hx) h3 h4)
    · intro h3 h4 h5
      refine drivesAt_ofSegments _ _ _ _ (hB h3 h4 ?_)
      intro x hx hin
      rcases pad_mem hx with h' | rfl | rfl
      · exact h5 x h' hin
      · have := window_width s.duration R D m (idlePulse 0)
        rw [width_idle] at this
        linarith [hin.1, hin.2]
      · have := window_width s.duration R D m (idlePulse s.duration)
        rw [width_idle] at this
        linarith [hin.1, hin.2]

/-- **C51**: what a control does at a time is unique. -/
theorem C51_unique (c : DrivenControl ℝ) (hc : c.Constructed) (t : ℝ) (v w : ℝ × ℝ × ℝ)
    (hv : DrivesAt c t v) (hw : DrivesAt c t w) : v = w := by
  obtain ⟨hd, -⟩ := (DrivenControl.constructed_iff c).mp hc
  have mono : ∀ i j, i ≤ j → (c.durations.take i).sum ≤ (c.durations.take j).sum := by
    intro i j hij
    obtain ⟨k, rfl⟩ := Nat.exists_eq_add_of_le hij
    rw [List.take_add, List.sum_append]
    have : 0 ≤ ((c.durations.drop i).take k).sum := List.sum_nonneg fun x hx =>
      (hd x (List.mem_of_mem_drop (List.mem_of_mem_take hx))).le
    linarith
  obtain ⟨i, a1, a2, a3, a4, a5⟩ := hv
  obtain ⟨j, b1, b2, b3, b4, b5⟩ := hw
  have hij : i = j := by
    rcases lt_trichotomy i j with h | h | h
    · have := mono (i + 1) j h; linarith
    · exact h
    · have := mono (j + 1) i h; linarith
  subst hij
  rw [a1] at b1; rw [a2] at b2; rw [a3] at b3
  injection b1 with b1; injection b2 with b2; injection b3 with b3
  exact Prod.ext b1 (Prod.ext b2 b3)

/-- **C52.** A sequence with a pulse that has a positive rotation of both kinds is rejected.  Missing
for the full claim: negative detuning rotations, for which it is false (`C52_false`). -/
theorem C52_rejected_partial (s : Sequence ℝ) (hs : s.Constructed)
    (h : ∃ p ∈ pulseList s, 0 < p.rabi ∧ 0 < p.detuning) (R D m : ℝ) (name : Option String) :
    ∃ description, convertDDS s R D m name = .error (.arguments description) := by
  obtain ⟨p, hp, hb⟩ := h
  exact (C46_convertible s hs R D m name).2 fun hc => hc.2.2.2.2.1 p hp hb

/-- **C53**, what happens on short time scales: every sequence of at most 1e-8 whose windows do not
overlap becomes free evolution, whatever its pulses. -/
theorem C53_short_is_free (s : Sequence ℝ) (hs : s.Constructed) (hT : s.duration ≤ 1 / 10 ^ 8)
    (R D m : ℝ) (hno : NoOverlap R D m s) (name : Option String) (c : DrivenControl ℝ)
    (h : convertDDS s R D m name = .ok c) :
    c = ⟨[0], [0], [0], [s.duration], name⟩ ∧ evolution c = 1 := by
  obtain ⟨hc, h | h⟩ := converted hs h
  · refine ⟨h.2, ?_⟩
    rw [h.2]
    show controlEvolution [] [] [] [] * segmentUnitary 0 0 0 s.duration = 1
    rw [segmentUnitary_idle]; simp [controlEvolution]
  · exact absurd (small_allSmall hs hc hno hT) h.1

/-- **C53.** The conversion does not depend on the unit of time: a sequence made `k` times longer, on
hardware that is `k` times slower, converts to the control made `k` times slower.  Proved for gaps
that respect the minimum exactly and for sequences longer than 1e-8 before and after.  Missing for the full claim:
everything shorter, for which it is false (`C53_false`). -/
theorem C53_scaling_partial (s : Sequence ℝ) (hs : s.Constructed) (k : ℝ) (hk : 0 < k)
    (R D m : ℝ) (hgap : EachGap (fun g => m ≤ g) (windows R D m s))
    (hT : 1 / 10 ^ 8 < s.duration) (hkT : 1 / 10 ^ 8 < k * s.duration) (name : Option String)
    (c : DrivenControl ℝ) (h : convertDDS s R D m name = .ok c) :
    convertDDS (stretch k s) (R / k) (D / k) (k * m) name = .ok (slowDown k c) := by
  obtain ⟨hc, h | h⟩ := converted hs h
  · exact absurd (allSmall_duration hs hc h.1) (not_le.mpr hT)
  obtain ⟨-, rfl⟩ := h
  have hs' := stretch_constructed hk hs
  have hc' := stretch_convertible hk hs hc hgap
  obtain ⟨c', hc1, hc2⟩ := (convertDDS_returns hs' (R / k) (D / k) (k * m) name).1 hc'
  rw [hc1]
  rcases hc2 with h | h
  · exact absurd (allSmall_duration hs' hc' h.1) (not_le.mpr hkT)
  · rw [h.2, ofSegments_stretch hk]

/-- The hypotheses of C47-C51 and C53 are met: a spin echo with a minimum segment duration, whose windows do
not overlap, has a pure pulse and lasts longer than 1e-8. -/
theorem conversion_witness : ∃ (s : Sequence ℝ) (c : DrivenControl ℝ), s.Constructed ∧
    1 / 10 ^ 8 < s.duration ∧ NoOverlap (10 * Real.pi) 1 (1 / 10) s ∧
    EachGap (fun g => 1 / 10 ≤ g) (windows (10 * Real.pi) 1 (1 / 10) s) ∧
    (∀ p ∈ pulseList s, PurePulse p) ∧ pulseList s ≠ [] ∧
    convertDDS s (10 * Real.pi) 1 (1 / 10) none = .ok c := by
  have hpi := Real.pi_pos
  have hs : (single 1 (1 / 2) Real.pi 0 0).Constructed :=
    single_constructed (by norm_num) (by norm_num) (by norm_num)
  have hn : ¬ Negligible Real.pi := by
    unfold Negligible; rw [abs_of_pos hpi]
    have := Real.pi_gt_three
    norm_num; linarith
  have hw : windows (10 * Real.pi) 1 (1 / 10) (single 1 (1 / 2) Real.pi 0 0) =
      [(0, 0), (9 / 20, 11 / 20), (1, 1)] := by
    rw [single_windows (by norm_num) (by norm_num)]
    have : width (10 * Real.pi) 1 (1 / 10) ⟨1 / 2, Real.pi, 0, 0⟩ = 1 / 10 := by
      simp only [width, hn, not_false_iff, if_true]
      rw [show Real.pi / (10 * Real.pi) = 1 / 10 by field_simp, max_self]
    rw [this]
    norm_num
  have hconv : Convertible (10 * Real.pi) 1 (1 / 10) (single 1 (1 / 2) Real.pi 0 0) := by
    refine ⟨by positivity, by norm_num, by norm_num, ?_, ?_, by simp [single], ?_⟩
    · simp [pulseList, single, hpi.le]
    · simp [pulseList, single]
    · rw [hw]
      simp only [EachGap, List.isChain_cons_cons]
      norm_num
  obtain ⟨c, hc, -⟩ := (C46_convertible _ hs (10 * Real.pi) 1 (1 / 10) none).1 hconv
  refine ⟨_, c, hs, by simp [single]; norm_num, ?_, ?_, ?_, by simp [pulseList, single], hc⟩
  · rw [NoOverlap, hw]
    simp only [EachGap, List.isChain_cons_cons]
    norm_num
  · rw [hw]
    simp only [EachGap, List.isChain_cons_cons]
    norm_num
  · simp [pulseList, single, PurePulse, hn]

/-! ### Claims that are false of the code, with witnesses -/

/-- **C47** is false in general: one X rotation that takes slightly longer than the sequence. -/
theorem C47_false : ¬ ∀ (s : Sequence ℝ), s.Constructed → ∀ (R D m : ℝ) (name : Option String)
    (c : DrivenControl ℝ), convertDDS s R D m name = .ok c → c.duration = s.duration := by
  intro hall
  have hs : (single 1 (1 / 2) (1 + 2 / 10 ^ 9) 0 0).Constructed :=
    single_constructed (by norm_num) (by norm_num) (by norm_num)
  have hn : ¬ Negligible (1 + 2 / 10 ^ 9 : ℝ) := by
    unfold Negligible; rw [abs_of_pos (by norm_num)]; norm_num
  have hw : windows 1 1 0 (single 1 (1 / 2) (1 + 2 / 10 ^ 9) 0 0) =
      [(0, 0), (-(1 / 10 ^ 9), 1 + 1 / 10 ^ 9), (1, 1)] := by
    rw [single_windows (by norm_num) (by norm_num)]
    have : width 1 1 0 ⟨1 / 2, 1 + 2 / 10 ^ 9, 0, 0⟩ = 1 + 2 / 10 ^ 9 := by
      simp only [width, hn, not_false_iff, if_true]
      rw [div_one, max_eq_left (by norm_num)]
    rw [this]
    norm_num
  have hconv : Convertible 1 1 0 (single 1 (1 / 2) (1 + 2 / 10 ^ 9) 0 0) := by
    refine ⟨by norm_num, by norm_num, le_rfl, ?_, ?_, by simp [single], ?_⟩
    · simp [pulseList, single]; norm_num
    · simp [pulseList, single]
    · rw [hw]
      simp only [EachGap, List.isChain_cons_cons, NearValue]
      norm_num
  obtain ⟨c, hc, -⟩ := (C46_convertible _ hs 1 1 0 none).1 hconv
  have h1 := hall _ hs 1 1 0 none c hc
  have h2 := (C47_duration_exact_partial _ hs 1 1 0 none c hc).2 (by simp [single]; norm_num) h1
  rw [NoOverlap, hw] at h2
  simp only [EachGap, List.isChain_cons_cons] at h2
  norm_num at h2

/-- **C49** is false for rotations of at most 1e-8: they are dropped. -/
theorem C49_false : ∃ (s : Sequence ℝ) (c : DrivenControl ℝ), s.Constructed ∧
    1 / 10 ^ 8 < s.duration ∧ (∀ p ∈ pulseList s, p.rabi = 0 ∨ p.detuning = 0) ∧
    convertDDS s 1 1 0 none = .ok c ∧ evolution c = 1 ∧ evolution c ≠ pulses s := by
  have hs : (single 1 (1 / 2) (1 / 10 ^ 8) 0 0).Constructed :=
    single_constructed (by norm_num) (by norm_num) (by norm_num)
  have hn : Negligible (1 / 10 ^ 8 : ℝ) := by
    unfold Negligible; rw [abs_of_pos (by norm_num)]
  have hn0 : Negligible (0 : ℝ) := by simp [Negligible]
  have hw : windows 1 1 0 (single 1 (1 / 2) (1 / 10 ^ 8) 0 0) =
      [(0, 0), (1 / 2, 1 / 2), (1, 1)] := by
    rw [single_windows (by norm_num) (by norm_num)]
    have : width 1 1 0 ⟨1 / 2, 1 / 10 ^ 8, 0, 0⟩ = 0 := by simp only [width, hn, hn0]; simp
    rw [this]
    norm_num
  have hconv : Convertible 1 1 0 (single 1 (1 / 2) (1 / 10 ^ 8) 0 0) := by
    refine ⟨by norm_num, by norm_num, le_rfl, ?_, ?_, by simp [single], ?_⟩
    · simp [pulseList, single]
    · simp [pulseList, single]
    · rw [hw]
      simp only [EachGap, List.isChain_cons_cons]
      norm_num
  obtain ⟨c, hc, -⟩ := (C46_convertible _ hs 1 1 0 none).1 hconv
  have he := C49_evolution_exact _ hs (by simp [single]; norm_num) 1 1 0 none c hc
  rw [← realisedProduct_effective] at he
  have he1 : evolution c = 1 := by
    rw [he]
    simp only [pulseList, single, List.zip_cons_cons, List.zipWith_cons_cons, List.zip_nil_left,
      List.zipWith_nil_left, realisedProduct, realised, hn, hn0]
    simp
  refine ⟨_, c, hs, by simp [single]; norm_num, by simp [pulseList, single], hc, he1, ?_⟩
  rw [he1, pulses_single, pulseUnitary_eq_segmentUnitary, segmentUnitary_resonant, rotation_eq,
    ← su2_one]
  intro heq
  have h2 := (su2_inj.mp heq).2.1
  have h3 : 0 < Real.sin (1 / 10 ^ 8 * 1 / 2) :=
    Real.sin_pos_of_pos_of_lt_pi (by norm_num) (by have := Real.pi_gt_three; linarith)
  simp only [Real.cos_zero, mul_one] at h2 h3
  linarith

/-- **C52** is false for negative detuning rotations: a pulse with Rabi rotation π and detuning rotation −π
is accepted, and its detuning part is dropped. -/
theorem C52_false : ∃ (s : Sequence ℝ) (c : DrivenControl ℝ), s.Constructed ∧
    (∃ p ∈ pulseList s, p.rabi = Real.pi ∧ p.detuning = -Real.pi) ∧
    convertDDS s (10 * Real.pi) 1 0 none = .ok c ∧ evolution c = rotation Real.pi 0 ∧
    evolution c ≠ pulses s := by
  have hpi := Real.pi_pos
  have hs : (single 1 (1 / 2) Real.pi 0 (-Real.pi)).Constructed :=
    single_constructed (by norm_num) (by norm_num) (by norm_num)
  have hn : ¬ Negligible Real.pi := by
    unfold Negligible; rw [abs_of_pos hpi]
    have := Real.pi_gt_three
    norm_num; linarith
  have hw : windows (10 * Real.pi) 1 0 (single 1 (1 / 2) Real.pi 0 (-Real.pi)) =
      [(0, 0), (9 / 20, 11 / 20), (1, 1)] := by
    rw [single_windows (by norm_num) (by norm_num)]
    have : width (10 * Real.pi) 1 0 ⟨1 / 2, Real.pi, 0, -Real.pi⟩ = 1 / 10 := by
      simp only [width, hn, not_false_iff, if_true]
      rw [show Real.pi / (10 * Real.pi) = 1 / 10 by field_simp, max_eq_left (by norm_num)]
    rw [this]
    norm_num
  have hconv : Convertible (10 * Real.pi) 1 0 (single 1 (1 / 2) Real.pi 0 (-Real.pi)) := by
    refine ⟨by positivity, by norm_num, le_rfl, ?_, ?_, by simp [single], ?_⟩
    · simp [pulseList, single, hpi.le]
    · simp [pulseList, single, hpi.le]
    · rw [hw]
      simp only [EachGap, List.isChain_cons_cons]
      norm_num
  obtain ⟨c, hc, -⟩ := (C46_convertible _ hs (10 * Real.pi) 1 0 none).1 hconv
  have he := C49_evolution_exact _ hs (by simp [single]; norm_num) _ 1 0 none c hc
  rw [← realisedProduct_effective] at he
  have he1 : evolution c = rotation Real.pi 0 := by
    rw [he]
    simp only [pulseList, single, List.zip_cons_cons, List.zipWith_cons_cons, List.zip_nil_left,
      List.zipWith_nil_left, realisedProduct, realised, hn]
    simp only [not_false_iff, if_true, one_mul]
    rw [pulseUnitary_eq_segmentUnitary, segmentUnitary_resonant, mul_one]
  refine ⟨_, c, hs, ⟨⟨1 / 2, Real.pi, 0, -Real.pi⟩, by simp [pulseList, single], rfl, rfl⟩, hc,
    he1, ?_⟩
  have h2 : (0 : ℝ) < Real.sqrt 2 := Real.sqrt_pos.mpr (by norm_num)
  have h2' : Real.sqrt 2 ^ 2 = 2 := Real.sq_sqrt (by norm_num)
  rw [he1, pulses_single, pulseUnitary_eq_segmentUnitary, rotation_eq,
    segmentUnitary_eq Real.pi 0 (-Real.pi) 1 (Real.pi * Real.sqrt 2)
      (by rw [mul_pow, h2']; ring) (by positivity)]
  intro heq
  have h3 := (su2_inj.mp heq).1
  rw [Real.cos_pi_div_two] at h3
  have h4 : Real.cos (Real.pi * Real.sqrt 2 * 1 / 2) < 0 := by
    apply Real.cos_neg_of_pi_div_two_lt_of_lt
    · have : 1 < Real.sqrt 2 := by
        rw [show (1 : ℝ) = Real.sqrt 1 by simp]; exact Real.sqrt_lt_sqrt (by norm_num) (by norm_num)
      nlinarith
    · have : Real.sqrt 2 < 2 := by nlinarith
      nlinarith
  linarith

/-- **C53** is false on short time scales: a sequence of 10 ns with one X pulse of 1 ns becomes free
evolution, while the same sequence ten times slower becomes an X pulse. -/
theorem C53_false : ∃ (s : Sequence ℝ) (R : ℝ) (c c' : DrivenControl ℝ), s.Constructed ∧
    convertDDS s R 1 0 none = .ok c ∧
    convertDDS (stretch 10 s) (R / 10) (1 / 10) (10 * 0) none = .ok c' ∧
    evolution c = 1 ∧ evolution c' = rotation Real.pi 0 ∧ pulses s = rotation Real.pi 0 := by
  have hpi := Real.pi_pos
  have hs : (single (1 / 10 ^ 8) (5 / 10 ^ 9) Real.pi 0 0).Constructed :=
    single_constructed (by norm_num) (by norm_num) (by norm_num)
  have hn : ¬ Negligible Real.pi := by
    unfold Negligible; rw [abs_of_pos hpi]
    have := Real.pi_gt_three
    norm_num; linarith
  have hw : windows (10 ^ 9 * Real.pi) 1 0 (single (1 / 10 ^ 8) (5 / 10 ^ 9) Real.pi 0 0) =
      [(0, 0), (9 / (2 * 10 ^ 9), 11 / (2 * 10 ^ 9)), (1 / 10 ^ 8, 1 / 10 ^ 8)] := by
    rw [single_windows (by norm_num) (by norm_num)]
    have : width (10 ^ 9 * Real.pi) 1 0 ⟨5 / 10 ^ 9, Real.pi, 0, 0⟩ = 1 / 10 ^ 9 := by
      simp only [width, hn, not_false_iff, if_true]
      rw [show Real.pi / (10 ^ 9 * Real.pi) = 1 / 10 ^ 9 by field_simp, max_eq_left (by norm_num)]
    rw [this]
    norm_num
  have hgap : EachGap (fun g => 0 ≤ g)
      (windows (10 ^ 9 * Real.pi) 1 0 (single (1 / 10 ^ 8) (5 / 10 ^ 9) Real.pi 0 0)) := by
    rw [hw]
    simp only [EachGap, List.isChain_cons_cons]
    norm_num
  have hconv : Convertible (10 ^ 9 * Real.pi) 1 0
      (single (1 / 10 ^ 8) (5 / 10 ^ 9) Real.pi 0 0) := by
    refine ⟨by positivity, by norm_num, le_rfl, ?_, ?_, by simp [single], ?_⟩
    · simp [pulseList, single, hpi.le]
    · simp [pulseList, single, hpi.le]
    · rw [hw]
      simp only [EachGap, List.isChain_cons_cons]
      norm_num
  obtain ⟨c, hc, -⟩ := (C46_convertible _ hs (10 ^ 9 * Real.pi) 1 0 none).1 hconv
  have hs' := stretch_constructed (k := 10) (by norm_num) hs
  have hconv' := stretch_convertible (k := 10) (by norm_num) hs hconv hgap
  obtain ⟨c', hc', -⟩ := (C46_convertible _ hs' _ _ _ none).1 hconv'
  have hp : pulses (single (1 / 10 ^ 8) (5 / 10 ^ 9) Real.pi 0 0) = rotation Real.pi 0 := by
    rw [pulses_single, pulseUnitary_eq_segmentUnitary, segmentUnitary_resonant, mul_one]
  refine ⟨_, _, c, c', hs, hc, hc', ?_, ?_, hp⟩
  · exact (C53_short_is_free _ hs (by simp [single]) _ 1 0 hgap none c hc).2
  · rw [C49_evolution_partial _ hs' (by simp only [stretch, single]; norm_num) ?_ _ _ _ none c' hc', ← hp]
    · rfl
    · simp [pulseList, stretch, single, PurePulse, hn]

/-! ### Export of a sequence to a file -/

section anyArithmetic
variable {α : Type} [Add α] [Sub α] [Mul α] [Div α] [Neg α] [PyFloat α]

/-- **C55** (any arithmetic) Exporting a sequence to a file is exporting the converted control (with the
sequence's name): same outcome, same file.  It succeeds if and only if the conversion and that
export succeed, and a failure leaves the file system untouched. -/
theorem C55_export_to_file (s : Sequence α) (fs fs' : FileSystem α)
    (filename fileFormat fileType coordinates : String) (R D : α) (r : Except PyErr Unit)
    (hr : s.exportToFile fs filename fileFormat fileType coordinates R D = (r, fs')) :
    (∀ c, convertDDS s R D (PyFloat.lit 0) s.name = .ok c →
      c.exportToFile fs filename fileFormat fileType coordinates = (r, fs')) ∧
    (r = .ok () ↔ ∃ c, convertDDS s R D (PyFloat.lit 0) s.name = .ok c ∧
      (c.exportToFile fs filename fileFormat fileType coordinates).1 = .ok ()) ∧
    (∀ e, convertDDS s R D (PyFloat.lit 0) s.name = .error e → r = .error e) ∧
    (∀ e, r = .error e → fs' = fs) := by
  unfold Sequence.exportToFile at hr
  cases hc : convertDDS s R D (PyFloat.lit 0) s.name with
  | error e =>
    rw [hc] at hr
    simp only [Prod.mk.injEq] at hr
    obtain ⟨rfl, rfl⟩ := hr
    simp
  | ok c =>
    rw [hc] at hr
    replace hr : c.exportToFile fs filename fileFormat fileType coordinates = (r, fs') := hr
    refine ⟨?_, ?_, ?_, ?_⟩
    · rintro c' h; injection h with h; subst h; exact hr
    · constructor
      · intro h; exact ⟨c, rfl, by rw [hr]; exact h⟩
      · rintro ⟨c', h, h'⟩; injection h with h; subst h; rw [hr] at h'; exact h'
    · intro e h; cases h
    · exact (C13_file_effects c (convertDDS_constructed hc) fs fs' filename fileFormat fileType
        coordinates r hr).1

end anyArithmetic

/-- **C55**: an unnamed sequence (the default of every predefined constructor) can never be exported as
CSV: if it converts, the call raises `KeyError`. -/
theorem C55_unnamed_csv (s : Sequence ℝ) (hs : s.Constructed) (hname : s.name = none)
    (fs : FileSystem ℝ) (filename coordinates : String)
    (hc : coordinates = "cartesian" ∨ coordinates = "cylindrical") (R D : ℝ)
    (hconv : Convertible R D 0 s) :
    s.exportToFile fs filename "Q-CTRL expanded" "CSV" coordinates R D =
      (.error (.keyError "name"), fs) := by
  obtain ⟨c, h1, h2, h3, h4⟩ := (C46_convertible s hs R D 0 none).1 hconv
  have h1' : convertDDS s R D (PyFloat.lit 0) s.name = .ok c := by simpa [hname] using h1
  have h5 := (C55_export_to_file s fs
    (s.exportToFile fs filename "Q-CTRL expanded" "CSV" coordinates R D).2 filename
    "Q-CTRL expanded" "CSV" coordinates R D
    (s.exportToFile fs filename "Q-CTRL expanded" "CSV" coordinates R D).1 rfl).1 c h1'
  rw [Prod.mk.eta] at h5
  rw [← h5]
  refine C11_unnamed_key_error c fs filename coordinates h3 ?_ hc
  rw [← h2.lengths.2.2.2]
  exact List.length_pos_iff.mpr h4

end OpenControls
