import Verif.Proofs.Undoing
import Verif.Props.Conversion
import Verif.Props.Families
import Verif.Props.Monotone

/-!
# C95: conversion of reversed, turned and undoing sequences

`R` is the maximum Rabi rate, `D` the maximum detuning rate, `m` the minimum segment duration.
-/

namespace OpenControls

open Spec RealInst

theorem reverse_conversion {s : Sequence ℝ} (hs : s.Constructed) (hT : 1 / 10 ^ 8 < s.duration) {R D m : ℝ}
    {name : Option String} {c : DrivenControl ℝ} (h : convertDDS s R D m name = .ok c) :
    convertDDS (backwards s) R D m name = .ok (reversed c) := by
  obtain ⟨hc, hcases⟩ := converted hs h
  have hb := backwards_constructed hs
  have hcb := hc.backwards hs
  obtain ⟨c', hc', hcases'⟩ := (convertDDS_returns hb R D m name).1 hcb
  rw [hc']
  rcases hcases' with ⟨hsmall, -⟩ | ⟨-, rfl⟩
  · exact absurd (allSmall_duration hb hcb hsmall) (not_le.mpr hT)
  rcases hcases with ⟨hsmall, -⟩ | ⟨-, rfl⟩
  · exact absurd (allSmall_duration hs hc hsmall) (not_le.mpr hT)
  rw [← ofSegments_reverse, ← kept_mirror hs.facts.1, ← pad_backwards, pulseList_backwards hs]
  rfl

/-- **C95.** A sequence converts exactly if the sequence run backwards does, and the control of the one is
the control of the other with its segments in opposite order. -/
theorem C95_backwards (s : Sequence ℝ) (hs : s.Constructed) (hT : 1 / 10 ^ 8 < s.duration) (R D m : ℝ)
    (name : Option String) (c : DrivenControl ℝ) :
    convertDDS s R D m name = .ok c ↔ convertDDS (backwards s) R D m name = .ok (reversed c) := by
  refine ⟨reverse_conversion hs hT, fun h => ?_⟩
  have := reverse_conversion (backwards_constructed hs) hT h
  rwa [backwards_backwards, reversed_reversed] at this

theorem turn_conversion {s : Sequence ℝ} (hs : s.Constructed) (φ : ℝ) {R D m : ℝ}
    {name : Option String} {c : DrivenControl ℝ} (h : convertDDS s R D m name = .ok c) :
    convertDDS (turned φ s) R D m name = .ok (turnedControl φ c) := by
  obtain ⟨hc, hcases⟩ := converted hs h
  obtain ⟨c', hc', hcases'⟩ := (convertDDS_returns (turned_constructed (φ := φ) hs) R D m name).1 hc.turned
  rw [hc', windows_turned] at *
  rcases hcases' with ⟨hsmall, rfl⟩ | ⟨hsmall, rfl⟩
  · rcases hcases with ⟨-, rfl⟩ | ⟨h', -⟩
    · simp [turnedControl, freeEvolution, turned]
    · exact absurd hsmall h'
  · rcases hcases with ⟨h', -⟩ | ⟨-, rfl⟩
    · exact absurd h' hsmall
    · rw [← ofSegments_turned, pulseList_turned]
      rw [← kept_turn hc.1 hc.2.1 ?_ (pad_turn φ _ _)]
      · rfl
      · intro p hp
        rcases pad_mem hp with h | rfl | rfl
        · exact hc.2.2.2.1 p h
        · exact le_rfl
        · exact le_rfl

/-- **C95**, a turned frame: adding an angle to all azimuthal angles of a sequence adds it to the azimuthal
angles of the segments with a Rabi rate, and changes nothing else. -/
theorem C95_turned (s : Sequence ℝ) (hs : s.Constructed) (φ R D m : ℝ) (name : Option String) :
    (∀ c, convertDDS s R D m name = .ok c →
      convertDDS (turned φ s) R D m name = .ok (turnedControl φ c)) ∧
    ((∃ c, convertDDS (turned φ s) R D m name = .ok c) → ∃ c, convertDDS s R D m name = .ok c) := by
  refine ⟨fun c h => turn_conversion hs φ h, fun ⟨c, h⟩ => ?_⟩
  have := turn_conversion (turned_constructed hs) (-φ) h
  rw [turned_turned, add_neg_cancel] at this
  have e : turned 0 s = s := by simp [turned]
  rw [e] at this
  exact ⟨_, this⟩

/-- **C95**, symmetric sequences: every predefined sequence without pre and post rotations, except the
XY-concatenated one, is the same run backwards, and so is the control it converts to. -/
theorem C95_palindromes (family : Family) (hv : family.Valid) (hxy : ∀ l, family ≠ .xyConcatenated l)
    (T : ℝ) (name : Option String) (s : Sequence ℝ) (h : family.call T false name = .ok s) :
    backwards s = s ∧ (1 / 10 ^ 8 < T → ∀ (R D m : ℝ) (name' : Option String) (c : DrivenControl ℝ),
      convertDDS s R D m name' = .ok c → reversed c = c) := by
  have hT : 0 < T := by
    by_contra hT
    rw [Family.call_error family hT] at h
    cases h
  have hxy' : ¬ family.IsXY := by
    cases family with
    | xyConcatenated l => exact absurd rfl (hxy l)
    | _ => exact id
  rw [Family.call_eq hv hT] at h
  cases h
  have hb := backwards_piSequence (Family.table_mirror hv hxy' hT) name
  refine ⟨hb, fun hT' R D m name' c hc => ?_⟩
  have hs : (piSequence T (family.table T) name).Constructed := by
    refine constructed_of_facts hT (fun t ht => ?_) ?_ ?_ ?_
    · obtain ⟨p, hp, rfl⟩ := List.mem_map.mp ht
      have := Family.table_bounds hv hT p hp
      exact ⟨this.1.le, this.2⟩
    all_goals simp [piSequence]
  have := reverse_conversion hs hT' hc
  rw [hb] at this
  exact (Except.ok.inj (hc.symm.trans this)).symm

/-- **C95**: the XY-concatenated sequence of order 1 is not the same run backwards: its last pulse is at the
end, and there is none at the start. -/
theorem C95_xy_not_palindrome (T : ℝ) (hT : 0 < T) (name : Option String) :
    ∃ s, newXYConcatenatedSequence T 1 false name = .ok s ∧ backwards s ≠ s := by
  have hv : (Family.xyConcatenated 1).Valid := le_refl (1 : ℝ)
  refine ⟨_, Family.call_eq hv hT false name, fun h => ?_⟩
  have ho := congrArg Sequence.offsets h
  have hmem : (T, Axis.y) ∈ (Family.xyConcatenated 1).table T := by
    show (T, Axis.y) ∈ xyTable T ⌊(1 : ℝ)⌋₊
    rw [Nat.floor_one, mem_xyTable hT 0]
    refine Or.inr (Or.inl ⟨rfl, ?_⟩)
    rw [mem_xyOffsetsOf (by positivity)]
    exact ⟨4, by decide, by decide, by norm_num; ring⟩
  have h0 : (0 : ℝ) ∈ (finished T ((Family.xyConcatenated 1).table T) false name).offsets := by
    rw [← ho]
    simp only [backwards, List.mem_reverse, List.mem_map]
    exact ⟨T, List.mem_map.mpr ⟨_, hmem, rfl⟩, sub_self T⟩
  obtain ⟨p, hp, h0⟩ := List.mem_map.mp h0
  have := (Family.table_bounds hv hT p hp).1
  rw [h0] at this
  exact lt_irrefl _ this

/-- **C95**, undoing a control: the segments in opposite order with opposite Rabi axes and opposite
detunings undo the evolution of any control. -/
theorem C95_undo_control (c : DrivenControl ℝ) (hc : c.Constructed) :
    evolution (undoingControl c) * evolution c = 1 ∧ evolution c * evolution (undoingControl c) = 1 := by
  obtain ⟨h1, h2, h3, h4⟩ := hc.lengths
  have h := controlEvolution_undoing (h2.trans h1.symm) (h3.trans h1.symm) (h4.trans h1.symm)
  exact ⟨mul_eq_one_comm.mp h, h⟩

/-- **C95**, undoing a sequence: if no pulse has both kinds of rotation, the sequence with the pulses in
opposite order, opposite Rabi axes and opposite detuning rotations converts on the same hardware, with the
segments in opposite order and opposite, and its control undoes the control of the sequence. -/
theorem C95_undo_sequence (s : Sequence ℝ) (hs : s.Constructed) (hT : 1 / 10 ^ 8 < s.duration)
    (hp : ∀ p ∈ pulseList s, p.rabi = 0 ∨ p.detuning = 0) (R D m : ℝ) (name : Option String)
    (c : DrivenControl ℝ) (h : convertDDS s R D m name = .ok c) :
    ∃ c', convertDDS (undoing s) R D m name = .ok c' ∧ evolution c' * evolution c = 1 ∧
      c' = { reversed (turnedControl Real.pi c) with detunings := (c.detunings.map (-·)).reverse } := by
  obtain ⟨hc, hcases⟩ := converted hs h
  have hu := undoing_constructed hs
  have hcu := undoing_convertible hs hp hc
  obtain ⟨c', hc', hcases'⟩ := (convertDDS_returns hu R D m name).1 hcu
  refine ⟨c', hc', ?_, ?_⟩
  · rw [C49_evolution_exact s hs hT R D m name c h, C49_evolution_exact _ hu hT R D m name c' hc',
      pulseList_undoing hs, mul_eq_one_comm, List.map_reverse, List.map_map]
    have : effective ∘ oppositePulse s.duration = oppositePulse s.duration ∘ effective :=
      funext (effective_opposite s.duration)
    rw [this, ← List.map_map]
    exact productOf_undoing _ _
  · rcases hcases' with ⟨hsmall, -⟩ | ⟨-, rfl⟩
    · exact absurd (allSmall_duration hu hcu hsmall) (not_le.mpr hT)
    rcases hcases with ⟨hsmall, -⟩ | ⟨-, rfl⟩
    · exact absurd (allSmall_duration hs hc hsmall) (not_le.mpr hT)
    rw [← ofSegments_opposite, pulseList_undoing hs]
    exact congrArg (ofSegments · name) (kept_opposite hs.facts.1 hc.1 hc.2.1 hc.2.2.2.1)

/-- The hypotheses are met by sequences that are not the same run backwards: an X rotation by 1 a quarter
into a sequence, on good hardware. -/
example : ∃ (s : Sequence ℝ) (R D m : ℝ) (c : DrivenControl ℝ), s.Constructed ∧ 1 / 10 ^ 8 < s.duration ∧
    (∀ p ∈ pulseList s, p.rabi = 0 ∨ p.detuning = 0) ∧ convertDDS s R D m none = .ok c ∧
    backwards s ≠ s ∧ turned 1 s ≠ s ∧ undoing s ≠ s := by
  have hs : (single 1 (1 / 4) 1 0 0).Constructed :=
    single_constructed (by norm_num) (by norm_num) (by norm_num)
  obtain ⟨R, D, m, hR, hD, hm, h⟩ := C93_good_enough (single 1 (1 / 4) 1 0 0) hs
    (by simp [pulseList, single]) (by simp [pulseList, single]) (by simp [single])
  obtain ⟨c, hc⟩ := h R D m le_rfl le_rfl hm.le le_rfl none
  refine ⟨_, R, D, m, c, hs, by norm_num [single], by simp [pulseList, single], hc, fun h => ?_, fun h => ?_,
    fun h => ?_⟩
  · have := congrArg Sequence.offsets h
    norm_num [backwards, single] at this
  · have := congrArg Sequence.azimuthalAngles h
    norm_num [turned, single] at this
  · have := congrArg Sequence.offsets h
    norm_num [undoing, turned, backwards, single] at this

/-- The palindromes are not trivial: Carr-Purcell with four pulses, and a quadratic sequence. -/
example (T : ℝ) (hT : 0 < T) : (∃ s, newCarrPurcellSequence T 4 false none = .ok s ∧ s.offsets.length = 4) ∧
    (Family.carrPurcell 4).Valid ∧ (Family.quadratic 3 2).Valid := by
  have hv : (Family.carrPurcell 4).Valid := by norm_num [Family.Valid]
  refine ⟨⟨_, Family.call_eq hv hT false none, ?_⟩, hv, by norm_num [Family.Valid]⟩
  show ((onAxis .x (cpmgTimes T ⌊(4 : ℝ)⌋₊)).map fun p => p.1).length = 4
  simp [onAxis, cpmgTimes]

end OpenControls
