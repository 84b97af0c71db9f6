import Verif.Proofs.EndToEnd
import Verif.Props.Conversion

/-!
# C60, C61: predefined sequences on hardware
-/

namespace OpenControls

open Spec RealInst

/-- **C60.** A predefined sequence with at most one pulse at each time converts on every hardware on which there is
room for two π-pulses and a minimum segment between any two of its instants, and the control does what
the ideal sequence does. -/
theorem C60_enough_room (family : Family) (T : ℝ) (prePost : Bool) (name : Option String)
    (s : Sequence ℝ) (hs : family.call T prePost name = .ok s) (hsep : family.Separate prePost)
    (R D m : ℝ) (hR : 0 < R) (hD : 0 < D) (hm : 0 ≤ m) (hroom : Apart (2 * pulseTime R D m + m) s)
    (cname : Option String) :
    ∃ c, convertDDS s R D m cname = .ok c ∧ CarriesOut T prePost s c := by
  obtain ⟨⟨hT, hv⟩, hw⟩ := (C43_well_formed family T prePost name).ok hs
  have hinc := (Family.increasing_iff hs).mpr hsep
  have hcon := hw.constructed hT
  have hst := hw.standard
  have hw0 : 0 ≤ pulseTime R D m := hm.trans (le_max_right _ _)
  have hg := eachGap_of_room hcon hm hinc hw0 (fun p hp => standard_width hR hD hm (hst p hp)) hroom
  have hc := convertible_of_eachGap hR hD hm (fun p hp => (hst p hp).facts.1)
    (fun p hp => (hst p hp).facts.2.1) hinc hg
  obtain ⟨c, hc1, -⟩ := (C46_convertible s hcon R D m cname).1 hc
  have hdur : s.duration = T := hw.1
  refine ⟨c, hc1, ?_, ?_⟩
  · rw [← hdur]
    exact (C47_duration_exact_partial s hcon R D m cname c hc1).1
      (EachGap.mono hg fun g h => hm.trans h)
  · intro h8
    have he := C49_evolution_partial s hcon (by rwa [hdur]) (fun p hp => (hst p hp).facts.2.2.1)
      R D m cname c hc1
    refine ⟨he, fun hpp => ?_⟩
    subst hpp
    rw [he]
    rw [Family.call_eq hv hT] at hs
    injection hs with hs
    subst hs
    exact pulses_withPrePost _ _ _

/-- **C60**, fast hardware: for every such sequence there are rates above which it always converts (with
no minimum segment duration). -/
theorem C60_fast_hardware (family : Family) (T : ℝ) (prePost : Bool) (name : Option String)
    (s : Sequence ℝ) (hs : family.call T prePost name = .ok s) (hsep : family.Separate prePost) :
    ∃ B : ℝ, 0 < B ∧ ∀ R D : ℝ, B ≤ R → B ≤ D → ∀ cname : Option String,
      ∃ c, convertDDS s R D 0 cname = .ok c ∧ CarriesOut T prePost s c := by
  obtain ⟨δ, hδ, h⟩ := exists_least_distance (0 :: s.duration :: s.offsets)
  have hpi := Real.pi_pos
  refine ⟨2 * Real.pi / δ, by positivity, fun R D hR hD cname => ?_⟩
  have hB : 0 < 2 * Real.pi / δ := by positivity
  refine C60_enough_room family T prePost name s hs hsep R D 0 (hB.trans_le hR) (hB.trans_le hD)
    le_rfl ?_ cname
  intro a ha b hb hab
  refine le_trans ?_ (h a ha b hb hab)
  have key : ∀ x : ℝ, 2 * Real.pi / δ ≤ x → Real.pi / x ≤ δ / 2 := by
    intro x hx
    have hx0 := hB.trans_le hx
    rw [div_le_iff₀ hδ] at hx
    rw [div_le_iff₀ hx0]
    linarith
  have : pulseTime R D 0 ≤ δ / 2 := max_le (max_le (key R hR) (key D hD)) (by positivity)
  linarith

/-- **C61.** Exactly the sequences with at most one pulse at each time can be converted on some hardware. -/
theorem C61_convertible_somewhere (family : Family) (T : ℝ) (prePost : Bool)
    (name : Option String) (s : Sequence ℝ) (hs : family.call T prePost name = .ok s) :
    (∃ R D m cname c, convertDDS s R D m cname = .ok c) ↔ family.Separate prePost := by
  obtain ⟨⟨hT, hv⟩, hw⟩ := (C43_well_formed family T prePost name).ok hs
  constructor
  · rintro ⟨R, D, m, cname, c, h⟩
    exact (Family.increasing_iff hs).mp
      (((C46_convertible s (hw.constructed hT) R D m cname).ok h).1).2.2.2.2.2.1
  · intro hsep
    obtain ⟨B, -, h⟩ := C60_fast_hardware family T prePost name s hs hsep
    obtain ⟨c, hc, -⟩ := h B B le_rfl le_rfl none
    exact ⟨B, B, 0, none, c, hc⟩

/-- **C61**, the XY-concatenated sequences of order three and more are rejected by every conversion, whatever the
hardware: they have an X and a Z pulse at the same time. -/
theorem C61_xy_never (T order : ℝ) (h3 : 3 ≤ order) (prePost : Bool) (name : Option String)
    (s : Sequence ℝ) (hs : newXYConcatenatedSequence T order prePost name = .ok s)
    (R D m : ℝ) (cname : Option String) :
    ∃ description, convertDDS s R D m cname = .error (.arguments description) := by
  have hs' : Family.call (.xyConcatenated order) T prePost name = .ok s := hs
  obtain ⟨⟨hT, hv⟩, hw⟩ := (C43_well_formed _ T prePost name).ok hs'
  refine (C46_convertible s (hw.constructed hT) R D m cname).2 fun hc => ?_
  have := (Family.increasing_iff hs').mp hc.2.2.2.2.2.1
  exact absurd this.1 (not_lt.mpr h3)

/-- a CPMG sequence of two pulses and duration 1 has room for pulses of 1/20 -/
example : ∃ s c, newCPMGSequence 1 2 true none = .ok s ∧
    convertDDS s (20 * Real.pi) (20 * Real.pi) 0 none = .ok c ∧ CarriesOut 1 true s c := by
  obtain ⟨s, hs, -⟩ := (C43_well_formed (.cpmg 2) 1 true none).1 ⟨one_pos, by norm_num [Family.Valid]⟩
  have hpi := Real.pi_pos
  have hw : pulseTime (20 * Real.pi) (20 * Real.pi) 0 = 1 / 20 := by
    have : Real.pi / (20 * Real.pi) = 1 / 20 := by field_simp
    rw [pulseTime, this]; norm_num
  obtain ⟨c, hc⟩ := C60_enough_room (.cpmg 2) 1 true none s hs trivial (20 * Real.pi) (20 * Real.pi) 0
    (by positivity) (by positivity) le_rfl (by
      rw [hw]
      rw [Family.call_eq (by norm_num [Family.Valid]) one_pos] at hs
      injection hs with hs
      subst hs
      simp [Apart, finished, withPrePost, piSequence, Family.table, onAxis, cpmgTimes,
        List.range'] 
      norm_num) none
  exact ⟨s, c, hs, hc⟩

/-- the XY-concatenated sequence of order three and duration 1 exists -/
example : ∃ s, newXYConcatenatedSequence (1 : ℝ) 3 false none = .ok s := by
  obtain ⟨s, hs, -⟩ := (C43_well_formed (.xyConcatenated 3) 1 false none).1
    ⟨one_pos, by norm_num [Family.Valid]⟩
  exact ⟨s, hs⟩

end OpenControls
