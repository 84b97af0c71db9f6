import Verif.Spec.Joining
import Verif.Proofs.Joining
import Verif.Props.RoundedAccessors

/-!
# Lemmas on controls and sequences that are played one after another, in every arithmetic and in rounded arithmetic
-/

namespace OpenControls

open Spec PyFloat Py

section
variable {α : Type} [Add α] [Sub α] [Mul α] [Div α] [Neg α] [PyFloat α]

theorem constructed_checks {c : DrivenControl α} (h : c.Constructed) :
    (∀ t ∈ c.durations, gt t (lit 0) = true) ∧ (∀ x ∈ c.rabiRates, ge x (lit 0) = true) ∧
      c.rabiRates.length = c.durations.length ∧ c.azimuthalAngles.length = c.durations.length ∧
      c.detunings.length = c.durations.length := by
  obtain ⟨l1, l2, l3, l4⟩ := h.lengths
  obtain ⟨t, ra, a, d, n, h⟩ := h
  rw [DrivenControl.new_eq] at h
  split at h
  · rename_i h1
    split at h
    · split at h
      · rename_i h3
        cases h
        simp only [List.all_eq_true] at h1 h3
        exact ⟨h1, h3, l1.trans l4.symm, l2.trans l4.symm, l3.trans l4.symm⟩
      · cases h
    · cases h
  · cases h

theorem joinedControl_any {c c' : DrivenControl α} (hc : c.Constructed) (hc' : c'.Constructed) (name : Option String) :
    joinedControl c c' name = .ok (appended c c' name) := by
  obtain ⟨h1, h2, h3, h4, h5⟩ := constructed_checks hc
  obtain ⟨h1', h2', h3', h4', h5'⟩ := constructed_checks hc'
  unfold joinedControl
  rw [DrivenControl.new_eq, if_pos, if_pos, if_pos]
  · rfl
  · simp only [Option.getD_some, List.all_eq_true]
    intro x hx
    rcases List.mem_append.mp hx with h | h
    exacts [h2 x h, h2' x h]
  · simp [h3, h4, h5, h3', h4', h5']
  · simp only [List.all_eq_true]
    intro x hx
    rcases List.mem_append.mp hx with h | h
    exacts [h1 x h, h1' x h]

theorem cumsumFrom_extends (a : α) (l l' : List α) : ∃ b, Py.cumsumFrom a (l ++ l') = Py.cumsumFrom a l ++ Py.cumsumFrom b l' := by
  induction l generalizing a with
  | nil => exact ⟨a, by simp [Py.cumsumFrom]⟩
  | cons x l ih =>
    obtain ⟨b, hb⟩ := ih (a + x)
    exact ⟨b, by simp [Py.cumsumFrom, hb]⟩

theorem npCumsum_extends (l l' : List α) : ∃ m, Py.npCumsum (l ++ l') = Py.npCumsum l ++ m := by
  cases l with
  | nil => exact ⟨Py.npCumsum l', by simp [Py.npCumsum]⟩
  | cons x l =>
    obtain ⟨b, hb⟩ := cumsumFrom_extends x l l'
    exact ⟨Py.cumsumFrom b l', by simp [Py.npCumsum, hb]⟩

end

section
variable {r : Rounding}

theorem sequence_rounded {s : Sequence (Fl r)} (h : s.Constructed) :
    0 < s.duration.val ∧ (∀ t ∈ s.offsets, 0 ≤ t.val ∧ t.val ≤ s.duration.val) ∧
      s.rabiRotations.length = s.offsets.length ∧ s.azimuthalAngles.length = s.offsets.length ∧
      s.detuningRotations.length = s.offsets.length := by
  obtain ⟨T, o, ra, a, d, n, h⟩ := h
  rw [Sequence.new_eq] at h
  split at h
  · rename_i h1
    split at h
    · rename_i h2
      split at h
      · split at h
        · split at h
          · cases h
            simp only [List.all_eq_true, Bool.and_eq_true, Fl.gt_iff, Fl.ge_iff, Fl.val_lit_zero] at h1 h2
            exact ⟨h1, h2, by assumption, by assumption, by assumption⟩
          · cases h
        · cases h
      · cases h
    · cases h
  · cases h

theorem joinedSequence_rounded {s s' : Sequence (Fl r)} (hs : s.Constructed) (hs' : s'.Constructed) (name : Option String) :
    joinedSequence s s' name = .ok ⟨s.duration + s'.duration, s.offsets ++ s'.offsets.map fun t => t + s.duration,
      s.rabiRotations ++ s'.rabiRotations, s.azimuthalAngles ++ s'.azimuthalAngles,
      s.detuningRotations ++ s'.detuningRotations, name⟩ := by
  obtain ⟨hT, ho, hr, ha, hd⟩ := sequence_rounded hs
  obtain ⟨hT', ho', hr', ha', hd'⟩ := sequence_rounded hs'
  have hle : s.duration.val ≤ r.rnd (s.duration.val + s'.duration.val) := by
    have := r.mono (show s.duration.val ≤ s.duration.val + s'.duration.val by linarith)
    rwa [Fl.rnd_val] at this
  unfold joinedSequence
  rw [Sequence.new_eq, if_pos, if_pos, if_pos (by simp [hr, hr']), if_pos (by simp [ha, ha']), if_pos (by simp [hd, hd'])]
  · simp only [List.all_eq_true, Bool.and_eq_true, Fl.ge_iff, Fl.val_lit_zero, Fl.val_add]
    intro t ht
    rcases List.mem_append.mp ht with h | h
    · exact ⟨(ho t h).1, (ho t h).2.trans hle⟩
    · obtain ⟨u, hu, rfl⟩ := List.mem_map.mp h
      refine ⟨r.rnd_nonneg (by linarith [(ho' u hu).1]), r.mono ?_⟩
      linarith [(ho' u hu).2]
  · simp only [Fl.gt_iff, Fl.val_lit_zero, Fl.val_add]
    exact hT.trans_le hle

end

end OpenControls
