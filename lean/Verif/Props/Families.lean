import Verif.Proofs.Families
import Verif.Props.Sequences
import Verif.Props.Walsh
import Verif.Props.Concatenated

/-!
# C43: what all predefined sequences have in common
-/

namespace OpenControls

open Spec RealInst

/-- **C43.** Every predefined constructor accepts exactly positive durations and valid orders, and
returns a well-formed sequence: complete, with all pulses in `[0, T]`, each of them a π-pulse about
X, Y or Z or a pre or post rotation. -/
theorem C43_well_formed (family : Family) (T : ℝ) (prePost : Bool) (name : Option String) :
    Returns (family.call T prePost name) (0 < T ∧ family.Valid) (WellFormed T prePost) := by
  constructor
  · rintro ⟨hT, hv⟩
    refine ⟨_, Family.call_eq hv hT prePost name, ?_⟩
    have hb := Family.table_bounds hv hT
    have hpi : ∀ (table : List (ℝ × Axis)) (i : ℕ) (r a d : ℝ),
        (table.map fun p => p.2.rabi)[i]? = some r →
        (table.map fun p => p.2.azimuthal)[i]? = some a →
        (table.map fun p => p.2.detuning)[i]? = some d →
        ∃ axis : Axis, r = axis.rabi ∧ a = axis.azimuthal ∧ d = axis.detuning := by
      intro table i r a d h1 h2 h3
      rw [List.getElem?_map] at h1 h2 h3
      cases h : table[i]? with
      | none => rw [h] at h1; simp at h1
      | some p =>
        rw [h] at h1 h2 h3
        simp only [Option.map_some, Option.some.injEq] at h1 h2 h3
        exact ⟨p.2, h1.symm, h2.symm, h3.symm⟩
    generalize family.table T = table at hb ⊢
    unfold finished
    cases prePost with
    | false =>
      rw [if_neg (by simp)]
      refine ⟨rfl, by simp [piSequence], by simp [piSequence], by simp [piSequence], ?_, ?_⟩
      · intro t ht
        obtain ⟨p, hp, rfl⟩ := List.mem_map.mp ht
        exact ⟨(hb p hp).1.le, (hb p hp).2⟩
      · rintro i t r a d ⟨-, h1, h2, h3⟩
        exact .inl (hpi table i r a d h1 h2 h3)
    | true =>
      rw [if_pos rfl]
      refine ⟨rfl, by simp [piSequence, withPrePost], by simp [piSequence, withPrePost],
        by simp [piSequence, withPrePost], ?_, ?_⟩
      · intro t ht
        simp only [withPrePost, piSequence, List.mem_cons, List.mem_append, List.not_mem_nil,
          or_false] at ht
        rcases ht with rfl | ht | rfl
        · exact ⟨le_refl _, hT.le⟩
        · obtain ⟨p, hp, rfl⟩ := List.mem_map.mp ht
          exact ⟨(hb p hp).1.le, (hb p hp).2⟩
        · exact ⟨hT.le, le_refl _⟩
      · rintro i t r a d ⟨h0, h1, h2, h3⟩
        simp only [withPrePost, piSequence] at h0 h1 h2 h3
        cases i with
        | zero =>
          simp only [List.getElem?_cons_zero, Option.some.injEq] at h0 h1 h2 h3
          exact .inr ⟨rfl, h1.symm, h3.symm, .inl ⟨h0.symm, rfl, h2.symm⟩⟩
        | succ i =>
          simp only [List.getElem?_cons_succ] at h0 h1 h2 h3
          by_cases hi : i < table.length
          · rw [List.getElem?_append_left (by simpa using hi)] at h0 h1 h2 h3
            exact .inl (hpi table i r a d h1 h2 h3)
          · rw [List.getElem?_append_right (by simpa using hi)] at h0 h1 h2 h3
            simp only [List.length_map] at h0 h1 h2 h3
            have hi' : i = table.length := by
              by_contra hne
              have : i - table.length ≠ 0 := by omega
              obtain ⟨k, hk⟩ := Nat.exists_eq_succ_of_ne_zero this
              rw [hk] at h0
              simp at h0
            subst hi'
            simp only [Nat.sub_self, List.getElem?_cons_zero, Option.some.injEq] at h0 h1 h2 h3
            refine .inr ⟨rfl, h1.symm, h3.symm, .inr ⟨h0.symm, by simp [withPrePost, piSequence], ?_⟩⟩
            rw [← h2]
            unfold finalAngle
            split
            · exact .inr rfl
            · exact .inl rfl
  · intro h
    cases family with
    | ramsey => exact (C35_ramsey T prePost name).2 (by simpa [Family.Valid] using h)
    | spinEcho => exact (C35_spin_echo T prePost name).2 (by simpa [Family.Valid] using h)
    | carrPurcell n => exact (C36_carr_purcell T n prePost name).2 h
    | cpmg n => exact (C36_cpmg T n prePost name).2 h
    | uhrig n => exact (C37_uhrig T n prePost name).2 h
    | periodic n => exact (C38_periodic T n prePost name).2 h
    | walsh k => exact (C39_walsh T k prePost name).2 h
    | quadratic n m => exact (C40_quadratic T n m prePost name).2 h
    | xConcatenated l => exact (C41_x_concatenated T l prePost name).2 h
    | xyConcatenated l => exact (C42_returns T l prePost name).2 h

/-- **C43**, order: the times are strictly increasing for all families but the XY-concatenated one,
with or without pre and post rotations. -/
theorem C43_increasing (family : Family) (hxy : ∀ l, family ≠ .xyConcatenated l) (T : ℝ)
    (prePost : Bool) (name : Option String) (s : Sequence ℝ)
    (hs : family.call T prePost name = .ok s) : s.offsets.Pairwise (· < ·) := by
  obtain ⟨⟨hT, hv⟩, -⟩ := (C43_well_formed family T prePost name).ok hs
  have hxy' : ¬ family.IsXY := by
    cases family with
    | xyConcatenated l => exact absurd rfl (hxy l)
    | _ => exact id
  have ho := Family.table_ordered hv hxy' hT
  rw [Family.call_eq hv hT] at hs
  injection hs with hs
  subst hs
  unfold finished
  cases prePost with
  | false => rw [if_neg (by simp)]; exact ho.1
  | true => rw [if_pos rfl]; exact ordered_pairwise hT ho

/-- **C43**, order: the times of the XY-concatenated sequence are non-decreasing. -/
theorem C43_non_decreasing (l T : ℝ) (prePost : Bool) (name : Option String) (s : Sequence ℝ)
    (hs : newXYConcatenatedSequence T l prePost name = .ok s) : s.offsets.Pairwise (· ≤ ·) := by
  obtain ⟨⟨hT, hv⟩, table, hsorted, hb, hr⟩ := (C42_returns T l prePost name).ok hs
  have h1 : (table.map fun p => p.1).Pairwise (· ≤ ·) := by rwa [List.pairwise_map]
  unfold Realises at hr
  cases prePost with
  | false => rw [if_neg (by simp)] at hr; rw [hr]; exact h1
  | true =>
    rw [if_pos rfl] at hr
    have : s.offsets = 0 :: (table.map (fun p => p.1) ++ [T]) := by
      rcases hr.1 with h | h <;> rw [h] <;> rfl
    rw [this, List.pairwise_cons, List.pairwise_append]
    refine ⟨?_, h1, by simp, ?_⟩
    · intro t ht
      rw [List.mem_append, List.mem_singleton] at ht
      rcases ht with ht | rfl
      · obtain ⟨p, hp, rfl⟩ := List.mem_map.mp ht
        exact (hb p hp).1.le
      · exact hT.le
    · intro t ht t' ht'
      obtain ⟨p, hp, rfl⟩ := List.mem_map.mp ht
      rw [List.mem_singleton] at ht'
      rw [ht']
      exact (hb p hp).2

/-- **C43**, scaling: multiplying the duration by a positive factor multiplies all times by it and
changes nothing else. -/
theorem C43_scaling (family : Family) (T c : ℝ) (hc : 0 < c) (prePost : Bool)
    (name : Option String) (s : Sequence ℝ) (hs : family.call T prePost name = .ok s) :
    family.call (c * T) prePost name = .ok (stretch c s) := by
  obtain ⟨⟨hT, hv⟩, -⟩ := (C43_well_formed family T prePost name).ok hs
  rw [Family.call_eq hv hT] at hs
  injection hs with hs
  subst hs
  rw [Family.call_eq hv (mul_pos hc hT), Family.table_scale family hc, finished_scale]

/-- valid arguments of every family -/
example : ∀ family ∈ [Family.ramsey, .spinEcho, .carrPurcell 3, .cpmg 2.5, .uhrig 7, .periodic 1,
    .walsh 2000, .quadratic 2 3, .xConcatenated 5, .xyConcatenated 3], family.Valid := by
  intro family h
  simp only [List.mem_cons, List.not_mem_nil, or_false] at h
  rcases h with rfl | rfl | rfl | rfl | rfl | rfl | rfl | rfl | rfl | rfl <;>
    norm_num [Family.Valid]

end OpenControls
