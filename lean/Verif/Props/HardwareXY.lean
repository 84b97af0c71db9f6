import Verif.Props.HardwareQuadratic
import Verif.Proofs.FiniteWidthFamilies

/-!
# C124: the hardware the XY-concatenated sequences need
-/

namespace OpenControls

open Spec RealInst

/-- **C124**, XY-concatenated. Order 1 has a pulse at its end and converts, without pre and post rotations only, if there is
room for one and a half pulses and a shortest gap in `T/4`. Order 2 converts if within `T/16` there is room for a
pulse in the plane and a shortest gap, for half such a pulse, half a pulse about Z and a shortest gap, and for half a
pulse, the rotation at the end and a shortest gap. Higher orders never convert. -/
theorem C124_xy_concatenated (T l : ℝ) (prePost : Bool) (name : Option String) (s : Sequence ℝ)
    (hs : newXYConcatenatedSequence T l prePost name = .ok s) (R D m : ℝ) (cname : Option String) :
    (∃ c, convertDDS s R D m cname = .ok c) ↔ 0 < R ∧ 0 < D ∧ 0 ≤ m ∧
      ((⌊l⌋₊ = 1 ∧ prePost = false ∧ 3 / 2 * piTime R m + shortestGap m ≤ T / 4) ∨
       (⌊l⌋₊ = 2 ∧ piTime R m + shortestGap m ≤ T / 16 ∧
        piTime R m / 2 + zTime D m / 2 + shortestGap m ≤ T / 16 ∧
        piTime R m / 2 + endTime R m prePost + shortestGap m ≤ T / 16)) := by
  have hs' : Family.call (.xyConcatenated l) T prePost name = .ok s := hs
  obtain ⟨⟨hT, hv⟩, hw⟩ := (C43_well_formed (.xyConcatenated l) T prePost name).ok hs'
  have hinc := Family.increasing_iff hs'
  rw [converts_iff (hw.constructed hT)]
  have hsep : Family.Separate (.xyConcatenated l) prePost ↔ (⌊l⌋₊ = 1 ∧ prePost = false) ∨ ⌊l⌋₊ = 2 := by
    have h1 : 1 ≤ ⌊l⌋₊ := Nat.floor_pos.mpr hv
    have h3 : l < 3 ↔ ⌊l⌋₊ < 3 := by
      rw [Nat.floor_lt (by linarith [show (1 : ℝ) ≤ l from hv])]; norm_num
    have h2 : l < 2 ↔ ⌊l⌋₊ < 2 := by
      rw [Nat.floor_lt (by linarith [show (1 : ℝ) ≤ l from hv])]; norm_num
    show (l < 3 ∧ (l < 2 → prePost = false)) ↔ _
    rw [h3, h2]
    cases prePost <;> simp <;> omega
  have hrest : Convertible R D m s ↔ 0 < R ∧ 0 < D ∧ 0 ≤ m ∧ Family.Separate (.xyConcatenated l) prePost ∧
      EachGap (fun g => shortestGap m ≤ g) (windows R D m s) := by
    have e : 0 ≤ m → (fun g => m < g ∨ NearValue g m) = fun g => shortestGap m ≤ g := fun hm => by
      funext g; exact propext (gap_passes hm)
    unfold Convertible
    rw [hinc]
    constructor
    · rintro ⟨a1, a2, a3, -, -, h, h'⟩
      exact ⟨a1, a2, a3, h, by rw [← e a3]; exact h'⟩
    · rintro ⟨a1, a2, a3, h, h'⟩
      exact ⟨a1, a2, a3, fun p hp => (hw.standard p hp).facts.1, fun p hp => (hw.standard p hp).facts.2.1, h,
        by rw [e a3]; exact h'⟩
  rw [hrest, hsep]
  rw [Family.call_eq hv hT] at hs'
  injection hs' with hs'
  refine and_congr_right fun hR => and_congr_right fun hD => and_congr_right fun hm => ?_
  have hw0 : 0 ≤ piTime R m := hm.trans (le_max_right _ _)
  have key1 : ⌊l⌋₊ = 1 → prePost = false → (EachGap (fun g => shortestGap m ≤ g) (windows R D m s) ↔
      3 / 2 * piTime R m + shortestGap m ≤ T / 4) := by
    intro h1 hpp
    subst hpp
    have htab : xyTable T 1 = [(T / 4, Axis.x), (T / 2, .y), (3 * T / 4, .x), (T, .y)] := by
      rw [xyTable_one hT]
      simp only [List.map_cons, List.map_nil]
      rw [show ((1 : ℕ) : ℝ) * (T / 4 ^ 1) = T / 4 by push_cast; ring,
        show ((2 : ℕ) : ℝ) * (T / 4 ^ 1) = T / 2 by push_cast; ring,
        show ((3 : ℕ) : ℝ) * (T / 4 ^ 1) = 3 * T / 4 by push_cast; ring,
        show ((4 : ℕ) : ℝ) * (T / 4 ^ 1) = T by push_cast; ring]
    have hwin : windows R D m s = [(0, 0), (T / 4 - piTime R m / 2, T / 4 + piTime R m / 2),
        (T / 2 - piTime R m / 2, T / 2 + piTime R m / 2),
        (3 * T / 4 - piTime R m / 2, 3 * T / 4 + piTime R m / 2), (T - piTime R m, T)] := by
      rw [← hs']
      show windows R D m (piSequence T (xyTable T ⌊l⌋₊) name) = _
      unfold windows
      rw [pulseList_table, h1, htab, if_neg, if_pos,
        show (piSequence T [(T / 4, Axis.x), (T / 2, .y), (3 * T / 4, .x), (T, .y)] name).duration = T from rfl]
      · have n1 : T / 4 ≠ 0 := by positivity
        have n2 : T / 2 ≠ 0 := by positivity
        have n3 : 3 * T / 4 ≠ 0 := by positivity
        have m1 : T / 4 ≠ T := by intro h; linarith
        have m2 : T / 2 ≠ T := by intro h; linarith
        have m3 : 3 * T / 4 ≠ T := by intro h; linarith
        simp only [List.map_cons, List.map_nil, window, width_axis, if_neg n1, if_neg n2, if_neg n3, if_neg m1,
          if_neg m2, if_neg m3, if_neg hT.ne', if_true]
        rfl
      · rfl
      · intro h
        have : some (T / 4) = some (0 : ℝ) := h
        injection this with this
        linarith
    rw [hwin]
    simp only [EachGap, List.isChain_cons_cons, List.isChain_singleton, and_true]
    constructor
    · rintro ⟨-, -, -, h⟩
      linarith
    · intro h
      exact ⟨by linarith, by linarith, by linarith, by linarith⟩
  have key2 : ⌊l⌋₊ = 2 → (EachGap (fun g => shortestGap m ≤ g) (windows R D m s) ↔
      piTime R m + shortestGap m ≤ T / 16 ∧
        piTime R m / 2 + zTime D m / 2 + shortestGap m ≤ T / 16 ∧
        piTime R m / 2 + endTime R m prePost + shortestGap m ≤ T / 16) := by
    intro h2
    have hwin : windows R D m s = (0, endTime R m prePost) ::
        ((xyTable T 2).map (axisWindow (piTime R m) (zTime D m)) ++ [(T - endTime R m prePost, T)]) := by
      rw [← hs']
      show windows R D m (finished T (xyTable T ⌊l⌋₊) prePost name) = _
      rw [h2]
      refine windows_table hT (fun p hp => ⟨?_, xy_two_end hT p hp⟩) prePost name
      exact (xyTable_bounds hT 1 p hp).1
    rw [hwin, xyTable_two hT]
    simp only [List.map_cons, List.map_nil, List.cons_append, List.nil_append, EachGap, List.isChain_cons_cons,
      List.isChain_singleton, and_true, axisWindow, if_true, reduceCtorEq, if_false]
    push_cast
    constructor
    · rintro ⟨a1, a2, a3, a4, -⟩
      exact ⟨by linarith, by linarith, by linarith⟩
    · rintro ⟨a1, a2, a3⟩
      refine ⟨?_, ?_, ?_, ?_, ?_, ?_, ?_, ?_, ?_, ?_, ?_, ?_, ?_, ?_, ?_⟩ <;> linarith
  constructor
  · rintro ⟨⟨h1, hpp⟩ | h2, h⟩
    · exact .inl ⟨h1, hpp, (key1 h1 hpp).mp h⟩
    · exact .inr ⟨h2, (key2 h2).mp h⟩
  · rintro (⟨h1, hpp, h⟩ | ⟨h2, h⟩)
    · exact ⟨.inl ⟨h1, hpp⟩, (key1 h1 hpp).mpr h⟩
    · exact ⟨.inr h2, (key2 h2).mpr h⟩

/-- the sequences of orders 1 and 2 exist, and order 1 of duration 6 converts with a maximum Rabi rate of π -/
example : (∃ s, newXYConcatenatedSequence (1 : ℝ) 2 true none = .ok s) ∧
    ∃ s, newXYConcatenatedSequence (6 : ℝ) 1 false none = .ok s ∧
      ∃ c, convertDDS s Real.pi Real.pi 0 none = .ok c := by
  obtain ⟨s, hs, -⟩ := (C43_well_formed (.xyConcatenated 2) 1 true none).1 ⟨one_pos, by norm_num [Family.Valid]⟩
  obtain ⟨s', hs', -⟩ := (C43_well_formed (.xyConcatenated 1) 6 false none).1
    ⟨by norm_num, by norm_num [Family.Valid]⟩
  refine ⟨⟨s, hs⟩, s', hs', ?_⟩
  rw [C124_xy_concatenated 6 1 false none s' hs', piTime_zero Real.pi_pos, shortestGap_zero]
  refine ⟨Real.pi_pos, Real.pi_pos, le_rfl, .inl ⟨by norm_num, rfl, ?_⟩⟩
  rw [div_self Real.pi_pos.ne']
  norm_num

end OpenControls
