import Verif.Props.Counts
import Verif.Props.HardwareXY

/-!
# C125: segments of the converted XY-concatenated sequences
-/

namespace OpenControls

open Spec RealInst

/-- **C125**, XY-concatenated: only two orders convert. Order 1, whose last pulse is at the end, has 8 segments; order 2 has
29, or 31 with pre and post rotations. -/
theorem C125_xy_segments (T l : ℝ) (hT8 : 1 / 10 ^ 8 < T) (prePost : Bool) (name : Option String) (s : Sequence ℝ)
    (hs : newXYConcatenatedSequence T l prePost name = .ok s) (R D m : ℝ) (hm : 11 / 10 ^ 9 ≤ m)
    (cname : Option String) (c : DrivenControl ℝ) (h : convertDDS s R D m cname = .ok c) :
    (⌊l⌋₊ = 1 ∧ prePost = false ∧ c.durations.length = 8) ∨
      (⌊l⌋₊ = 2 ∧ c.durations.length = if prePost then 31 else 29) := by
  have hs' : Family.call (.xyConcatenated l) T prePost name = .ok s := hs
  obtain ⟨N, hN, hlen⟩ := C125_pulses _ T prePost name s hs'
  obtain ⟨⟨hT, hv⟩, hw⟩ := (C43_well_formed (.xyConcatenated l) T prePost name).ok hs'
  have hcon := hw.constructed hT
  have hc := (converted hcon h).1
  have hgap : EachGap (fun g => 0 < g) (windows R D m s) := by
    refine EachGap.mono hc.2.2.2.2.2.2 fun g hg => ?_
    have := gap_ge hc.2.2.1 hg
    norm_num at hm this ⊢
    linarith
  have key := C125_segments s hcon (by rw [hw.1]; exact hT8) (fun p hp hn => by
    rcases hw.standard p hp with ⟨axis, h1, h2⟩ | ⟨h1, h2⟩
    · cases axis
      · exact not_negligible_pi (by simpa [h1, Axis.rabi] using hn.1)
      · exact not_negligible_pi (by simpa [h1, Axis.rabi] using hn.1)
      · exact not_negligible_pi (by simpa [h2, Axis.detuning] using hn.2)
    · exact not_negligible_half_pi (by simpa [h1] using hn.1)) R D m hgap cname c h
  rw [Family.call_eq hv hT, Except.ok.injEq] at hs'
  subst hs'
  obtain ⟨-, -, -, ⟨h1, rfl, -⟩ | ⟨h2, -⟩⟩ :=
    (C124_xy_concatenated T l prePost name _ hs R D m cname).mp ⟨c, h⟩
  · refine .inl ⟨h1, rfl, ?_⟩
    simp only [Family.HasPulses, h1] at hN
    rw [if_neg (by decide)] at hN
    have htab : xyTable T 1 = unitPulses (T / 4) 0 (builtXY 1) := by
      have := xyTable_built hT 0
      simpa using this
    have hoff : (finished T (Family.table (.xyConcatenated l) T) false name).offsets =
        [T / 4, T / 4 + T / 4, T / 4 + T / 4 + T / 4, T / 4 + T / 4 + T / 4 + T / 4] := by
      show (xyTable T ⌊l⌋₊).map (fun p => p.1) = _
      rw [h1, htab]
      simp [unitPulses, builtXY]
    rw [hoff, if_neg, if_pos] at key
    · simp only [List.length_cons, List.length_nil] at key
      omega
    · rw [show (finished T (Family.table (.xyConcatenated l) T) false name).duration = T from rfl]
      simp; ring
    · simp [hT.ne']
  · refine .inr ⟨h2, ?_⟩
    simp only [Family.HasPulses, h2] at hN
    rw [if_pos (by decide)] at hN
    have hb : ∀ p ∈ xyTable T 2, 0 < p.1 ∧ p.1 < T := fun p hp =>
      ⟨(xyTable_bounds hT 1 p hp).1, xy_two_end hT p hp⟩
    cases prePost with
    | false =>
      rw [if_neg, if_neg] at key
      · simp only [Bool.false_eq_true, if_false] at hlen ⊢
        omega
      · intro hl
        have hmem : T ∈ (xyTable T ⌊l⌋₊).map fun p => p.1 := List.mem_of_getLast? hl
        rw [h2] at hmem
        obtain ⟨p, hp, e⟩ := List.mem_map.mp hmem
        exact absurd e (hb p hp).2.ne
      · intro hl
        have hmem : (0 : ℝ) ∈ (xyTable T ⌊l⌋₊).map fun p => p.1 := List.mem_of_mem_head? hl
        rw [h2] at hmem
        obtain ⟨p, hp, e⟩ := List.mem_map.mp hmem
        exact absurd e (hb p hp).1.ne'
    | true =>
      rw [if_pos (show (finished T (Family.table (.xyConcatenated l) T) true name).offsets.head? = some 0 from rfl),
        if_pos] at key
      · simp only [if_true] at hlen ⊢
        omega
      · show (0 :: (((Family.table (.xyConcatenated l) T).map fun p => p.1) ++ [T])).getLast? = some T
        rw [← List.cons_append, List.getLast?_concat]

/-- order 1 of duration 6 in pulses of one second -/
example : ∃ s c, newXYConcatenatedSequence (6 : ℝ) 1 false none = .ok s ∧
    convertDDS s (2 * Real.pi) Real.pi (1 / 2) none = .ok c ∧ c.durations.length = 8 := by
  obtain ⟨s, hs, -⟩ := (C43_well_formed (.xyConcatenated 1) 6 false none).1
    ⟨by norm_num, by norm_num [Family.Valid]⟩
  have hpi := Real.pi_pos
  have e1 : Real.pi / (2 * Real.pi) = 1 / 2 := by field_simp
  obtain ⟨c, hc⟩ := (C124_xy_concatenated 6 1 false none s hs (2 * Real.pi) Real.pi (1 / 2) none).mpr (by
    refine ⟨by positivity, hpi, by norm_num, .inl ⟨by norm_num, rfl, ?_⟩⟩
    unfold piTime shortestGap
    rw [e1]
    norm_num)
  refine ⟨s, c, hs, hc, ?_⟩
  rcases C125_xy_segments 6 1 (by norm_num) false none s hs _ _ _ (by norm_num) none c hc with ⟨-, -, h⟩ | ⟨h, -⟩
  · exact h
  · norm_num at h

end OpenControls
