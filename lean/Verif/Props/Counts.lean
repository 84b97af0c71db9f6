import Verif.Proofs.Counts
import Verif.Proofs.Families
import Verif.Proofs.BuiltXY
import Verif.Props.EndToEnd
import Verif.Props.Hardware
import Verif.Props.Families

/-!
# C125: how many pulses and segments
-/

namespace OpenControls

open Spec RealInst

/-- **C125.** The number of π-pulses of every predefined sequence; pre and post rotations are two more. -/
theorem C125_pulses (family : Family) (T : ℝ) (prePost : Bool) (name : Option String) (s : Sequence ℝ)
    (hs : family.call T prePost name = .ok s) :
    ∃ N, family.HasPulses N ∧ s.offsets.length = N + if prePost then 2 else 0 := by
  obtain ⟨⟨hT, hv⟩, -⟩ := (C43_well_formed family T prePost name).ok hs
  rw [Family.call_eq hv hT, Except.ok.injEq] at hs
  subst hs
  refine ⟨(family.table T).length, ?_, ?_⟩
  · cases family with
    | ramsey => rfl
    | spinEcho => rfl
    | carrPurcell n => simp [Family.HasPulses, Family.table, onAxis, cpmgTimes]
    | cpmg n => simp [Family.HasPulses, Family.table, onAxis, cpmgTimes]
    | uhrig n => simp [Family.HasPulses, Family.table, onAxis, uhrigTimes]
    | periodic n => simp [Family.HasPulses, Family.table, onAxis, periodicTimes]
    | walsh k =>
      have hk : ⌊k⌋₊ ≠ 0 := (Nat.floor_pos.mpr hv.1).ne'
      simp only [Family.HasPulses, Family.table, onAxis, List.length_map, walsh_pulses hT]
      exact (edges_gray _ hk).1
    | quadratic n m =>
      simp only [Family.HasPulses, Family.table, quadratic_length, uhrigTimes, List.length_map,
        List.length_range']
      ring
    | xConcatenated l =>
      have hl : ⌊l⌋₊ ≠ 0 := (Nat.floor_pos.mpr hv).ne'
      simp only [Family.HasPulses, Family.table, onAxis, List.length_map, x_pulses hT hl]
    | xyConcatenated l =>
      obtain ⟨n, hn⟩ := Nat.exists_eq_succ_of_ne_zero (Nat.floor_pos.mpr hv).ne'
      have := built_length n
      simp only [Family.HasPulses, Family.table, hn, Nat.succ_eq_add_one, xyTable_built hT, unitPulses_length]
      by_cases h : n % 2 = 0
      · rw [if_pos h] at this
        rw [if_neg (by rw [Nat.even_iff]; omega)]
        exact this.2
      · rw [if_neg h] at this
        rw [if_pos (by rw [Nat.even_iff]; omega)]
        exact this.2
  · cases prePost <;> simp [finished, withPrePost, piSequence]

/-- **C125**, Walsh sequences: the Paley order is the Gray code of only one number of pulses, and all sequences differ in
their numbers of pulses. -/
theorem C125_gray (N M : ℕ) (h : grayCode N = grayCode M) : N = M := gray_injective h

open Classical in
/-- **C125**, converted sequences: each pulse is one segment and there is one more between any two pulses, before the
first and after the last, unless there is a pulse at the very start or the very end. -/
theorem C125_segments (s : Sequence ℝ) (hs : s.Constructed) (hT : 1 / 10 ^ 8 < s.duration)
    (hp : ∀ p ∈ pulseList s, ¬ (Negligible p.rabi ∧ Negligible p.detuning)) (R D m : ℝ)
    (hgap : EachGap (fun g => 0 < g) (windows R D m s)) (name : Option String) (c : DrivenControl ℝ)
    (h : convertDDS s R D m name = .ok c) :
    c.durations.length + (if s.offsets.head? = some 0 then 1 else 0) +
      (if s.offsets.getLast? = some s.duration then 1 else 0) = 2 * s.offsets.length + 1 := by
  obtain ⟨hc, h | h⟩ := converted hs h
  · exact absurd (allSmall_duration hs hc h.1) (not_le.mpr hT)
  · obtain ⟨-, rfl⟩ := h
    have hlen : (windows R D m s).length + (if s.offsets.head? = some 0 then 1 else 0) +
        (if s.offsets.getLast? = some s.duration then 1 else 0) = s.offsets.length + 2 := by
      obtain ⟨-, -, hr, ha, hd⟩ := hs.facts
      have hl : (pulseList s).length = s.offsets.length := by simp [pulseList, hr, ha, hd]
      unfold windows
      rw [List.length_append, List.length_append, List.length_map, hl]
      split <;> split <;> simp <;> omega
    obtain ⟨-, -, hr, ha, hd⟩ := hs.facts
    have hl : (pulseList s).length = s.offsets.length := by simp [pulseList, hr, ha, hd]
    obtain ⟨p, l, he, -, -, -⟩ := pad_cons hs hc
    have hdr := pad_driven (T := s.duration) (R := R) (D := D) (m := m) (ps := pulseList s)
      fun q hq => width_pos hc.1 hc.2.1 (hc.2.2.2.1 q hq) (hp q hq)
    rw [windows_eq hs, he] at hgap hlen
    have hk := kept_length hc.2.2.1 l p hgap
    rw [he] at hdr ⊢
    rw [hdr, hl] at hk
    simp only [ofSegments, List.length_map, hk, List.length_cons] at hlen ⊢
    omega

/-- **C125**, predefined sequences: a converted sequence of `N` π-pulses has `2N + 1` segments, and two more if there are
pre and post rotations, on hardware whose minimum segment duration is above numpy's tolerance. -/
theorem C125_family_segments (family : Family) (hxy : ∀ l, family ≠ .xyConcatenated l) (T : ℝ) (hT8 : 1 / 10 ^ 8 < T)
    (prePost : Bool) (name : Option String) (s : Sequence ℝ) (hs : family.call T prePost name = .ok s) (R D m : ℝ)
    (hm : 11 / 10 ^ 9 ≤ m) (cname : Option String) (c : DrivenControl ℝ) (h : convertDDS s R D m cname = .ok c) :
    ∃ N, family.HasPulses N ∧ c.durations.length = 2 * N + 1 + if prePost then 2 else 0 := by
  obtain ⟨N, hN, hlen⟩ := C125_pulses family T prePost name s hs
  refine ⟨N, hN, ?_⟩
  obtain ⟨⟨hT, hv⟩, hw⟩ := (C43_well_formed family T prePost name).ok hs
  have hcon := hw.constructed hT
  have hc := (converted hcon h).1
  have hgap : EachGap (fun g => 0 < g) (windows R D m s) := by
    refine EachGap.mono hc.2.2.2.2.2.2 fun g hg => ?_
    have := gap_ge hc.2.2.1 hg
    norm_num at hm this ⊢
    linarith
  have := C125_segments s hcon (by rw [hw.1]; exact hT8) (fun p hp hn => by
    rcases hw.standard p hp with ⟨axis, h1, h2⟩ | ⟨h1, h2⟩
    · cases axis
      · exact not_negligible_pi (by simpa [h1, Axis.rabi] using hn.1)
      · exact not_negligible_pi (by simpa [h1, Axis.rabi] using hn.1)
      · exact not_negligible_pi (by simpa [h2, Axis.detuning] using hn.2)
    · exact not_negligible_half_pi (by simpa [h1] using hn.1)) R D m hgap cname c h
  have hord := Family.table_ordered hv (by cases family <;> simp_all [Family.IsXY]) hT
  rw [Family.call_eq hv hT, Except.ok.injEq] at hs
  subst hs
  cases prePost with
  | false =>
    rw [if_neg, if_neg] at this
    · simp only [Bool.false_eq_true, if_false] at hlen ⊢
      omega
    · intro hl
      exact absurd (hord.2 _ (List.mem_of_getLast? hl)).2 (lt_irrefl _)
    · intro hl
      exact absurd (hord.2 _ (List.mem_of_mem_head? hl)).1 (lt_irrefl _)
  | true =>
    rw [if_pos (show (finished T (family.table T) true name).offsets.head? = some 0 from rfl), if_pos] at this
    · simp only [if_true] at hlen ⊢
      omega
    · show (0 :: (((family.table T).map fun p => p.1) ++ [T])).getLast? = some T
      rw [← List.cons_append, List.getLast?_concat]

/-- Uhrig: as many as asked for, with pre and post rotations two more -/
example : ∃ s, (Family.uhrig 5).call 1 true none = .ok s ∧ s.offsets.length = 7 := by
  obtain ⟨s, hs, -⟩ := (C43_well_formed (.uhrig 5) 1 true none).1 ⟨by norm_num, by norm_num [Family.Valid]⟩
  obtain ⟨N, hN, hl⟩ := C125_pulses _ _ _ _ s hs
  refine ⟨s, hs, ?_⟩
  have : N = ⌊(5 : ℝ)⌋₊ := hN
  rw [hl, this]
  norm_num

/-- the Walsh sequence of Paley order 10 has 12 pulses, and 10 is 12 xor 6 -/
example : ∃ s, (Family.walsh 10).call 1 false none = .ok s ∧ s.offsets.length = 12 := by
  obtain ⟨s, hs, -⟩ := (C43_well_formed (.walsh 10) 1 false none).1 ⟨by norm_num, by norm_num [Family.Valid]⟩
  obtain ⟨N, hN, hl⟩ := C125_pulses _ _ _ _ s hs
  refine ⟨s, hs, ?_⟩
  have : grayCode N = ⌊(10 : ℝ)⌋₊ := hN
  have e : ⌊(10 : ℝ)⌋₊ = grayCode 12 := by norm_num; decide
  rw [hl, C125_gray N 12 (this.trans e)]
  rfl

/-- 59 pulses for XY-concatenated order three -/
example : ∃ s, (Family.xyConcatenated 3).call 1 false none = .ok s ∧ s.offsets.length = 59 := by
  obtain ⟨s, hs, -⟩ := (C43_well_formed (.xyConcatenated 3) 1 false none).1
    ⟨by norm_num, by norm_num [Family.Valid]⟩
  obtain ⟨N, hN, hl⟩ := C125_pulses _ _ _ _ s hs
  refine ⟨s, hs, ?_⟩
  have e : ⌊(3 : ℝ)⌋₊ = 3 := by norm_num
  simp only [Family.HasPulses, e] at hN
  rw [if_neg (by decide)] at hN
  simp only [Bool.false_eq_true, if_false] at hl
  omega

/-- two CPMG pulses of a hundredth of a second with pre and post rotations: seven segments -/
example : ∃ s c, (Family.cpmg 2).call 1 true none = .ok s ∧
    convertDDS s (100 * Real.pi) 1 (1 / 1000) none = .ok c ∧ c.durations.length = 7 := by
  obtain ⟨s, hs, -⟩ := (C43_well_formed (.cpmg 2) 1 true none).1 ⟨one_pos, by norm_num [Family.Valid]⟩
  have hf : ⌊(2 : ℝ)⌋₊ = 2 := by norm_num
  have hpi := Real.pi_pos
  have e1 : Real.pi / (100 * Real.pi) = 1 / 100 := by field_simp
  have e2 : Real.pi / 2 / (100 * Real.pi) = 1 / 200 := by field_simp; norm_num
  obtain ⟨c, hc⟩ := (C124_cpmg 1 2 true none s hs (100 * Real.pi) 1 (1 / 1000) none).mpr (by
    unfold piTime endTime shortestGap
    rw [if_pos rfl, e1, e2, hf, max_eq_left (by norm_num), max_eq_left (by norm_num)]
    refine ⟨by positivity, one_pos, by norm_num, by norm_num, fun _ => by norm_num⟩)
  obtain ⟨N, hN, hl⟩ := C125_family_segments (.cpmg 2) (by simp) 1 (by norm_num) true none s hs _ _ _ (by norm_num)
    none c hc
  have : N = ⌊(2 : ℝ)⌋₊ := hN
  refine ⟨s, c, hs, hc, ?_⟩
  rw [hl, this, hf]
  rfl

end OpenControls
