import Verif.Proofs.HardwareQuadratic
import Verif.Props.Hardware

/-!
# C124: the hardware the quadratic sequences need
-/

namespace OpenControls

open Spec RealInst

/-- **C124**, quadratic with `n₁` inner pulses about Z and `n₂` outer pulses about X, `a = π/(2n₂+2)` and
`b = π/(2n₁+2)`: the first of the intervals between the outer pulses, of length `T sin² a`, decides. In it there must be
room for half an inner pulse, half an outer pulse or the rotation at the end, and a shortest gap within the distance
`T sin² a sin² b` of the first inner pulse to the ends of the interval, and for an inner pulse and a shortest gap within the
distance `T sin² a sin b sin 3b` of the first inner pulse to the second. -/
theorem C124_quadratic (T n₁ n₂ : ℝ) (prePost : Bool) (name : Option String) (s : Sequence ℝ)
    (hs : newQuadraticSequence T n₁ n₂ prePost name = .ok s) (R D m : ℝ) (cname : Option String) :
    (∃ c, convertDDS s R D m cname = .ok c) ↔ 0 < R ∧ 0 < D ∧ 0 ≤ m ∧
      zTime D m / 2 + endTime R m prePost + shortestGap m ≤
        T * Real.sin (Real.pi / (2 * (⌊n₂⌋₊ + 1))) ^ 2 * Real.sin (Real.pi / (2 * (⌊n₁⌋₊ + 1))) ^ 2 ∧
      zTime D m / 2 + piTime R m / 2 + shortestGap m ≤
        T * Real.sin (Real.pi / (2 * (⌊n₂⌋₊ + 1))) ^ 2 * Real.sin (Real.pi / (2 * (⌊n₁⌋₊ + 1))) ^ 2 ∧
      (2 ≤ ⌊n₁⌋₊ → zTime D m + shortestGap m ≤ T * Real.sin (Real.pi / (2 * (⌊n₂⌋₊ + 1))) ^ 2 *
        (Real.sin (Real.pi / (2 * (⌊n₁⌋₊ + 1))) * Real.sin (3 * (Real.pi / (2 * (⌊n₁⌋₊ + 1)))))) := by
  have hs' : Family.call (.quadratic n₁ n₂) T prePost name = .ok s := hs
  obtain ⟨⟨hT, hv⟩, hw⟩ := (C43_well_formed (.quadratic n₁ n₂) T prePost name).ok hs'
  have h₁ : 1 ≤ ⌊n₁⌋₊ := Nat.floor_pos.mpr hv.1
  have h₂ : 1 ≤ ⌊n₂⌋₊ := Nat.floor_pos.mpr hv.2
  have hinc : s.offsets.Pairwise (· < ·) := (Family.increasing_iff hs').mpr trivial
  rw [converts_iff (hw.constructed hT)]
  have ho := Family.table_ordered (family := .quadratic n₁ n₂) hv (fun h => h) hT
  rw [Family.call_eq hv hT] at hs'
  injection hs' with hs'
  have hwin : windows R D m s = (0, endTime R m prePost) ::
      ((quadraticTable ⌊n₁⌋₊ T 0 (uhrigTimes T ⌊n₂⌋₊)).map (axisWindow (piTime R m) (zTime D m)) ++
        [(T - endTime R m prePost, T)]) := by
    rw [← hs']
    exact windows_table hT (fun p hp => ho.2 p.1 (List.mem_map_of_mem hp)) prePost name
  have houter := uhrig_ordered hT ⌊n₂⌋₊
  have hgap : 0 ≤ m → (EachGap (fun g => m < g ∨ NearValue g m) (windows R D m s) ↔
      IntervalsRoom ⌊n₁⌋₊ T (piTime R m) (zTime D m) (shortestGap m) (endTime R m prePost) 0 (endTime R m prePost)
        (uhrigTimes T ⌊n₂⌋₊)) := fun hm => by
    have e : (fun g => m < g ∨ NearValue g m) = fun g => shortestGap m ≤ g := by
      funext g; exact propext (gap_passes hm)
    rw [e, hwin, EachGap]
    exact chain_quadratic h₁ (μ := shortestGap m) (uhrigTimes T ⌊n₂⌋₊) 0 (endTime R m prePost)
      (0, endTime R m prePost) (zero_add _).symm (by
        rw [List.pairwise_cons, List.pairwise_append]
        refine ⟨fun d hd => ?_, houter.1, List.pairwise_singleton _ _, fun c hc d hd => ?_⟩
        · rcases List.mem_append.mp hd with hd | hd
          · exact (houter.2 d hd).1
          · rw [List.mem_singleton.mp hd]; exact hT
        · rw [List.mem_singleton.mp hd]; exact (houter.2 c hc).2)
  rw [← quadratic_room hT h₁ h₂ (piTime R m) (zTime D m) (shortestGap m) (endTime R m prePost)]
  unfold Convertible
  constructor
  · rintro ⟨a1, a2, a3, -, -, -, h⟩
    exact ⟨a1, a2, a3, (hgap a3).mp h⟩
  · rintro ⟨a1, a2, a3, h⟩
    exact ⟨a1, a2, a3, fun p hp => (hw.standard p hp).facts.1, fun p hp => (hw.standard p hp).facts.2.1, hinc,
      (hgap a3).mpr h⟩

/-- the quadratic sequence with one inner and one outer pulse, pulses at T/4, T/2 and 3T/4, of duration 1: rates of 4π
suffice, rates of 3π do not -/
example : ∃ s, newQuadraticSequence (1 : ℝ) 1 1 false none = .ok s ∧
    (∃ c, convertDDS s (4 * Real.pi) (4 * Real.pi) 0 none = .ok c) ∧
    ¬ ∃ c, convertDDS s (3 * Real.pi) (3 * Real.pi) 0 none = .ok c := by
  obtain ⟨s, hs, -⟩ := (C43_well_formed (.quadratic 1 1) 1 false none).1 ⟨one_pos, by norm_num [Family.Valid]⟩
  have hf : ⌊(1 : ℝ)⌋₊ = 1 := by norm_num
  have hpi := Real.pi_pos
  have hsin : Real.sin (Real.pi / (2 * (((1 : ℕ) : ℝ) + 1))) ^ 2 = 1 / 2 := by
    have : Real.pi / (2 * (((1 : ℕ) : ℝ) + 1)) = Real.pi / 4 := by norm_num
    rw [this, Real.sin_pi_div_four, div_pow, Real.sq_sqrt (by norm_num)]; norm_num
  have e : ∀ k : ℝ, 0 < k → zTime (k * Real.pi) 0 = 1 / k ∧ piTime (k * Real.pi) 0 = 1 / k := by
    intro k hk
    have : Real.pi / (k * Real.pi) = 1 / k := by field_simp
    unfold zTime piTime
    rw [this]
    exact ⟨max_eq_left (by positivity), max_eq_left (by positivity)⟩
  refine ⟨s, hs, ?_, ?_⟩
  · rw [C124_quadratic 1 1 1 false none s hs, hf, hsin, (e 4 (by norm_num)).1, (e 4 (by norm_num)).2,
      shortestGap_zero]
    refine ⟨by positivity, by positivity, le_rfl, ?_, ?_, fun h => absurd h (by norm_num)⟩
    · simp only [endTime, Bool.false_eq_true, if_false]; norm_num
    · norm_num
  · rw [C124_quadratic 1 1 1 false none s hs, hf, hsin, (e 3 (by norm_num)).1, (e 3 (by norm_num)).2,
      shortestGap_zero]
    rintro ⟨-, -, -, -, h, -⟩
    norm_num at h

end OpenControls
